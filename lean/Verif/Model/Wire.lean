import Mathlib.Data.List.Lex
import Mathlib.Order.Fin.Basic
import Verif.Model.Outcome
/-
`mrpt::serialization::CArchive` (external to /repo, MRPT): the primitive readers and writers the serializers of
mp2p_icp are written with.  A stream is the list of its remaining bytes.  Multi-byte integers are
little-endian; `double` is written as its 8 byte bit pattern.
-/
namespace Verif
namespace Wire

abbrev Byte := Fin 256
abbrev Bytes := List Byte
/-- an IEEE `double`, as its bit pattern: serialization never does arithmetic on it -/
abbrev F64 := BitVec 64

/-- A reader: consumes a prefix of the stream. -/
def Rd (α : Type) := Bytes → Outcome (α × Bytes)

namespace Rd
variable {α β : Type}
def pure (a : α) : Rd α := fun s => .ok (a, s)
def bind (g : Rd α) (f : α → Rd β) : Rd β := fun s => (g s).bind fun r => f r.1 r.2
instance : Monad Rd where
  pure := Rd.pure
  bind := Rd.bind
/-- `THROW_EXCEPTION` / `MRPT_THROW_UNKNOWN_SERIALIZATION_VERSION` -/
def throw : Rd α := fun _ => .throw
/-- `ASSERT_(c)` -/
def assert (c : Prop) [Decidable c] : Rd Unit := if c then Rd.pure () else Rd.throw
end Rd

/-- `ReadBuffer` of one byte; the end of the stream is an exception. -/
def byte : Rd Byte
  | [] => .throw
  | b :: s => .ok (b, s)

/-- `k` bytes, little-endian, of `v` (a cast to the `8k`-bit unsigned type). -/
def putN : Nat → Nat → Bytes
  | 0, _ => []
  | k + 1, v => (⟨v % 256, Nat.mod_lt _ (by decide)⟩ : Byte) :: putN k (v / 256)
def getN : Nat → Rd Nat
  | 0 => Rd.pure 0
  | k + 1 => byte.bind fun b => (getN k).bind fun r => Rd.pure (b.val + 256 * r)

/-- `WriteAs<uint8_t>`, `WriteAs<uint32_t>`, `uint64_t`/`size_t`. -/
def putU8 (v : Nat) : Bytes := putN 1 v
def putU32 (v : Nat) : Bytes := putN 4 v
def putU64 (v : Nat) : Bytes := putN 8 v
def getU8 : Rd Nat := getN 1
def getU32 : Rd Nat := getN 4
def getU64 : Rd Nat := getN 8

/-- `bool`: one byte, any non-zero value reads as true. -/
def putBool (b : Bool) : Bytes := putU8 (if b then 1 else 0)
def getBool : Rd Bool := getU8.bind fun v => Rd.pure (decide (v ≠ 0))

/-- `double` -/
def putF (x : F64) : Bytes := putU64 x.toNat
def getF : Rd F64 := getU64.bind fun v => Rd.pure (BitVec.ofNat 64 v)

/-- `n` raw bytes -/
def getRaw : Nat → Rd Bytes
  | 0 => Rd.pure []
  | n + 1 => byte.bind fun b => (getRaw n).bind fun bs => Rd.pure (b :: bs)

/-- `std::string`: 32-bit length, then the characters (bytes). -/
def putStr (s : Bytes) : Bytes := putU32 s.length ++ s
def getStr : Rd Bytes := getU32.bind getRaw

/-- characters of an ASCII literal -/
def asc (s : String) : Bytes := s.toList.map fun c => ⟨c.toNat % 256, Nat.mod_lt _ (by decide)⟩

/-- `n` elements one after the other -/
def putMany {α : Type} (put : α → Bytes) (l : List α) : Bytes := l.flatMap put
def getMany {α : Type} (get : Rd α) : Nat → Rd (List α)
  | 0 => Rd.pure []
  | n + 1 => get.bind fun a => (getMany get n).bind fun l => Rd.pure (a :: l)

/-- `std::vector<T>` (stl_serialization.h): tag, name of the element type, 32-bit count, elements. -/
def putVec {α : Type} (ty : Bytes) (put : α → Bytes) (l : List α) : Bytes :=
  putStr (asc "std::vector") ++ putStr ty ++ putU32 l.length ++ putMany put l
def getVec {α : Type} (ty : Bytes) (get : Rd α) : Rd (List α) :=
  getStr.bind fun pref => (Rd.assert (pref = asc "std::vector")).bind fun _ =>
  getStr.bind fun t => (Rd.assert (t = ty)).bind fun _ =>
  getU32.bind fun n => getMany get n

/-- `std::optional<T>` (stl_serialization.h): tag, type name, flag, value. -/
def putOpt {α : Type} (ty : Bytes) (put : α → Bytes) (o : Option α) : Bytes :=
  putStr (asc "std::optional") ++ putStr ty ++
  (match o with
   | none => putBool false
   | some a => putBool true ++ put a)
def getOpt {α : Type} (ty : Bytes) (get : Rd α) : Rd (Option α) :=
  getStr.bind fun pref => (Rd.assert (pref = asc "std::optional")).bind fun _ =>
  getStr.bind fun t => (Rd.assert (t = ty)).bind fun _ =>
  getBool.bind fun has => if has then get.bind fun a => Rd.pure (some a) else Rd.pure none

/-- `std::pair<T1,T2>` -/
def putPair {α β : Type} (ty1 ty2 : Bytes) (put1 : α → Bytes) (put2 : β → Bytes) (p : α × β) : Bytes :=
  putStr (asc "std::pair") ++ putStr ty1 ++ putStr ty2 ++ put1 p.1 ++ put2 p.2
def getPair {α β : Type} (ty1 ty2 : Bytes) (get1 : Rd α) (get2 : Rd β) : Rd (α × β) :=
  getStr.bind fun pref => (Rd.assert (pref = asc "std::pair")).bind fun _ =>
  getStr.bind fun t => (Rd.assert (t = ty1)).bind fun _ =>
  getStr.bind fun t => (Rd.assert (t = ty2)).bind fun _ =>
  get1.bind fun a => get2.bind fun b => Rd.pure (a, b)

/-- `std::map<K,V>` (stl_serialization.h): tag, type names, 32-bit count, key/value pairs in key order.  The reader
returns the pairs in stream order; the caller inserts them. -/
def putMap {α β : Type} (ty1 ty2 : Bytes) (put1 : α → Bytes) (put2 : β → Bytes) (l : List (α × β)) : Bytes :=
  putStr (asc "std::map") ++ putStr ty1 ++ putStr ty2 ++ putU32 l.length ++
    putMany (fun e => put1 e.1 ++ put2 e.2) l
def getMap {α β : Type} (ty1 ty2 : Bytes) (get1 : Rd α) (get2 : Rd β) : Rd (List (α × β)) :=
  getStr.bind fun pref => (Rd.assert (pref = asc "std::map")).bind fun _ =>
  getStr.bind fun t => (Rd.assert (t = ty1)).bind fun _ =>
  getStr.bind fun t => (Rd.assert (t = ty2)).bind fun _ =>
  getU32.bind fun n => getMany (get1.bind fun a => get2.bind fun b => Rd.pure (a, b)) n

/-- `CArchive::WriteObject` of a `CSerializable`: class name (length with the top bit set, so at most 127
characters), version byte, contents, end flag 0x88. -/
def putObj (cls : Bytes) (ver : Nat) (body : Bytes) : Bytes :=
  putU8 (128 + cls.length) ++ cls ++ putU8 ver ++ body ++ putU8 0x88
/-- `CArchive::ReadObject` into an object of class `cls`.  Simplification: the pre-2004 header with a 32-bit
length is refused. -/
def getObj {α : Type} (cls : Bytes) (body : Nat → Rd α) : Rd α :=
  getU8.bind fun l => (Rd.assert (128 ≤ l)).bind fun _ =>
  (getRaw (l - 128)).bind fun name => (Rd.assert (name = cls)).bind fun _ =>
  getU8.bind fun ver => (body ver).bind fun x =>
  getU8.bind fun e => (Rd.assert (e = 0x88)).bind fun _ => Rd.pure x

/-- Serializer of an external (MRPT) class: poses with their covariances, map layers. -/
structure Codec (α : Type) where
  put : α → Bytes
  get : Rd α

end Wire
end Verif
