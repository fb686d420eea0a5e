import Verif.Model.Outcome
/-
`ICP::save_log_file`, /repo/mp2p_icp/src/ICP.cpp:384-467.

Two parts: the shared counter (run by many threads), and the file-name template.
Not modelled: creating the directory and writing the file itself (`save_to_file`).
-/
namespace Verif

/-! ### The counter -/

/-- Where a thread is inside `save_log_file`.  `d` = `p.decimationDebugFiles` of the call.
* `idle`: not in the function;
* `waiting d`: before `lockHelper(counterMtx)` (line 395);
* `locked d`: mutex taken, counter not read yet;
* `loaded d v`: `logFileCounter` read as `v`, not yet written back (`logFileCounter++` is a read and a
  write of a plain `unsigned int`, line 397);
* `stored d v`: counter written, mutex still held; the decimation test (399-400) comes next;
* `writing v`: mutex released, the file of record `v` not written yet. -/
inductive LogPC where
  | idle
  | waiting (d : Nat)
  | locked (d : Nat)
  | loaded (d v : Nat)
  | stored (d v : Nat)
  | writing (v : Nat)
  deriving DecidableEq, Repr

/-- State shared by all threads, the position of each thread, and two ghost logs: `issued` = (thread, id,
decimation) of each call that took an id, oldest first; `files` = ids of the files written. -/
structure LogState (Tid : Type) where
  counter : Nat
  owner : Option Tid
  pc : Tid → LogPC
  issued : List (Tid × Nat × Nat)
  files : List Nat

/-- `unsigned int` arithmetic (32 bits). -/
def u32 (n : Nat) : Nat := n % 4294967296

/-- Update of one thread's position. -/
def setPC {Tid : Type} [DecidableEq Tid] (pc : Tid → LogPC) (t : Tid) (x : LogPC) : Tid → LogPC :=
  fun u => if u = t then x else pc u

/-- Decimation test, ICP.cpp:399: true = write the file. -/
def logSelected (d v : Nat) : Bool := !(decide (d > 1) && decide (v % d ≠ 0))

/-- One atomic step of thread `t` in `save_log_file`.  Calls with `generateDebugFiles = false` (line 388)
do nothing and are not represented. -/
inductive LogStep {Tid : Type} [DecidableEq Tid] : LogState Tid → LogState Tid → Prop where
  | call (s : LogState Tid) (t : Tid) (d : Nat) (h : s.pc t = .idle) :
      LogStep s { s with pc := setPC s.pc t (.waiting d) }
  | lock (s : LogState Tid) (t : Tid) (d : Nat) (h : s.pc t = .waiting d) (ho : s.owner = none) :
      LogStep s { s with pc := setPC s.pc t (.locked d), owner := some t }
  | load (s : LogState Tid) (t : Tid) (d : Nat) (h : s.pc t = .locked d) :
      LogStep s { s with pc := setPC s.pc t (.loaded d s.counter) }
  | store (s : LogState Tid) (t : Tid) (d v : Nat) (h : s.pc t = .loaded d v) :
      LogStep s { s with pc := setPC s.pc t (.stored d v), counter := u32 (v + 1),
                         issued := s.issued ++ [(t, v, d)] }
  | skip (s : LogState Tid) (t : Tid) (d v : Nat) (h : s.pc t = .stored d v)
      (hd : logSelected d v = false) :
      LogStep s { s with pc := setPC s.pc t .idle, owner := none }
  | keep (s : LogState Tid) (t : Tid) (d v : Nat) (h : s.pc t = .stored d v)
      (hd : logSelected d v = true) :
      LogStep s { s with pc := setPC s.pc t (.writing v), owner := none }
  | write (s : LogState Tid) (t : Tid) (v : Nat) (h : s.pc t = .writing v) :
      LogStep s { s with pc := setPC s.pc t .idle, files := s.files ++ [v] }

/-- Program start: `static unsigned int logFileCounter = 0`. -/
def LogState.init (Tid : Type) : LogState Tid :=
  { counter := 0, owner := none, pc := fun _ => .idle, issued := [], files := [] }

/-- States reachable by any interleaving. -/
inductive LogReach {Tid : Type} [DecidableEq Tid] : LogState Tid → Prop where
  | init : LogReach (LogState.init Tid)
  | step {s s' : LogState Tid} : LogReach s → LogStep s s' → LogReach s'

/-! ### The file name -/

/-- `std::match_results::format` with ECMAScript rules for a regex without groups: what a replacement
text produces, given the text before the match (since the previous match), the match and the rest.
`fuel` bounds the recursion by the length of the text. -/
def expandFormat (pre mat suf : List Char) : Nat → List Char → List Char
  | 0, _ => []
  | _, [] => []
  | n + 1, c :: cs =>
    if c ≠ '$' then c :: expandFormat pre mat suf n cs
    else match cs with
      | [] => ['$']
      | x :: rest =>
        if x = '$' then '$' :: expandFormat pre mat suf n rest
        else if x = '&' then mat ++ expandFormat pre mat suf n rest
        else if x = '`' then pre ++ expandFormat pre mat suf n rest
        else if x = '\'' then suf ++ expandFormat pre mat suf n rest
        else if x.isDigit then
          match rest with
          | y :: rest' =>
            if y.isDigit then
              (if x = '0' ∧ y = '0' then mat else []) ++ expandFormat pre mat suf n rest'
            else (if x = '0' then mat else []) ++ expandFormat pre mat suf n rest
          | [] => if x = '0' then mat else []
        else '$' :: expandFormat pre mat suf n cs

/-- `std::regex_replace(text, std::regex(pat), value)` for a literal, non-empty pattern: leftmost
non-overlapping matches.  `pre` = text since the last match; `fuel` ≥ length of the text. -/
def regexReplaceGo (pat value : List Char) : Nat → List Char → List Char → List Char
  | 0, _, _ => []
  | _, _, [] => []
  | n + 1, pre, c :: cs =>
    if pat.isPrefixOf (c :: cs) then
      let rest := (c :: cs).drop pat.length
      expandFormat pre pat rest (value.length + 1) value ++ regexReplaceGo pat value n [] rest
    else c :: regexReplaceGo pat value n (pre ++ [c]) cs

/-- `std::regex_replace`. -/
def regexReplace (pat value text : List Char) : List Char :=
  regexReplaceGo pat value (text.length + 1) [] text

/-- `mrpt::format("%05u", n)`. -/
def fmt05u (n : Nat) : List Char :=
  let d := Nat.toDigits 10 n
  List.replicate (5 - d.length) '0' ++ d

/-- The placeholders, ICP.cpp:406-440. -/
def phUniqueId : List Char := "$UNIQUE_ID".toList
def phGlobalId : List Char := "$GLOBAL_ID".toList
def phGlobalLabel : List Char := "$GLOBAL_LABEL".toList
def phLocalId : List Char := "$LOCAL_ID".toList
def phLocalLabel : List Char := "$LOCAL_LABEL".toList

/-- Substitutions of `save_log_file`, ICP.cpp:403-441, in the order of the code.  `none` = the map has no
id / label: 0 and the empty string are used. -/
def logFileName (format : List Char) (uid : Nat) (gid : Option Nat) (glabel : Option (List Char))
    (lid : Option Nat) (llabel : Option (List Char)) : List Char :=
  let f := regexReplace phUniqueId (fmt05u (u32 uid)) format
  let f := regexReplace phGlobalId (fmt05u (u32 (gid.getD 0))) f
  let f := regexReplace phGlobalLabel (glabel.getD []) f
  let f := regexReplace phLocalId (fmt05u (u32 (lid.getD 0))) f
  regexReplace phLocalLabel (llabel.getD []) f

end Verif
