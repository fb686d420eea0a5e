import Verif.Spec.IcpYaml
import Verif.Props.Pipeline
import Verif.Model.Icp
/-
C80: an ICP pipeline is built as its YAML file says.
-/
namespace Verif
namespace Props
open IcpYaml Spec
variable {Reg Y P I S M Q W : Type}

theorem section_iff {Obj : Type} (load : Reg → String → Outcome Reg) (create : Reg → String → Y → Outcome Obj) (one : W) (reg reg' : Reg)
    (s : Option (Option (List (YEntry Y W)))) (lst : List (Obj × W)) :
    section_ load create one reg s = .ok (lst, reg') ↔ SectionGives load create one reg s lst reg' := by
  unfold section_ SectionGives
  cases s with
  | none =>
    simp only [Outcome.ok.injEq, Prod.mk.injEq, true_and, reduceCtorEq, false_and, exists_false, or_false]
    constructor
    · rintro ⟨rfl, rfl⟩; exact ⟨rfl, rfl⟩
    · rintro ⟨rfl, rfl⟩; exact ⟨rfl, rfl⟩
  | some y =>
    cases y with
    | none => simp [initList]
    | some es =>
      have hex := yaml_list_exact (⟨load, create⟩ : Registry Reg Y Obj) one reg reg' [] lst es
      simp only [reduceCtorEq, false_and, false_or, Option.some.injEq]
      constructor
      · intro h
        refine ⟨es, rfl, hex.1 ?_⟩
        revert h
        rcases initList (⟨load, create⟩ : Registry Reg Y Obj) one reg [] (some es) with ⟨l, _ | r⟩
        · simp
        · simp
      · rintro ⟨es', rfl, h⟩
        rw [hex.2 h]

/-- The pipeline made of a file is the one the file describes, and there is one exactly if the file describes one. -/
theorem icp_yaml_exact (f : Factory Reg Y P I S M Q) (one : W) (reg : Reg) (c : Conf Y W) (icp : Icp I S M Q W) (p : P) :
    fromYaml f one reg c = .ok (icp, p) ↔ Describes f one reg c icp p := by
  unfold fromYaml Describes
  cases hc : c.cls with
  | none => simp
  | some cls =>
    simp only [Outcome.bind_eq_ok, Outcome.assert_eq_ok, Outcome.ok.injEq, Prod.mk.injEq]
    constructor
    · rintro ⟨reg1, h1, i, h2, i', h3, ⟨ss, reg2⟩, h4, ⟨ms, reg3⟩, h5, -, h6, ⟨qs, reg4⟩, h7, p', h8, rfl, rfl⟩
      refine ⟨cls, reg1, i, ss, reg2, ms, reg3, reg4, rfl, ?_, h2, ?_, (section_iff ..).1 h4, rfl, (section_iff ..).1 h5, rfl, ?_,
        (section_iff ..).1 h7, ?_⟩
      · cases hp : c.plugin with
        | none => rw [hp] at h1; simp only [doPlugin, Outcome.ok.injEq] at h1; exact Or.inl ⟨rfl, h1.symm⟩
        | some m => rw [hp] at h1; exact Or.inr ⟨m, rfl, h1⟩
      · cases hd : c.derived with
        | none => rw [hd] at h3; simp only [doDerive, Outcome.ok.injEq] at h3; exact Or.inl ⟨rfl, h3.symm⟩
        | some y => rw [hd] at h3; exact Or.inr ⟨y, rfl, h3⟩
      · intro hq; rw [hq] at h6; simp at h6
      · unfold doParams at h8
        cases hd : c.derived with
        | none =>
          rw [hd] at h8
          simp only at h8
          cases hpa : c.params with
          | none => rw [hpa] at h8; simp at h8
          | some y => rw [hpa] at h8; exact Or.inl ⟨rfl, y, rfl, h8⟩
        | some y => rw [hd] at h8; simp only [Outcome.ok.injEq] at h8; exact Or.inr ⟨by simp, h8.symm⟩
    · rintro ⟨cls', reg1, i, ss, reg2, ms, reg3, reg4, h0, h1, h2, h3, h4, h4', h5, h5', h6, h7, h8⟩
      cases h0
      refine ⟨reg1, ?_, i, h2, icp.core, ?_, (ss, reg2), (section_iff ..).2 h4, (ms, reg3), (section_iff ..).2 h5, (), ?_,
        (icp.quality, reg4), (section_iff ..).2 h7, p, ?_, ?_, rfl⟩
      · rcases h1 with ⟨h1, rfl⟩ | ⟨m, h1, h1'⟩
        · rw [h1]; rfl
        · rw [h1]; exact h1'
      · rcases h3 with ⟨h3, rfl⟩ | ⟨y, h3, h3'⟩
        · rw [h3]; rfl
        · rw [h3]; exact h3'
      · cases hq : c.quality with
        | none => exact absurd hq h6
        | some _ => rfl
      · unfold doParams
        rcases h8 with ⟨h8, y, h8', h8''⟩ | ⟨h8, rfl⟩
        · rw [h8]; simp only; rw [h8']; exact h8''
        · cases hd : c.derived with
          | none => exact absurd hd h8
          | some y => rfl
      · rcases icp with ⟨a, b, d, e⟩
        simp only at h4' h5'
        rw [h4', h5']

/-- The lists have as many elements as there are enabled entries in their sections, and the weights are those of the entries. -/
theorem icp_yaml_sizes (f : Factory Reg Y P I S M Q) (one : W) (reg : Reg) (c : Conf Y W) (icp : Icp I S M Q W) (p : P)
    (h : fromYaml f one reg c = .ok (icp, p)) (es : List (YEntry Y W)) (hq : c.quality = some (some es)) :
    icp.quality.map (·.2) = (enabledEntries es).map (fun e => e.weight.getD one) ∧
    (∀ es, c.solvers = some (some es) → icp.solvers.length = (enabledEntries es).length) ∧
    (c.solvers = none → icp.solvers = []) ∧
    (∀ es, c.matchers = some (some es) → icp.matchers.length = (enabledEntries es).length) ∧
    (c.matchers = none → icp.matchers = []) := by
  have hlen : ∀ {Obj : Type} {rg : Registry Reg Y Obj} {reg reg' : Reg} {es : List (YEntry Y W)} {l : List (Obj × W)},
      Built rg one reg es l reg' → l.map (·.2) = es.map (fun e => e.weight.getD one) := by
    intro Obj rg reg reg' es l hb
    induction hb with
    | nil => rfl
    | cons _ _ _ _ _ ih => simp [ih]
  obtain ⟨cls, reg1, i, ss, reg2, ms, reg3, reg4, -, -, -, -, h4, h4', h5, h5', -, h7, -⟩ := (icp_yaml_exact ..).1 h
  refine ⟨?_, ?_, ?_, ?_, ?_⟩
  · rcases h7 with ⟨h7, -⟩ | ⟨es', h7, hb⟩
    · rw [h7] at hq; cases hq
    · rw [h7] at hq; cases hq; exact hlen hb
  · intro es hs
    rcases h4 with ⟨h4, -⟩ | ⟨es', h4, hb⟩
    · rw [h4] at hs; cases hs
    · rw [h4] at hs; cases hs
      have := congrArg List.length (hlen hb)
      simp only [List.length_map] at this
      rw [h4', List.length_map, this]
  · intro hs
    rcases h4 with ⟨-, h4, -⟩ | ⟨es', h4, -⟩
    · rw [h4', h4]; rfl
    · rw [hs] at h4; cases h4
  · intro es hs
    rcases h5 with ⟨h5, -⟩ | ⟨es', h5, hb⟩
    · rw [h5] at hs; cases hs
    · rw [h5] at hs; cases hs
      have := congrArg List.length (hlen hb)
      simp only [List.length_map] at this
      rw [h5', List.length_map, this]
  · intro hs
    rcases h5 with ⟨-, h5, -⟩ | ⟨es', h5, -⟩
    · rw [h5', h5]; rfl
    · rw [hs] at h5; cases h5

/-- The class, the evaluators and, without a `derived` section, the parameters are mandatory. -/
theorem icp_yaml_mandatory (f : Factory Reg Y P I S M Q) (one : W) (reg : Reg) (c : Conf Y W)
    (h : c.cls = none ∨ c.quality = none ∨ (c.derived = none ∧ c.params = none)) (r) : fromYaml f one reg c ≠ .ok r := by
  intro hr
  obtain ⟨icp, p⟩ := r
  obtain ⟨cls, reg1, i, ss, reg2, ms, reg3, reg4, h0, -, -, -, -, -, -, -, h6, -, h8⟩ := (icp_yaml_exact ..).1 hr
  rcases h with h | h | ⟨h, h'⟩
  · rw [h] at h0; cases h0
  · exact h6 h
  · rcases h8 with ⟨-, y, h8, -⟩ | ⟨h8, -⟩
    · rw [h'] at h8; cases h8
    · exact h8 h

/-- With a `derived` section, the `params` section has no effect at all: default parameters are returned. -/
theorem icp_yaml_derived_ignores_params (f : Factory Reg Y P I S M Q) (one : W) (reg : Reg) (c : Conf Y W) (y : Y)
    (hd : c.derived = some y) (params : Option Y) :
    fromYaml f one reg { c with params := params } = fromYaml f one reg c ∧
    ∀ icp p, fromYaml f one reg c = .ok (icp, p) → p = f.defaultParams := by
  refine ⟨?_, fun icp p h => ?_⟩
  · simp only [fromYaml, doParams, hd]
  · obtain ⟨cls, reg1, i, ss, reg2, ms, reg3, reg4, -, -, -, -, -, -, -, -, -, -, h8⟩ := (icp_yaml_exact ..).1 h
    rcases h8 with ⟨h8, -⟩ | ⟨-, h8⟩
    · rw [hd] at h8; cases h8
    · exact h8

/-- A file without solvers, or without matchers, or with all of them (or all the evaluators) disabled, is accepted; that is found out by
`align`, which refuses all maps. -/
theorem icp_yaml_incomplete {K Pose MS : Type} [LinearOrder K] [Zero K] [Add K] [Mul K] [Div K] [Neg K]
    (f : Factory Reg Y P I (Solver K Pose) (Matcher K Pose MS) (Nat → Bool → Pose → Pairings K → Outcome (K × Bool))) (one : K)
    (reg : Reg) (c : Conf Y K) (icp) (p : P) (h : fromYaml f one reg c = .ok (icp, p))
    (hs : (c.solvers = none ∨ ∃ es, c.solvers = some (some es) ∧ enabledEntries es = []) ∨
      (c.matchers = none ∨ ∃ es, c.matchers = some (some es) ∧ enabledEntries es = []) ∨
      ∃ es, c.quality = some (some es) ∧ enabledEntries es = [])
    (ops : PoseOps K Pose) (env : IcpEnv K Pose MS)
    (he : env.solvers = icp.solvers ∧ env.matchers = icp.matchers ∧ env.quality = icp.quality.map fun q => ⟨q.2, q.1⟩)
    (prm : IcpParams K) (init : Pose) (s1 : K) (log : Bool) : align ops env prm init s1 log = .throw := by
  obtain ⟨es, hq⟩ : ∃ es, c.quality = some (some es) := by
    obtain ⟨cls, reg1, i, ss, reg2, ms, reg3, reg4, -, -, -, -, -, -, -, -, h6, h7, -⟩ := (icp_yaml_exact ..).1 h
    rcases h7 with ⟨h7, -⟩ | ⟨es, h7, -⟩
    · exact absurd h7 h6
    · exact ⟨es, h7⟩
  obtain ⟨h1, h2, h3, h4, h5⟩ := icp_yaml_sizes f one reg c icp p h es hq
  have hbad : ¬ (env.matchers ≠ [] ∧ env.solvers ≠ [] ∧ env.quality ≠ []) := by
    rintro ⟨g1, g2, g3⟩
    rw [he.1] at g2; rw [he.2.1] at g1; rw [he.2.2] at g3
    rcases hs with (hs | ⟨es', hs, hn⟩) | (hs | ⟨es', hs, hn⟩) | ⟨es', hs, hn⟩
    · exact g2 (h3 hs)
    · have := h2 es' hs; rw [hn] at this; exact g2 (List.length_eq_zero_iff.1 this)
    · exact g1 (h5 hs)
    · have := h4 es' hs; rw [hn] at this; exact g1 (List.length_eq_zero_iff.1 this)
    · rw [hq] at hs; cases hs
      rw [hn] at h1
      have : icp.quality = [] := by simpa using h1
      rw [this] at g3; exact g3 rfl
  unfold align
  rw [Outcome.assert_false hbad]
  rfl

/-! ### an example -/

def exFactory : Factory (List String) Nat Nat String String String String where
  loadPlugin r m := .ok (m :: r)
  newIcp _ c := if c = "ICP" then .ok c else .throw
  derive _ _ := .throw
  solver r c y := if "p.so" ∈ r ∨ c = "Horn" then .ok (c ++ toString y) else .throw
  matcher _ c y := .ok (c ++ toString y)
  quality _ c y := .ok (c ++ toString y)
  loadParams y := .ok (y + 1)
  defaultParams := 0

def exConf : Conf Nat Nat where
  cls := some "ICP"
  solvers := some (some [{ cls := some "Horn", params := some 1 }, { cls := some "X", enabled := some false },
    { cls := some "Mine", plugin := some "p.so", params := some 2 }])
  matchers := some (some [{ cls := some "Pt", params := some 3 }])
  quality := some (some [{ cls := some "R", params := some 4, weight := some 7 }, { cls := some "V", params := some 5 }])
  params := some 9

example : (fromYaml exFactory 1 [] exConf).Sat fun r => r.1.solvers = ["Horn1", "Mine2"] ∧ r.1.matchers = ["Pt3"] ∧
    r.1.quality = [("R4", 7), ("V5", 1)] ∧ r.2 = 10 := by decide +kernel
example : (fromYaml exFactory 1 [] { exConf with solvers := some (some [{ cls := some "Mine", params := some 2 }]) }) = .throw :=
  Outcome.eq_throw_of (by decide +kernel)

end Props
end Verif
