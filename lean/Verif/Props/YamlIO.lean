import Mathlib.Data.Rat.Defs
import Verif.Lemmas.YamlIO
/-
C39, C65: YAML input and output.
-/
namespace Verif
namespace Props
open YamlIO
variable {K : Type}

/-! ### C39 -/

/-- An absent georeference, and one whose mean pose has no rotation, survive YAML exactly. -/
theorem georef_yaml_roundtrip_partial (zero : K) (g : Option (Geo K))
    (h : ∀ a, g = some a → a.yaw = zero ∧ a.pitch = zero ∧ a.roll = zero) :
    fromYAML zero (toYAML g) = .ok g := by
  rw [fromYAML_toYAML]
  cases g with
  | none => rfl
  | some a =>
    obtain ⟨h1, h2, h3⟩ := h a rfl
    obtain ⟨_, _, _, _, _, _, _, _, _, _⟩ := a
    simp_all

/-- What comes back in general: everything but the rotation of the mean pose, which is replaced by the identity. -/
theorem georef_yaml_drops_rotation (zero : K) (g : Geo K) :
    fromYAML zero (toYAML (some g)) = .ok (some { g with yaw := zero, pitch := zero, roll := zero }) :=
  fromYAML_toYAML zero (some g)

/-- Hence the full claim is false. -/
theorem georef_yaml_roundtrip_fails :
    ∃ g h : Geo Rat, fromYAML 0 (toYAML (some g)) = .ok (some h) ∧ h ≠ g := by
  refine ⟨⟨37, -2, 5, 1, 2, 3, 1, 0, 0, []⟩, _, georef_yaml_drops_rotation 0 _, ?_⟩
  decide

/-- A node of another type, or without the two mandatory keys, is refused. -/
theorem georef_yaml_refuses_foreign (zero : K) (y : Y K)
    (h : y.find "type" ≠ some (.scalar (.str magic)) ∨ y.find "defined" = none) :
    fromYAML zero y = .throw := by
  unfold fromYAML
  cases hm : y.isMap
  · simp [Outcome.assert]
  cases ht : y.find "type" with
  | none => simp [Outcome.assert, Y.has, ht]
  | some t =>
    cases hd : y.find "defined" with
    | none => simp [Outcome.assert, Y.has, ht, hd]
    | some d =>
      have hne : t ≠ .scalar (.str magic) := by
        rcases h with h | h
        · rw [ht] at h; intro hh; exact h (by rw [hh])
        · rw [hd] at h; cases h
      simp only [Outcome.assert, Y.has, ht, hd, Y.at!, Option.isSome_some, if_true, Outcome.bind]
      cases t with
      | scalar s =>
        cases s with
        | str u =>
          have : u ≠ magic := by rintro rfl; exact hne rfl
          simp [Y.asStr, this]
        | num _ => simp [Y.asStr]
        | nat _ => simp [Y.asStr]
        | bool _ => simp [Y.asStr]
      | null => simp [Y.asStr]
      | seq _ => simp [Y.asStr]
      | map _ => simp [Y.asStr]

example : fromYAML (0 : Rat) (toYAML (some ⟨37, -2, 5, 1, 2, 3, 0, 0, 0, [1, 2]⟩)) =
    .ok (some ⟨37, -2, 5, 1, 2, 3, 0, 0, 0, [1, 2]⟩) :=
  georef_yaml_roundtrip_partial 0 _ (by intro a ha; cases ha; exact ⟨rfl, rfl, rfl⟩)

/-! ### C65 -/

/-- Parameters saved to a fresh YAML map and loaded into any object come back in every field but two: the debug flag is
or-ed with the environment variable, and the quality checkpoints, which are not saved, stay those of the receiving
object. -/
theorem params_yaml_roundtrip_partial (env : Bool) (prev p : Params K) :
    loadParams env prev (saveParams p Y.emptyMap) = .ok { p with
      generateDebugFiles := p.generateDebugFiles || env
      qualityCheckpoints := prev.qualityCheckpoints } :=
  loadParams_saveParams env prev p _ open_emptyMap rfl

/-- The full claim is false: the checkpoints are lost. -/
theorem params_yaml_checkpoints_lost (p q : Params K) (h : p = { q with qualityCheckpoints := p.qualityCheckpoints })
    (y : Y K) : saveParams p y = saveParams q y := by
  rw [h]; rfl

/-- Relative weights survive YAML, whatever else the node holds. -/
theorem pairWeights_yaml_roundtrip (w : PairWeights K) :
    loadPairWeights (savePairWeights w Y.emptyMap) = .ok w :=
  loadPairWeights_save w _ open_emptyMap

/-- Weight parameters survive YAML in every configurable field; the current pose estimate (run time data) is the
one of the receiving object. -/
theorem weights_yaml_roundtrip (prev w : WeightParams K) :
    loadWeights prev (saveWeights w Y.emptyMap) = .ok { w with estimate := prev.estimate } :=
  loadWeights_save prev w _ open_emptyMap

/-- A parameter file without the mandatory entry is refused, and nothing else is mandatory. -/
theorem params_yaml_mandatory (env : Bool) (prev : Params K) :
    (∀ y : Y K, y.find "maxIterations" = none → loadParams env prev y = .throw) ∧
    ∀ n, loadParams env prev (Y.emptyMap.put "maxIterations" (.scalar (.nat n))) =
      .ok { prev with maxIterations := n, generateDebugFiles := prev.generateDebugFiles || env } := by
  constructor
  · intro y h; simp (maxDischargeDepth := 20) [loadParams, loadReq, Y.at!, h]
  · intro n
    simp (maxDischargeDepth := 20) [loadParams, loadReq, loadOpt, loadCheckpoints, Y.at!, find_put, open_emptyMap, find_emptyMap, Y.asNat]

/-- `quality_checkpoints` given as a list of (iteration, minimum quality) entries: after loading, the checkpoint at
iteration `j` is the first entry for `j` in the file, there are no others, and the previous ones are gone. -/
theorem checkpoints_first_entry_wins (prev : AMap Nat K) (l : List (Nat × K)) (hl : l ≠ []) (y : Y K)
    (hy : y.find "quality_checkpoints" = some (.seq (l.map fun e =>
      (Y.emptyMap.put "iteration" (.scalar (.nat e.1))).put "minimum_quality" (.scalar (.num e.2))))) :
    ∃ r, loadCheckpoints y prev = .ok r ∧
      ∀ j, AMap.get r j = (l.find? fun e => decide (e.1 = j)).map (·.2) := by
  obtain ⟨r, hr, hg⟩ := checkpointLoop_ok l (fun e =>
      (Y.emptyMap.put "iteration" (.scalar (.nat e.1))).put "minimum_quality" (.scalar (.num e.2)))
    (fun e => isMap_put _ _ _ (open_put _ _ _ open_emptyMap))
    (fun e => by simp (maxDischargeDepth := 20) [find_put, open_put, open_emptyMap])
    (fun e => by simp (maxDischargeDepth := 20) [find_put, open_put, open_emptyMap]) []
  refine ⟨r, ?_, fun j => by simpa using hg j⟩
  cases l with
  | nil => exact absurd rfl hl
  | cons e l => simp only [loadCheckpoints, hy, List.map_cons] at hr ⊢; exact hr

/-- An empty list of checkpoints, or something that is not a list, is refused. -/
theorem checkpoints_empty_refused (prev : AMap Nat K) (y v : Y K) (hy : y.find "quality_checkpoints" = some v)
    (hv : ∀ e l, v ≠ .seq (e :: l)) : loadCheckpoints y prev = .throw := by
  unfold loadCheckpoints
  rw [hy]
  cases v with
  | seq l =>
    cases l with
    | nil => rfl
    | cons e l => exact absurd rfl (hv e l)
  | null => rfl
  | scalar _ => rfl
  | map _ => rfl

example : ∃ p q : Params Rat, p ≠ q ∧ saveParams p Y.emptyMap = saveParams q Y.emptyMap :=
  ⟨⟨40, 1, 1, false, false, 10, 1, "x", false, [(50, 1)]⟩, ⟨40, 1, 1, false, false, 10, 1, "x", false, []⟩,
    by decide, params_yaml_checkpoints_lost _ _ rfl _⟩

end Props
end Verif
