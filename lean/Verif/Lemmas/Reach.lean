import Verif.Spec.Reach
import Verif.Lemmas.Unit
/-
Lemmas for C127.
-/
namespace Verif.Lemmas.Reach
open Verif Verif.Spec Verif.Lemmas Verif.Lemmas.HS Verif.Lemmas.Unit
set_option linter.unusedSectionVars false
variable {K : Type} [Field K] [LinearOrder K] [IsStrictOrderedRing K]

theorem smul_one_id : (P3.smul (1 : K)) = id := by
  funext x
  ext <;> simp

theorem one_unit (T : Pose3 K) : inUnit 1 T = T := by
  unfold inUnit
  rw [smul_one_id]
  rfl

theorem one_matcher (c : DTCfg K) : matcherInUnit 1 c = c := by
  unfold matcherInUnit
  simp only [one_mul]

theorem one_params (p : IcpParams K) : paramsInUnit 1 p = p := by
  unfold paramsInUnit
  simp only [one_mul]

/-- The same point is found in both maps, or none. -/
theorem spot_reach {c : DTCfg K} {T : Pose3 K} {g g' : GLayer K} {gpts gpts' pts : List (P3 K)}
    (hg : ServesPoints g gpts) (hg' : ServesPoints g' gpts') (hsame : SameWithin c.thr gpts gpts' pts T)
    (hnt : NoTiesWithin c.thr gpts pts T) {x : P3 K} (hx : x ∈ pts) : spot c T g' x = spot c T g x := by
  obtain ⟨nb, h1, h2, h3, h4⟩ := hg.nearest (T.composePoint x)
  obtain ⟨nb', k1, k2, k3, k4⟩ := hg'.nearest (T.composePoint x)
  have hm := List.mem_of_getElem? h2
  have hm' := List.mem_of_getElem? k2
  simp only [spot, h1, k1, Option.bind_some, k3, h3]
  by_cases hd : P3.distSq (T.composePoint x) nb.pt < c.thr * c.thr
  · have a1 := k4 nb.pt ((hsame x hx _ hd).mp hm)
    have a2 : P3.distSq (T.composePoint x) nb'.pt < c.thr * c.thr := lt_of_le_of_lt a1 hd
    have a3 := (hsame x hx _ a2).mpr hm'
    have a4 : nb.pt = nb'.pt := hnt x hx _ hm _ a3 hd h4 fun w hw => a1.trans (h4 w hw)
    rw [if_pos hd, if_pos a2, a4]
  · have a2 : ¬ P3.distSq (T.composePoint x) nb'.pt < c.thr * c.thr := fun a2 =>
      hd (lt_of_le_of_lt (h4 _ ((hsame x hx _ a2).mpr hm')) a2)
    rw [if_neg hd, if_neg a2]

theorem same_of_unit {a b : Pairings K} (h : UnitPairs 1 a b) : ReachPairs a b := by
  refine ⟨?_, h.potential, h.rest⟩
  have := h.pairs
  unfold Scaled at this
  rw [this, smul_one_id]
  simp

theorem run_of_unit {r r' : IcpResult K (Pose3 K)} (h : UnitRun 1 r r') : ReachRun r r' := by
  refine ⟨h.nIterations, h.reason, by rw [h.pose, one_unit], h.scale, h.quality, same_of_unit h.pairings, ?_⟩
  have hl := h.log
  revert hl
  generalize r.log = l
  generalize r'.log = l'
  intro hl
  cases hl with
  | none => exact .none
  | some hl =>
    refine .some (hl.imp fun a b hab => ?_)
    obtain ⟨h1, h2, h3⟩ := hab
    exact ⟨h1, by rw [h2, one_unit], same_of_unit h3⟩

end Verif.Lemmas.Reach
