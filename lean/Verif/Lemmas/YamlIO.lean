import Verif.Lemmas.AMap
import Verif.Model.YamlIO
set_option linter.unusedSimpArgs false
namespace Verif
namespace YamlIO
variable {K : Type}

/-- a node that can receive keys -/
def Y.Open : Y K → Prop
  | .map _ => True
  | .null => True
  | _ => False

theorem open_put (y : Y K) (k : String) (v : Y K) (h : y.Open) : (y.put k v).Open := by
  cases y <;> simp_all [Y.Open, Y.put]

theorem isMap_put (y : Y K) (k : String) (v : Y K) (h : y.Open) : (y.put k v).isMap = true := by
  cases y <;> simp_all [Y.Open, Y.put, Y.isMap]

theorem find_put (y : Y K) (k : String) (v : Y K) (j : String) (h : y.Open) :
    (y.put k v).find j = if j = k then some v else y.find j := by
  cases y with
  | null => simp only [Y.put, Y.find, AMap.get_set, AMap.get_nil]
  | map m => simp only [Y.put, Y.find, AMap.get_set]
  | scalar s => simp [Y.Open] at h
  | seq l => simp [Y.Open] at h

theorem open_emptyMap : (Y.emptyMap : Y K).Open := trivial
theorem find_emptyMap (j : String) : (Y.emptyMap : Y K).find j = none := rfl

theorem toMatrix_fromMatrix (c : List K) : toMatrix (fromMatrix c) = .ok c := by
  have : ∀ c : List K, allNums (c.map fun x => Y.scalar (.num x)) = .ok c := by
    intro c
    induction c with
    | nil => rfl
    | cons x c ih => simp [allNums, Y.asNum, ih]
  simp [toMatrix, fromMatrix, this]

theorem fromYAML_toYAML (zero : K) (g : Option (Geo K)) :
    fromYAML zero (toYAML g) = .ok (g.map fun g => { g with yaw := zero, pitch := zero, roll := zero }) := by
  cases g with
  | none =>
    simp (maxDischargeDepth := 20) [fromYAML, toYAML, isMap_put, open_put, open_emptyMap, find_put, find_emptyMap, Y.has, Y.at!, Y.asStr,
      Y.asBool]
  | some g =>
    simp (maxDischargeDepth := 20) [fromYAML, toYAML, geoFields, fromFields, isMap_put, open_put, open_emptyMap, find_put, find_emptyMap, Y.has,
      Y.at!, Y.asStr, Y.asBool, Y.asNum, toMatrix_fromMatrix]

theorem loadParams_saveParams (env : Bool) (prev p : Params K) (y : Y K) (h : y.Open)
    (hq : y.find "quality_checkpoints" = none) :
    loadParams env prev (saveParams p y) = .ok { p with
      generateDebugFiles := p.generateDebugFiles || env
      qualityCheckpoints := prev.qualityCheckpoints } := by
  simp (maxDischargeDepth := 20) [loadParams, saveParams, loadReq, loadOpt, loadCheckpoints, open_put, h, find_put, hq, Y.at!, Y.asNat, Y.asNum,
    Y.asBool, Y.asStr]

theorem loadPairWeights_save (w : PairWeights K) (y : Y K) (h : y.Open) :
    loadPairWeights (savePairWeights w y) = .ok w := by
  simp (maxDischargeDepth := 20) [loadPairWeights, savePairWeights, loadReq, open_put, h, find_put, Y.at!, Y.asNum]

theorem asKernel_name (k : RobustKernel) : asKernel (.scalar (.str (kernelName k)) : Y K) = .ok k := by
  cases k <;> simp [asKernel, Y.asStr, kernelName]

theorem loadWeights_save (prev w : WeightParams K) (y : Y K) (h : y.Open) :
    loadWeights prev (saveWeights w y) = .ok { w with estimate := prev.estimate } := by
  simp (maxDischargeDepth := 20) [loadWeights, saveWeights, loadReq, loadOpt, loadPairWeightsOpt, open_put, h, find_put, Y.at!, Y.asNum, Y.asBool,
    asKernel_name, loadPairWeights_save _ _ open_emptyMap]

theorem get_emplace (m : AMap Nat K) (k : Nat) (v : K) (j : Nat) :
    AMap.get (emplace m k v) j = (AMap.get m j).or (if j = k then some v else none) := by
  unfold emplace
  cases h : AMap.get m k with
  | some u =>
    by_cases hj : j = k
    · subst hj; simp [h]
    · simp [hj]
  | none =>
    rw [AMap.get_set]
    by_cases hj : j = k
    · subst hj; simp [h]
    · simp [hj]

theorem checkpointLoop_ok (l : List (Nat × K)) (mk : Nat × K → Y K)
    (hm : ∀ e, (mk e).isMap = true) (hi : ∀ e, (mk e).find "iteration" = some (.scalar (.nat e.1)))
    (hq : ∀ e, (mk e).find "minimum_quality" = some (.scalar (.num e.2))) :
    ∀ acc : AMap Nat K, ∃ r, checkpointLoop acc (l.map mk) = .ok r ∧
      ∀ j, AMap.get r j = (AMap.get acc j).or ((l.find? fun e => decide (e.1 = j)).map (·.2)) := by
  induction l with
  | nil => intro acc; exact ⟨acc, rfl, by simp⟩
  | cons e l ih =>
    intro acc
    obtain ⟨r, hr, hg⟩ := ih (emplace acc e.1 e.2)
    refine ⟨r, ?_, fun j => ?_⟩
    · simp [checkpointLoop, hm, loadReq, Y.at!, hi, hq, Y.asNat, Y.asNum, hr]
    · rw [hg, get_emplace, List.find?_cons]
      by_cases hj : e.1 = j
      · subst hj
        simp
      · simp [hj, Ne.symm hj]

end YamlIO
end Verif
