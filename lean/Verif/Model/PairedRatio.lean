import Verif.Model.Icp
/-
`QualityEvaluator_PairedRatio::evaluate`: /repo/mp2p_icp/src/QualityEvaluator_PairedRatio.cpp:45-73
-/
namespace Verif

/-- `QualityEvaluator_PairedRatio::evaluate`, lines 65-72, on the pairings chosen at lines 52-63
(those of ICP, or of the evaluator's own matcher).  Result: (quality, hard_discard). -/
def pairedRatio {K : Type} [LT K] [DecidableLT K] [Zero K] [Div K] [NatCast K] (minRatio : K)
    (p : Pairings K) : K × Bool :=
  let q : K := if p.potential = 0 then 0 else (p.size : K) / (p.potential : K)
  (q, decide (q < minRatio))

end Verif
