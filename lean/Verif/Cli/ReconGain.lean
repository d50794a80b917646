import Verif.Cli.Demix
import Mathlib.Analysis.SpecialFunctions.Log.Base
import Mathlib.Data.EReal.Basic
import Mathlib.Data.Real.Sqrt
/-
  Recon gains: iamf/cli/recon_gain_generator.cc.

  The code computes with `double`s.  Here samples are rational numbers and what is computed from them are real numbers, so rounding is not modelled; infinities are, because the code makes them by
  dividing by zero and by taking the logarithm of zero.
-/
namespace Iamf

/-- `ComputeSignalPower` (recon_gain_generator.cc:31-39). -/
noncomputable def signalPower (samples : Samples) : ℝ :=
  Real.sqrt (samples.foldl (fun mean (s : Rat) => mean + 1 / (samples.length : ℝ) * (s : ℝ) * (s : ℝ)) 0)

/-- `10 * log10(power)` of a number that is not negative; the logarithm of zero is -infinity. -/
noncomputable def decibels (power : ℝ) : EReal := if power = 0 then ⊥ else ((10 * Real.logb 10 power : ℝ) : EReal)

/-- `10 * log10(a / b)`.  `a` is positive wherever it is used: then a division by zero gives +infinity. -/
noncomputable def ratioDecibels (a b : ℝ) : EReal := if b = 0 then ⊤ else decibels (a / b)

/-- `kLabelToRelevantMixedLabel` (recon_gain_generator.cc:51-67). -/
def relevantMixedLabel : Label → Except Err Label
  | .demixedL7 => .ok .l5
  | .demixedR7 => .ok .r5
  | .demixedLrs7 => .ok .ls5
  | .demixedRrs7 => .ok .rs5
  | .demixedLtb4 => .ok .ltf2
  | .demixedRtb4 => .ok .rtf2
  | .demixedL5 => .ok .l3
  | .demixedR5 => .ok .r3
  | .demixedLs5 => .ok .l3
  | .demixedRs5 => .ok .r3
  | .demixedLtf2 => .ok .ltf3
  | .demixedRtf2 => .ok .rtf3
  | .demixedL3 => .ok .l2
  | .demixedR3 => .ok .r2
  | .demixedR2 => .ok .mono
  | _ => .error .notFound

/-- `FindRelevantMixedSamples` (recon_gain_generator.cc:45-79). -/
def findRelevantMixed (l : Label) (m : SamplesMap) : Except Err Samples := do
  let below ← relevantMixedLabel l
  findSamples below m

open Classical in
/-- `ReconGainGenerator::ComputeReconGain` (recon_gain_generator.cc:83-155), without logging; `none` is +infinity. -/
noncomputable def computeReconGain (l : Label) (original decoded : SamplesMap) : Except Err (Option ℝ) := do
  let o ← findSamples l original
  if decibels (signalPower o) < ((-80 : ℝ) : EReal) then .ok (some 0)
  else do
    let m ← findRelevantMixed l original
    if ratioDecibels (signalPower o) (signalPower m) ≥ ((-6 : ℝ) : EReal) then .ok (some 1)
    else do
      let d ← findSamples l decoded
      if signalPower d = 0 then .ok none else .ok (some (Real.sqrt (signalPower o / signalPower d)))

/-- The gain as `ConvertReconGainsAndFlags` (parameter_block_generator.cc:199-257) gets it: `round` gives the `double` for a real number.  To convert infinity to an integer is undefined. -/
noncomputable def measuredGain (round : ℝ → Rat) (original decoded : SamplesMap) (l : Label) : Except Err Rat := do
  match ← computeReconGain l original decoded with
  | some x => .ok (round x)
  | none => .error .ub

end Iamf
