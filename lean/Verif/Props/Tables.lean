import Verif.Props.Demix
import Verif.Props.Parameters
import Verif.Props.MixRender
import Verif.Props.Partition
/-
  Small facts that other theorems build on: the down-mixing factors as numbers (C28), which parameter block of a unit counts (C40), and the
  range of gains in Q7.8 (C42).
-/
namespace Iamf.Props
open Iamf

/-- The factors of a down-mixing mode, as the specification of IAMF lists them: `alpha`, `beta`, `gamma`, `delta`. -/
def modeFactors (mode : UInt8) : Rat × Rat × Rat × Rat :=
  if mode = 0 ∨ mode = 4 then (1, 1, 0.707, 0.707)
  else if mode = 1 ∨ mode = 5 then (0.707, 0.707, 0.707, 0.707)
  else (1, 0.866, 0.866, 0.866)

/-- The factor `w` for each of its eleven states. -/
def wFactors : List Rat := [0, 0.0179, 0.0391, 0.0658, 0.1038, 0.25, 0.3962, 0.4342, 0.4609, 0.4821, 0.5]

/-- **C28 (factors).** The mixers use the factors of the specification of IAMF for each mode and each state of `w`. -/
theorem C28_factors_of_the_modes (mode : UInt8) (hm : mode ∈ ([0, 1, 2, 4, 5, 6] : List UInt8)) (prev : Nat) (hp : prev ≤ 10) (first : Bool) :
    ∃ p, dmixpModeToParams mode prev (if first then .firstFrame else .normal) = .ok p ∧
      (p.factors.alpha, p.factors.beta, p.factors.gamma, p.factors.delta) = modeFactors mode ∧
      some p.factors.w = wFactors[if first then 0 else if mode < 4 then prev - 1 else min 10 (prev + 1)]? := by
  refine ⟨_, toParams_eq hm prev hp first, ?_, ?_⟩
  · simp only [List.mem_cons, List.not_mem_nil, or_false] at hm
    simp only [DownMixingParams.factors]
    rcases hm with rfl | rfl | rfl | rfl | rfl | rfl <;> decide +kernel
  · have hprev : prev = 0 ∨ prev = 1 ∨ prev = 2 ∨ prev = 3 ∨ prev = 4 ∨ prev = 5 ∨ prev = 6 ∨ prev = 7 ∨ prev = 8 ∨
      prev = 9 ∨ prev = 10 := by omega
    simp only [List.mem_cons, List.not_mem_nil, or_false] at hm
    rcases hm with rfl | rfl | rfl | rfl | rfl | rfl <;> cases first <;>
      rcases hprev with rfl | rfl | rfl | rfl | rfl | rfl | rfl | rfl | rfl | rfl | rfl <;> decide +kernel

/-- Down-mixing mode 4 after state 4: 0.25 of the surround channels go to the top. -/
example : (dmixpModeToParams 4 4 .normal).toOption.map (fun p => (p.factors.alpha, p.factors.gamma, p.factors.w)) = some (1, 707 / 1000, 1 / 4) := by
  decide +kernel

/-- **C40 (blocks).** Of several parameter blocks with an id in a unit the last one counts; a parameter without a block has none. -/
theorem C40_the_last_block_counts (blocks : List BlockWithData) (id : UInt32) :
    (blockById blocks id = none ↔ ∀ b ∈ blocks, b.obu.parameterId ≠ id) ∧
    ∀ b, blockById blocks id = some b ↔
      ∃ before after, blocks = before ++ b :: after ∧ b.obu.parameterId = id ∧ ∀ c ∈ after, c.obu.parameterId ≠ id := by
  refine ⟨?_, fun b => ?_⟩
  · simp [blockById, List.find?_eq_none]
  · unfold blockById
    rw [List.find?_eq_some_iff_append]
    constructor
    · rintro ⟨h1, as, bs, h2, h3⟩
      refine ⟨bs.reverse, as.reverse, ?_, by simpa using h1, fun c hc => by simpa using h3 c (List.mem_reverse.mp hc)⟩
      have := congrArg List.reverse h2
      simpa using this
    · rintro ⟨bs, as, rfl, h2, h3⟩
      exact ⟨by simpa using h2, as.reverse, bs.reverse, by simp, fun c hc => by simpa using h3 c (List.mem_reverse.mp hc)⟩

/-- Two blocks for the same parameter: the second one counts. -/
example (h : ObuHeader) (d : ParamDef) (x : ParameterBlock) : blockById [⟨x, 0, 1, h, d⟩, ⟨x, 1, 2, h, d⟩] x.parameterId = some ⟨x, 1, 2, h, d⟩ := by
  simp [blockById]

/-- **C42 (range).** A gain can be expressed in Q7.8 exactly if it is from -128 to 127 255/256 dB, and then it is off by less than 1/256 dB, or
not at all if it is a multiple of that. -/
theorem C42_gains_in_q78 (x : Rat) :
    ((∃ r, floatToQ78 x = .ok r) ↔ -128 ≤ x ∧ x ≤ 127 + 255 / 256) ∧
    ∀ r, floatToQ78 x = .ok r → |(r.toInt : Rat) / 256 - x| < 1 / 256 ∧ ∀ z : Int16, x = z.toInt / 256 → r = z := by
  have hiff : (x < -128 ∨ 128 - 1 / 256 < x) ↔ ¬ (-128 ≤ x ∧ x ≤ 127 + 255 / 256) := by
    rw [not_and_or, not_le, not_le]
    norm_num
  by_cases h : -128 ≤ x ∧ x ≤ 127 + 255 / 256
  · have hq := q78_of (x * 256) (by linarith [h.1]) (by linarith [h.2])
    obtain ⟨r, h1, h2, h3⟩ := hq
    rw [show x * 256 / 256 = x by field_simp] at h1
    refine ⟨⟨fun _ => h, fun _ => ⟨r, h1⟩⟩, fun r' hr' => ?_⟩
    rw [h1] at hr'
    cases hr'
    refine ⟨?_, fun z hz => h3 z (by rw [hz]; field_simp)⟩
    have : (r.toInt : Rat) / 256 - x = ((r.toInt : Rat) - x * 256) / 256 := by field_simp
    rw [this, abs_div, abs_of_pos (show (0 : Rat) < 256 by norm_num)]
    exact div_lt_div_of_pos_right h2 (by norm_num)
  · have hf : floatToQ78 x = .error .unknown := by
      unfold floatToQ78
      rw [if_pos (hiff.mpr h)]
    refine ⟨⟨fun ⟨r, hr⟩ => ?_, fun hh => absurd hh h⟩, fun r hr => ?_⟩
    · rw [hf] at hr; cases hr
    · rw [hf] at hr; cases hr

end Iamf.Props
