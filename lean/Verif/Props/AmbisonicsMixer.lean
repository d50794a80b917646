import Verif.Cli.AmbisonicsMixer
import Verif.Props.Render
import Verif.Props.LabelsExact
import Mathlib.Algebra.BigOperators.Group.Finset.Basic
import Mathlib.Algebra.Order.BigOperators.Group.Finset
import Mathlib.Algebra.Order.BigOperators.Ring.Finset
import Mathlib.Algebra.BigOperators.Ring.Finset
import Mathlib.Algebra.BigOperators.Field
import Mathlib.Algebra.Order.Field.Basic
/-
  C59: the mixer of ambisonics.
-/
namespace Iamf.Props
open Iamf
open scoped BigOperators

/-! ### Specification -/

/-- The order of ambisonics that a preset is for. -/
def presetOrder : AmbisonicsPreset → Nat
  | .order0 => 0
  | .order1 => 1
  | .order2 => 2
  | .order3 => 3

/-- The ambisonics channels up to an order, by number. -/
def ambisonicsChannels (order : Nat) : List Label := (List.range ((order + 1) * (order + 1))).map Label.a

/-- The one case in which channels are mixed: third order ambisonics to be coded by Opus. -/
def IsMixed (codecId : UInt32) (p : AmbisonicsPreset) : Prop := codecId = 0x4f707573 ∧ presetOrder p = 3

/-- A frame for so many channels: as many samples in each, and not too many. -/
def MixerFrame (channels maxSamples : Nat) (frame : List Samples) : Prop :=
  frame.length = channels ∧ ∃ n ≤ maxSamples, ∀ s ∈ frame, s.length = n

/-- How much of ambisonics channel `i` goes into channel `o` for the coder: the matrix is stored column by column in Q0.15. -/
def mixingEntry (i o : Nat) : Rat := match thirdOrderMixing[i * 16 + o]? with
  | some v => (v.toInt : Rat) / 2 ^ 15
  | none => 0

/-- The configuration for third order ambisonics in Opus: 16 channels in 8 coupled substreams. -/
def thirdOrderProjection : AmbisonicsProjection := ⟨16, 8, 8, thirdOrderDemixing⟩

/-- The sample of channel `i` of a frame at a time. -/
def frameSample (frame : List Samples) (i t : Nat) : Rat := (frame[i]?.getD [])[t]?.getD 0

/-- What is left of a mixer after frames were pushed. -/
inductive AfterPushes (x : AmbisonicsMixer) : AmbisonicsMixer → Prop
  | none : AfterPushes x x
  | more {y z : AmbisonicsMixer} {frame : List Samples} : AfterPushes x y → y.push frame = .ok z → AfterPushes x z

/-! ### Presets -/

private theorem mono_made (p : AmbisonicsPreset) : monoPreset p =
    .ok (.mono ⟨UInt8.ofNat ((presetOrder p + 1) * (presetOrder p + 1)),
      (List.range ((presetOrder p + 1) * (presetOrder p + 1))).map UInt8.ofNat⟩) := by
  cases p <;> decide +kernel

private theorem projection_made : projectionPreset = .ok (.projection thirdOrderProjection) := by
  decide +kernel

private theorem mixed_iff (codecId : UInt32) (p : AmbisonicsPreset) : (codecId = kCodecIdOpus ∧ p = .order3) ↔ IsMixed codecId p := by
  unfold IsMixed kCodecIdOpus
  cases p <;> simp [presetOrder]

private theorem labels_made : ∀ p : AmbisonicsPreset,
    (List.range ((presetOrder p + 1) * (presetOrder p + 1))).mapM (fun i => checkOk (ambisonicsLabel i)) =
      (.ok (ambisonicsChannels (presetOrder p)) : Except Err (List Label)) := by
  intro p
  cases p <;> rfl

/-- **C59 (presets).** For every codec and preset there is a mixer.  It takes the channels of ambisonics up to the order of the preset, by
number.  Its configuration has one substream for each channel, in order, and no mixing; only third order ambisonics in Opus is projected,
by the demixing matrix, from 8 coupled substreams. -/
theorem C59_presets (codecId : UInt32) (p : AmbisonicsPreset) (maxSamples : Nat) :
    ∃ x, AmbisonicsMixer.fromPreset codecId p maxSamples = .ok x ∧ x.channels = (presetOrder p + 1) ^ 2 ∧
      x.inputLabels = .ok (ambisonicsChannels (presetOrder p)) ∧ x.maxSamples = maxSamples ∧ x.taking = true ∧
      (IsMixed codecId p → x.config = .projection thirdOrderProjection ∧ x.matrix = thirdOrderMixing.map q15) ∧
      (¬ IsMixed codecId p → x.config = .mono ⟨UInt8.ofNat ((presetOrder p + 1) ^ 2),
        (List.range ((presetOrder p + 1) ^ 2)).map UInt8.ofNat⟩ ∧ x.matrix = []) := by
  have hl := labels_made p
  rw [pow_two]
  by_cases h : IsMixed codecId p
  · have hp : presetOrder p = 3 := h.2
    rw [hp] at hl
    refine ⟨AmbisonicsMixer.make (.projection thirdOrderProjection) (some thirdOrderMixing) maxSamples, ?_, ?_, ?_, rfl, rfl,
      fun _ => ⟨rfl, rfl⟩, fun hn => absurd h hn⟩
    · unfold AmbisonicsMixer.fromPreset makeAmbisonics
      rw [if_pos ((mixed_iff _ _).mpr h), projection_made]
      rfl
    · rw [hp]; rfl
    · rw [hp]; exact hl
  · refine ⟨AmbisonicsMixer.make (.mono ⟨UInt8.ofNat ((presetOrder p + 1) * (presetOrder p + 1)),
      (List.range ((presetOrder p + 1) * (presetOrder p + 1))).map UInt8.ofNat⟩) none maxSamples, ?_, ?_, ?_, rfl, rfl,
      fun hn => absurd hn h, fun _ => ⟨rfl, rfl⟩⟩
    · unfold AmbisonicsMixer.fromPreset makeAmbisonics
      rw [if_neg (fun hn => h ((mixed_iff _ _).mp hn)), mono_made]
      rfl
    · cases p <;> rfl
    · cases p <;> exact hl

/-! ### Pushing -/

private theorem shape_iff {x : AmbisonicsMixer} {frame : List Samples} (hl : frame.length = x.channels) :
    (frame.any (fun s => s.length ≠ (frame.head?.getD []).length || decide (x.maxSamples < s.length)) = false) ↔
      MixerFrame x.channels x.maxSamples frame := by
  unfold MixerFrame
  simp only [List.any_eq_false, Bool.or_eq_true, decide_eq_true_eq, not_or, Decidable.not_not, not_lt, ne_eq]
  constructor
  · intro h
    refine ⟨hl, ?_⟩
    cases frame with
    | nil => exact ⟨0, Nat.zero_le _, by simp⟩
    | cons s ss => exact ⟨s.length, (h s (by simp)).2, fun t ht => (h t ht).1⟩
  · rintro ⟨-, n, hn, h⟩ s hs
    refine ⟨?_, by rw [h s hs]; exact hn⟩
    cases frame with
    | nil => cases hs
    | cons a ss => rw [h s hs]; exact (h a (by simp)).symm

private theorem push_of {x : AmbisonicsMixer} (ht : x.taking = true) (frame : List Samples) :
    (MixerFrame x.channels x.maxSamples frame → x.push frame = x.pushDerived frame) ∧
    (¬ MixerFrame x.channels x.maxSamples frame → x.push frame = .error .invalidArgument) := by
  unfold AmbisonicsMixer.push
  rw [ht]
  simp only [Bool.not_true, Bool.false_eq_true, if_false]
  constructor
  · intro h
    rw [if_neg (fun hn => hn h.1), if_neg (by rw [(shape_iff h.1).mpr h]; decide)]
  · intro h
    split
    · rfl
    · rename_i hl
      have hl : frame.length = x.channels := Decidable.byContradiction hl
      rw [if_pos]
      exact Bool.eq_true_of_not_eq_false (mt (shape_iff hl).mp h)

private theorem push_keeps {x y : AmbisonicsMixer} {frame : List Samples} (h : x.push frame = .ok y) :
    y = ⟨x.config, x.matrix, x.channels, x.maxSamples, x.taking, y.output⟩ := by
  unfold AmbisonicsMixer.push AmbisonicsMixer.pushDerived at h
  split at h
  · cases h
  · split at h
    · cases h
    · split at h
      · cases h
      · split at h
        · cases h
          rfl
        · cases ha : applyMixing x.matrix frame with
          | error e => rw [ha] at h; cases h
          | ok out => rw [ha] at h; cases h; rfl

private theorem pushes_keep {x y : AmbisonicsMixer} (h : AfterPushes x y) :
    y = ⟨x.config, x.matrix, x.channels, x.maxSamples, x.taking, y.output⟩ := by
  induction h with
  | none => rfl
  | more _ hp ih => rw [push_keeps hp, ih]

/-- **C59 (nothing is mixed).** A mixer for another preset, or for a configuration of the user, takes the frames of the right shape and
gives them back as they are, whatever it was given before. -/
theorem C59_channels_are_copied (x₀ x : AmbisonicsMixer) (maxSamples : Nat)
    (h : (∃ codecId p, ¬ IsMixed codecId p ∧ AmbisonicsMixer.fromPreset codecId p maxSamples = .ok x₀) ∨
      ∃ c, x₀ = AmbisonicsMixer.fromConfig c maxSamples) (hx : AfterPushes x₀ x) (frame : List Samples) :
    match x.push frame with
    | .ok y => MixerFrame x.channels maxSamples frame ∧ y.output = frame
    | .error e => e = .invalidArgument ∧ ¬ MixerFrame x.channels maxSamples frame := by
  have hx : x.taking = true ∧ x.matrix = [] ∧ x.maxSamples = maxSamples := by
    rw [pushes_keep hx]
    show x₀.taking = true ∧ x₀.matrix = [] ∧ x₀.maxSamples = maxSamples
    rcases h with ⟨codecId, p, hm, h⟩ | ⟨c, rfl⟩
    · obtain ⟨y, h1, -, -, h2, h3, -, h4⟩ := C59_presets codecId p maxSamples
      rw [h] at h1
      cases h1
      exact ⟨h3, (h4 hm).2, h2⟩
    · exact ⟨rfl, rfl, rfl⟩
  obtain ⟨h1, h2, h3⟩ := hx
  obtain ⟨a, b⟩ := push_of h1 frame
  rw [h3] at a b
  by_cases hf : MixerFrame x.channels maxSamples frame
  · rw [a hf]
    unfold AmbisonicsMixer.pushDerived
    rw [if_pos h2]
    exact ⟨hf, rfl⟩
  · rw [b hf]
    exact ⟨rfl, hf⟩

/-! ### Mixing -/

private theorem q15_entries (i o : Nat) (hi : i < 16) (ho : o < 16) : (thirdOrderMixing.map q15)[i * 16 + o]? = some (mixingEntry i o) := by
  have h : i * 16 + o < thirdOrderMixing.length := by
    rw [show thirdOrderMixing.length = 256 by decide +kernel]
    omega
  unfold mixingEntry
  rw [List.getElem?_map, List.getElem?_eq_getElem h]
  simp only [Option.map_some, q15]
  norm_num

private theorem mix_length (matrix : List Rat) (n o : Nat) : ∀ (l : List Samples) (i ticks : Nat) (acc out : Samples),
    acc.length = ticks → (∀ s ∈ l, s.length = ticks) → mixInto matrix n o i l acc = .ok out → out.length = ticks
  | [], _, _, _, _, ha, _, h => by
    simp only [mixInto, Except.ok.injEq] at h
    rw [← h]; exact ha
  | s :: l, i, ticks, acc, out, ha, hs, h => by
    unfold mixInto at h
    split at h
    · cases h
    · refine mix_length matrix n o l (i + 1) ticks _ out ?_ (fun s hm => hs s (by simp [hm])) h
      rw [List.length_zipWith, ha, hs s (by simp), Nat.min_self]

private theorem mix_spec (o : Nat) (ho : o < 16) (ticks : Nat) : ∀ (l : List Samples) (i : Nat) (acc : Samples),
    i + l.length = 16 → acc.length = ticks → (∀ s ∈ l, s.length = ticks) →
    ∃ out, mixInto (thirdOrderMixing.map q15) 16 o i l acc = .ok out ∧ out.length = ticks ∧
      ∀ t < ticks, out[t]?.getD 0 = acc[t]?.getD 0 + ∑ k ∈ Finset.range l.length, mixingEntry (i + k) o * frameSample l k t
  | [], i, acc, _, ha, _ => ⟨acc, rfl, ha, fun t _ => by simp⟩
  | s :: l, i, acc, hi, ha, hs => by
    have hz : (List.zipWith (fun a x => a + mixingEntry i o * x) acc s).length = ticks := by
      rw [List.length_zipWith, ha, hs s (by simp), Nat.min_self]
    obtain ⟨out, h1, h2, h3⟩ := mix_spec o ho ticks l (i + 1) (List.zipWith (fun a x => a + mixingEntry i o * x) acc s)
      (by simp only [List.length_cons] at hi; omega) hz (fun s hm => hs s (by simp [hm]))
    refine ⟨out, ?_, h2, fun t ht => ?_⟩
    · unfold mixInto
      rw [q15_entries i o (by simp only [List.length_cons] at hi; omega) ho]
      exact h1
    · rw [h3 t ht, List.length_cons, Finset.sum_range_succ']
      have e1 : acc[t]? = some (acc[t]'(by omega)) := List.getElem?_eq_getElem _
      have e2 : s[t]? = some (s[t]'(by rw [hs s (by simp)]; exact ht)) := List.getElem?_eq_getElem _
      have e3 : (List.zipWith (fun a x => a + mixingEntry i o * x) acc s)[t]?.getD 0 =
          acc[t]?.getD 0 + mixingEntry i o * frameSample (s :: l) 0 t := by
        rw [List.getElem?_zipWith, e1, e2]
        simp [frameSample, e2]
      rw [e3]
      have e4 : ∀ k, frameSample (s :: l) (k + 1) t = frameSample l k t := fun k => by simp [frameSample]
      have e5 : ∀ k, mixingEntry (i + (k + 1)) o = mixingEntry (i + 1 + k) o := fun k => by rw [Nat.add_right_comm, Nat.add_assoc]
      simp only [e4, e5, Nat.add_zero]
      ring

private theorem mapM_ex {α β : Type} {f : α → Except Err β} : ∀ (l : List α), (∀ a ∈ l, ∃ b, f a = .ok b) →
    ∃ r, l.mapM f = .ok r ∧ List.Forall₂ (fun a b => f a = .ok b) l r
  | [], _ => ⟨[], rfl, .nil⟩
  | a :: l, h => by
    obtain ⟨b, hb⟩ := h a (by simp)
    obtain ⟨r, h1, h2⟩ := mapM_ex l fun x hx => h x (by simp [hx])
    refine ⟨b :: r, ?_, .cons hb h2⟩
    rw [List.mapM_cons, hb, h1]
    rfl

private theorem forall₂_range {β : Type} {R : Nat → β → Prop} {n : Nat} {r : List β} (h : List.Forall₂ R (List.range n) r) :
    r.length = n ∧ ∀ i (hi : i < r.length), R i r[i] := by
  have hl := h.length_eq
  rw [List.length_range] at hl
  refine ⟨hl.symm, fun i hi => ?_⟩
  have := h.get (i := i) (by rw [List.length_range]; omega) hi
  simpa using this

private theorem applied {frame : List Samples} {ticks : Nat} (hl : frame.length = 16) (hs : ∀ s ∈ frame, s.length = ticks) :
    ∃ out, applyMixing (thirdOrderMixing.map q15) frame = .ok out ∧ MixerFrame 16 ticks out ∧ (∀ s ∈ out, s.length = ticks) ∧
      ∀ o < 16, ∀ t < ticks, frameSample out o t = ∑ i ∈ Finset.range 16, mixingEntry i o * frameSample frame i t := by
  have hlen : (thirdOrderMixing.map q15).length = 16 * 16 := by decide +kernel
  unfold applyMixing
  rw [hl, if_neg (fun h => h hlen)]
  cases hf : frame with
  | nil => rw [hf] at hl; cases hl
  | cons s ss =>
    simp only
    rw [← hf, hs s (by rw [hf]; simp)]
    obtain ⟨r, h1, h2⟩ := mapM_ex (f := fun o => mixInto (thirdOrderMixing.map q15) 16 o 0 frame (List.replicate ticks 0)) (List.range 16)
      (fun o ho => by
        obtain ⟨out, h, -⟩ := mix_spec o (by simpa using ho) ticks frame 0 (List.replicate ticks 0) (by omega) (by simp) hs
        exact ⟨out, h⟩)
    obtain ⟨h3, h4⟩ := forall₂_range h2
    have h5 : ∀ s ∈ r, s.length = ticks := by
      intro s hm
      obtain ⟨i, hi, rfl⟩ := List.getElem_of_mem hm
      exact mix_length _ _ _ _ _ ticks _ _ (by simp) hs (h4 i hi)
    refine ⟨r, h1, ⟨h3, ticks, Nat.le_refl _, h5⟩, h5, fun o ho t ht => ?_⟩
    obtain ⟨out, a, -, b⟩ := mix_spec o ho ticks frame 0 (List.replicate ticks 0) (by omega) (by simp) hs
    have := h4 o (by omega)
    rw [a] at this
    cases this
    have hr : r[o]? = some (r[o]'(by omega)) := List.getElem?_eq_getElem _
    rw [frameSample, hr, Option.getD_some, b t ht, hl]
    simp [ht]

/-- **C59 (mixing).** The mixer for third order ambisonics in Opus takes the frames of 16 channels, and gives 16 channels with as many
samples: each is the sum of the channels of the input times the entries of the mixing matrix, whatever it was given before. -/
theorem C59_channels_are_mixed (codecId : UInt32) (p : AmbisonicsPreset) (hm : IsMixed codecId p) (maxSamples : Nat) (x₀ x : AmbisonicsMixer)
    (h : AmbisonicsMixer.fromPreset codecId p maxSamples = .ok x₀) (hx : AfterPushes x₀ x) (frame : List Samples) :
    match x.push frame with
    | .ok y => MixerFrame 16 maxSamples frame ∧ y.output.length = 16 ∧ (∀ s ∈ y.output, ∀ r ∈ frame, s.length = r.length) ∧
        ∀ o < 16, ∀ t < (frame.head?.getD []).length,
          frameSample y.output o t = ∑ i ∈ Finset.range 16, mixingEntry i o * frameSample frame i t
    | .error e => e = .invalidArgument ∧ ¬ MixerFrame 16 maxSamples frame := by
  obtain ⟨y, h1, h2, -, h3, h4, h5, -⟩ := C59_presets codecId p maxSamples
  rw [h] at h1
  cases h1
  rw [hm.2] at h2
  have hk := pushes_keep hx
  replace h2 : x.channels = 16 := by rw [hk]; exact h2
  replace h3 : x.maxSamples = maxSamples := by rw [hk]; exact h3
  replace h4 : x.taking = true := by rw [hk]; exact h4
  have h5 : x.matrix = thirdOrderMixing.map q15 := by rw [hk]; exact (h5 hm).2
  obtain ⟨a, b⟩ := push_of h4 frame
  rw [h3, h2] at a b
  by_cases hf : MixerFrame 16 maxSamples frame
  · rw [a hf]
    obtain ⟨hl, n, hn, hs⟩ := hf
    obtain ⟨out, c1, c2, c3, c4⟩ := applied hl hs
    have hne : x.matrix ≠ [] := by
      rw [h5]
      intro hc
      exact absurd (congrArg List.length hc) (by decide +kernel)
    have hhead : (frame.head?.getD []).length = n := by
      cases frame with
      | nil => cases hl
      | cons s ss => exact hs s (by simp)
    unfold AmbisonicsMixer.pushDerived
    rw [if_neg hne, h5, c1]
    simp only [Bind.bind, Except.bind]
    refine ⟨⟨hl, n, hn, hs⟩, c2.1, fun s hm r hr => by rw [c3 s hm, hs r hr], fun o ho t ht => c4 o ho t (by rw [hhead] at ht; exact ht)⟩
  · rw [b hf]
    exact ⟨rfl, hf⟩

/-- **C59 (flushing).** A flushed mixer takes nothing more and has no samples. -/
theorem C59_flushing (x y : AmbisonicsMixer) (h : x.flush = .ok y) :
    x.taking = true ∧ (∀ frame, y.push frame = .error .failedPrecondition) ∧ y.flush = .error .failedPrecondition ∧
      ∀ s ∈ y.output, s = [] := by
  unfold AmbisonicsMixer.flush at h
  split at h
  · cases h
  · rename_i ht
    simp only [Except.ok.injEq] at h
    subst h
    refine ⟨by simpa using ht, fun frame => rfl, rfl, fun s hs => ?_⟩
    exact (List.mem_replicate.mp hs).2

/-! ### The two matrices -/

private def mixInt (i o : Nat) : Int := match thirdOrderMixing[i * 16 + o]? with
  | some v => v.toInt
  | none => 0

private def demixInt (o j : Nat) : Int := match thirdOrderDemixing[o * 16 + j]? with
  | some v => v.toInt
  | none => 0

private theorem mix_int (i o : Nat) : mixingEntry i o = (mixInt i o : Rat) / 2 ^ 15 := by
  unfold mixingEntry mixInt
  split <;> simp

private theorem demix_int (o j : Nat) : demixingEntry thirdOrderProjection o j = (demixInt o j : Rat) / 2 ^ 15 := by
  show (match thirdOrderDemixing[o * 16 + j]? with
    | some v => (v.toInt : Rat) / 2 ^ 15
    | none => 0) = _
  unfold demixInt
  split <;> simp

private def offInt (i j : Nat) : Int := ((List.range 16).map fun o => mixInt i o * demixInt o j).sum - if i = j then 2 ^ 30 else 0

private theorem off_small : ∀ j < 16, ((List.range 16).map fun i => (offInt i j).natAbs).sum ≤ 187904 := by decide +kernel

private theorem level_small : ∀ o < 16, ((List.range 16).map fun i => (mixInt i o).natAbs).sum ≤ 131072 := by decide +kernel

private theorem sum_range_eq {M : Type} [AddCommMonoid M] (n : Nat) (f : Nat → M) : ((List.range n).map f).sum = ∑ i ∈ Finset.range n, f i := rfl

/-- A weighted sum of bounded numbers. -/
private theorem bounded {x w : Nat → Rat} {B c : Rat} (hx : ∀ i < 16, |x i| ≤ B) (hw : ∑ i ∈ Finset.range 16, |w i| ≤ c) :
    |∑ i ∈ Finset.range 16, w i * x i| ≤ c * B := by
  have hB : 0 ≤ B := le_trans (abs_nonneg _) (hx 0 (by decide))
  calc |∑ i ∈ Finset.range 16, w i * x i| ≤ ∑ i ∈ Finset.range 16, |w i * x i| := Finset.abs_sum_le_sum_abs _ _
    _ ≤ ∑ i ∈ Finset.range 16, |w i| * B := by
      refine Finset.sum_le_sum fun i hi => ?_
      rw [abs_mul]
      exact mul_le_mul_of_nonneg_left (hx i (by simpa using hi)) (abs_nonneg _)
    _ = (∑ i ∈ Finset.range 16, |w i|) * B := by rw [Finset.sum_mul]
    _ ≤ c * B := mul_le_mul_of_nonneg_right hw hB

private theorem abs_int (z : Int) (k : Rat) (hk : 0 < k) : |(z : Rat) / k| = (z.natAbs : Rat) / k := by
  rw [abs_div, abs_of_pos hk, Nat.cast_natAbs, Int.cast_abs]

private theorem sum_abs {w : Nat → Rat} {z : Nat → Int} {k : Rat} {n : Nat} (hk : 0 < k) (hw : ∀ i, w i = (z i : Rat) / k)
    (h : ((List.range 16).map fun i => (z i).natAbs).sum ≤ n) : ∑ i ∈ Finset.range 16, |w i| ≤ n / k := by
  simp only [hw, abs_int _ k hk, ← Finset.sum_div]
  refine (div_le_div_iff_of_pos_right hk).mpr ?_
  rw [← Nat.cast_sum]
  exact_mod_cast h

/-- **C59 (mixing is undone).** Whatever the sixteen samples are, what the demixing matrix in the bitstream makes of the mixed samples
differs from them by no more than 0.0175 percent of the largest. -/
theorem C59_demixing_undoes_mixing (x : Nat → Rat) (B : Rat) (hx : ∀ i < 16, |x i| ≤ B) (j : Nat) (hj : j < 16) :
    |(∑ o ∈ Finset.range 16, (∑ i ∈ Finset.range 16, mixingEntry i o * x i) * demixingEntry thirdOrderProjection o j) - x j| ≤
      175 / 1000000 * B := by
  have hB : 0 ≤ B := le_trans (abs_nonneg _) (hx 0 (by decide))
  have e1 : (∑ o ∈ Finset.range 16, (∑ i ∈ Finset.range 16, mixingEntry i o * x i) * demixingEntry thirdOrderProjection o j) - x j =
      ∑ i ∈ Finset.range 16, (offInt i j : Rat) / 2 ^ 30 * x i := by
    have e2 : x j = ∑ i ∈ Finset.range 16, (if i = j then 1 else 0) * x i := by
      simp [hj]
    rw [e2]
    simp only [Finset.sum_mul]
    rw [Finset.sum_comm, ← Finset.sum_sub_distrib]
    refine Finset.sum_congr rfl fun i _ => ?_
    rw [offInt, sum_range_eq]
    push_cast
    rw [sub_div, sub_mul, Finset.sum_div, Finset.sum_mul]
    congr 1
    · refine Finset.sum_congr rfl fun o _ => ?_
      rw [mix_int, demix_int]
      ring
    · split <;> norm_num
  rw [e1]
  refine le_trans (bounded (c := (187904 : Nat) / 2 ^ 30) hx (sum_abs (by norm_num) (fun _ => rfl) (off_small j hj))) ?_
  exact mul_le_mul_of_nonneg_right (by norm_num) hB

/-- **C59 (level).** A mixed sample is at most four times as large as the largest of the sixteen samples. -/
theorem C59_level_of_mixed_channels (x : Nat → Rat) (B : Rat) (hx : ∀ i < 16, |x i| ≤ B) (o : Nat) (ho : o < 16) :
    |∑ i ∈ Finset.range 16, mixingEntry i o * x i| ≤ 4 * B := by
  have hB : 0 ≤ B := le_trans (abs_nonneg _) (hx 0 (by decide))
  refine le_trans (bounded (c := (131072 : Nat) / 2 ^ 15) hx (sum_abs (by norm_num) (fun i => mix_int i o) (level_small o ho))) ?_
  exact mul_le_mul_of_nonneg_right (by norm_num) hB

/-- **C59 (finding).** It can be as large as that: sixteen channels at full scale are mixed to a channel at four times full scale, which
the conversion to integers cuts off. -/
theorem C59_mixing_can_overload : ∑ i ∈ Finset.range 16, mixingEntry i 0 * 1 = 4 := by
  simp only [mix_int, mul_one, ← Finset.sum_div]
  rw [← Int.cast_sum, ← sum_range_eq, show ((List.range 16).map fun i => mixInt i 0).sum = 131072 by decide +kernel]
  norm_num

end Iamf.Props
