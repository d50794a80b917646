import Verif.Cli.ReconGain
import Verif.Props.BlockGenerator
/-
  C58: the recon gains that the encoder measures.
-/
namespace Iamf.Props
open Iamf

/-- The level of a signal: the square root of the mean of its squares. -/
noncomputable def levelOf (x : List ℝ) : ℝ := Real.sqrt ((x.map fun s => s ^ 2).sum / x.length)

/-- The level of the samples of a channel. -/
noncomputable def level (x : Samples) : ℝ := levelOf (x.map fun s : Rat => (s : ℝ))

/-- -80 dB: what is below is silence. -/
noncomputable def silence : ℝ := 10 ^ (-8 : ℝ)

/-- The ratio of levels that is -6 dB. -/
noncomputable def minusSix : ℝ := 10 ^ (-(6 / 10) : ℝ)

/-- The samples of a channel: as it is, or else as it was demixed. -/
def ChannelIs (m : SamplesMap) (l : Label) (s : Samples) : Prop := m l = some s ∨ m l = none ∧ ∃ k, demixedLabel l = .ok k ∧ m k = some s

/-- What the encoder does for a demixed channel: `o` are its samples, `m` those of the channel of the layer below that it is mixed into and `d` those that a decoder has after demixing.  The gain is 0
for silence, 1 if the channel is not more than 6 dB below the one it is mixed into, and otherwise the square root of how much stronger the channel should be; `none` is infinity. -/
inductive GainFor (o : Samples) (m d : Samples → Prop) : Option ℝ → Prop
  | silent : level o < silence → GainFor o m d (some 0)
  | loud (a : Samples) : silence ≤ level o → m a → minusSix * level a ≤ level o → GainFor o m d (some 1)
  | masked (a b : Samples) (x : ℝ) : silence ≤ level o → m a → level o < minusSix * level a → d b → 0 < x → x ^ 2 * level b = level o → GainFor o m d (some x)
  | lost (a b : Samples) : silence ≤ level o → m a → level o < minusSix * level a → d b → level b = 0 → GainFor o m d none

/-! ### Proof -/

private theorem fold_scaled (c : ℝ) : ∀ (x : List Rat) (a : ℝ),
    x.foldl (fun mean (s : Rat) => mean + c * (s : ℝ) * (s : ℝ)) a = a + c * ((x.map fun s : Rat => (s : ℝ)).map fun s => s ^ 2).sum
  | [], a => by simp
  | s :: x, a => by
    rw [List.foldl_cons, fold_scaled c x]
    simp only [List.map_cons, List.sum_cons]
    ring

private theorem power_level (x : Samples) : signalPower x = level x := by
  unfold signalPower level levelOf
  rw [fold_scaled, List.length_map]
  congr 1
  ring

private theorem level_nonneg (x : Samples) : 0 ≤ level x := Real.sqrt_nonneg _

private theorem silence_pos : 0 < silence := Real.rpow_pos_of_pos (by norm_num) _

private theorem six_pos : 0 < minusSix := Real.rpow_pos_of_pos (by norm_num) _

private theorem decibels_lt {p : ℝ} (hp : 0 ≤ p) (t : ℝ) : decibels p < (t : EReal) ↔ p < 10 ^ (t / 10) := by
  unfold decibels
  split
  · next h =>
    subst h
    exact ⟨fun _ => Real.rpow_pos_of_pos (by norm_num) _, fun _ => EReal.bot_lt_coe _⟩
  · next h =>
    have hp : 0 < p := lt_of_le_of_ne hp (Ne.symm h)
    rw [EReal.coe_lt_coe_iff, ← Real.logb_lt_iff_lt_rpow (by norm_num) hp]
    constructor <;> intro h <;> linarith

private theorem ratio_ge {a b : ℝ} (ha : 0 < a) (hb : 0 ≤ b) : ratioDecibels a b ≥ ((-6 : ℝ) : EReal) ↔ minusSix * b ≤ a := by
  unfold ratioDecibels
  split
  · next h =>
    subst h
    simp [ha.le]
  · next h =>
    have hb : 0 < b := lt_of_le_of_ne hb (Ne.symm h)
    rw [ge_iff_le, ← not_lt, decibels_lt (div_nonneg ha.le hb.le), not_lt, le_div_iff₀ hb]
    unfold minusSix
    norm_num

private theorem channel_iff (m : SamplesMap) (l : Label) (s : Samples) : findSamples l m = .ok s ↔ ChannelIs m l s := by
  unfold findSamples ChannelIs
  cases h : m l with
  | some t => simp
  | none =>
    simp only [reduceCtorEq, true_and, false_or, bind, Except.bind]
    cases h2 : demixedLabel l with
    | error e => simp
    | ok k =>
      simp only [Except.ok.injEq, exists_eq_left']
      cases h3 : m k with
      | none => simp
      | some t => simp

/-- **C58.** Which recon gain a demixed channel gets: what `GainFor` says of the channel, of the channel of the layer below that it is mixed into and of the channel that a decoder would demix. -/
theorem C58_which_recon_gain (l : Label) (original decoded : SamplesMap) (g : Option ℝ) :
    computeReconGain l original decoded = .ok g ↔
      ∃ o, ChannelIs original l o ∧ GainFor o (fun a => ∃ below, relevantMixedLabel l = .ok below ∧ ChannelIs original below a) (ChannelIs decoded l) g := by
  have hrel : ∀ a, findRelevantMixed l original = .ok a ↔ ∃ below, relevantMixedLabel l = .ok below ∧ ChannelIs original below a := by
    intro a
    unfold findRelevantMixed
    cases h : relevantMixedLabel l with
    | error e => simp [bind, Except.bind]
    | ok k => simp [bind, Except.bind, channel_iff]
  unfold computeReconGain
  simp only [bind, Except.bind]
  cases ho : findSamples l original with
  | error e =>
    simp only [reduceCtorEq, false_iff, not_exists, not_and]
    intro o h
    rw [(channel_iff _ _ _).mpr h] at ho
    cases ho
  | ok o =>
    have hone : ∀ o', ChannelIs original l o' ↔ o' = o := by
      intro o'
      rw [← channel_iff, ho, Except.ok.injEq, eq_comm]
    simp only [hone, exists_eq_left, power_level]
    have hdb : decibels (level o) < ((-80 : ℝ) : EReal) ↔ level o < silence := by
      rw [decibels_lt (level_nonneg o), show ((10 : ℝ) ^ (-80 / 10 : ℝ)) = silence by unfold silence; norm_num]
    by_cases hs : level o < silence
    · rw [if_pos (hdb.mpr hs), Except.ok.injEq]
      constructor
      · rintro rfl; exact .silent hs
      · rintro (_ | ⟨_, h1, _⟩ | ⟨_, _, _, h1, _⟩ | ⟨_, _, h1, _⟩)
        · rfl
        all_goals exact absurd hs (not_lt.mpr h1)
    rw [if_neg (fun h => hs (hdb.mp h))]
    have hs' : silence ≤ level o := not_lt.mp hs
    have hpos : 0 < level o := lt_of_lt_of_le silence_pos hs'
    cases hm : findRelevantMixed l original with
    | error e =>
      simp only [reduceCtorEq, false_iff]
      have hnone : ∀ a, ¬ ∃ below, relevantMixedLabel l = .ok below ∧ ChannelIs original below a := by
        intro a h
        rw [← hrel, hm] at h
        cases h
      rintro (h1 | ⟨a, _, h2, _⟩ | ⟨a, _, _, _, h2, _⟩ | ⟨a, _, _, h2, _⟩)
      · exact hs h1
      all_goals exact hnone a h2
    | ok a =>
      have honly : ∀ a', (∃ below, relevantMixedLabel l = .ok below ∧ ChannelIs original below a') ↔ a' = a := by
        intro a'
        rw [← hrel, hm, Except.ok.injEq, eq_comm]
      simp only [honly, power_level]
      have hdb := ratio_ge hpos (level_nonneg a)
      by_cases hr : minusSix * level a ≤ level o
      · rw [if_pos (hdb.mpr hr), Except.ok.injEq]
        constructor
        · rintro rfl; exact .loud a hs' rfl hr
        · rintro (h1 | _ | ⟨_, _, _, _, rfl, h1, _⟩ | ⟨_, _, _, rfl, h1, _⟩)
          · exact absurd h1 hs
          · rfl
          all_goals exact absurd hr (not_le.mpr h1)
      rw [if_neg (fun h => hr (hdb.mp h))]
      have hr' := not_le.mp hr
      cases hd : findSamples l decoded with
      | error e =>
        simp only [reduceCtorEq, false_iff]
        have hnone : ∀ b, ¬ ChannelIs decoded l b := by
          intro b h
          rw [← channel_iff, hd] at h
          cases h
        rintro (h1 | ⟨_, _, rfl, h1⟩ | ⟨_, b, _, _, _, _, h1, _⟩ | ⟨_, b, _, _, _, h1, _⟩)
        · exact hs h1
        · exact hr h1
        all_goals exact hnone b h1
      | ok b =>
        have hb : ∀ b', ChannelIs decoded l b' ↔ b' = b := by
          intro b'
          rw [← channel_iff, hd, Except.ok.injEq, eq_comm]
        simp only [power_level]
        by_cases h0 : level b = 0
        · rw [if_pos h0, Except.ok.injEq]
          constructor
          · rintro rfl; exact .lost a b hs' rfl hr' ((hb b).mpr rfl) h0
          · rintro (h1 | ⟨_, _, rfl, h1⟩ | ⟨_, b', _, _, _, _, h1, h2, h3⟩ | _)
            · exact absurd h1 hs
            · exact absurd h1 hr
            · rw [(hb b').mp h1, h0, mul_zero] at h3
              linarith
            · rfl
        · rw [if_neg h0, Except.ok.injEq]
          have hbpos : 0 < level b := lt_of_le_of_ne (level_nonneg b) (Ne.symm h0)
          have hq : 0 < level o / level b := div_pos hpos hbpos
          constructor
          · rintro rfl
            refine .masked a b _ hs' rfl hr' ((hb b).mpr rfl) (Real.sqrt_pos.mpr hq) ?_
            rw [Real.sq_sqrt hq.le, div_mul_cancel₀ _ h0]
          · rintro (h1 | ⟨_, _, rfl, h1⟩ | ⟨_, b', x, _, _, _, h1, h2, h3⟩ | ⟨_, b', _, _, _, h1, h2⟩)
            · exact absurd h1 hs
            · exact absurd h1 hr
            · rw [(hb b').mp h1] at h3
              rw [Option.some.injEq, ← h3, mul_div_assoc, div_self h0, mul_one, Real.sqrt_sq h2.le]
            · rw [(hb b').mp h1] at h2
              exact absurd h2 h0

/-- **C58.** A channel gets a gain as soon as it is there with the channel that it is mixed into and the channel that a decoder would demix. -/
theorem C58_every_demixed_channel_gets_a_gain (l below : Label) (original decoded : SamplesMap) (o a b : Samples) (ho : ChannelIs original l o)
    (hr : relevantMixedLabel l = .ok below) (ha : ChannelIs original below a) (hb : ChannelIs decoded l b) : ∃ g, computeReconGain l original decoded = .ok g := by
  simp only [C58_which_recon_gain]
  by_cases hs : level o < silence
  · exact ⟨_, o, ho, .silent hs⟩
  have hs' := not_lt.mp hs
  by_cases hm : minusSix * level a ≤ level o
  · exact ⟨_, o, ho, .loud a hs' ⟨below, hr, ha⟩ hm⟩
  by_cases h0 : level b = 0
  · exact ⟨_, o, ho, .lost a b hs' ⟨below, hr, ha⟩ (not_le.mp hm) hb h0⟩
  · have hpos : 0 < level o := lt_of_lt_of_le silence_pos hs'
    have hbpos : 0 < level b := lt_of_le_of_ne (level_nonneg b) (Ne.symm h0)
    have hq : 0 < level o / level b := div_pos hpos hbpos
    exact ⟨_, o, ho, .masked a b (Real.sqrt (level o / level b)) hs' ⟨below, hr, ha⟩ (not_le.mp hm) hb (Real.sqrt_pos.mpr hq)
      (by rw [Real.sq_sqrt hq.le, div_mul_cancel₀ _ h0])⟩

/-- **C58.** The channel that a channel is compared with is one that it is mixed into: down-mixing with positive factors makes it of that channel, among others.  Every channel that may be demixed has
one. -/
theorem C58_which_channel_it_is_mixed_into (base l : Label) (h : demixedLabel base = .ok l) :
    ∃ below, relevantMixedLabel l = .ok below ∧ ∃ d ∈ [s7ToS5, s5ToS3, s3ToS2, s2ToS1, t4ToT2, t2ToTf2], ∃ f, (below, f) ∈ d.outputs ∧ base ∈ d.inputs ∧
      ∀ p : MixFactors, 0 < p.alpha → 0 < p.beta → 0 < p.gamma → 0 < p.delta → 0 < f p fun c => if c = base then 1 else 0 := by
  unfold demixedLabel at h
  split at h <;> simp only [Except.ok.injEq, reduceCtorEq] at h <;> subst h <;> refine ⟨_, rfl, ?_⟩
  · exact ⟨s2ToS1, by simp, _, by simp [s2ToS1]; rfl, by simp [s2ToS1], fun p _ _ _ _ => by simp⟩
  · exact ⟨s3ToS2, by simp, _, by simp [s3ToS2]; rfl, by simp [s3ToS2], fun p _ _ _ _ => by simp⟩
  · exact ⟨s3ToS2, by simp, _, by simp [s3ToS2]; rfl, by simp [s3ToS2], fun p _ _ _ _ => by simp⟩
  · exact ⟨s5ToS3, by simp, _, by simp [s5ToS3]; rfl, by simp [s5ToS3], fun p _ _ _ _ => by simp⟩
  · exact ⟨s5ToS3, by simp, _, by simp [s5ToS3]; rfl, by simp [s5ToS3], fun p _ _ _ _ => by simp⟩
  · exact ⟨s5ToS3, by simp, _, by simp [s5ToS3]; rfl, by simp [s5ToS3], fun p _ _ _ h => by simpa using h⟩
  · exact ⟨s5ToS3, by simp, _, by simp [s5ToS3]; rfl, by simp [s5ToS3], fun p _ _ _ h => by simpa using h⟩
  · exact ⟨t2ToTf2, by simp, _, by simp [t2ToTf2]; rfl, by simp [t2ToTf2], fun p _ _ _ _ => by simp⟩
  · exact ⟨t2ToTf2, by simp, _, by simp [t2ToTf2]; rfl, by simp [t2ToTf2], fun p _ _ _ _ => by simp⟩
  · exact ⟨t4ToT2, by simp, _, by simp [t4ToT2]; rfl, by simp [t4ToT2], fun p _ _ h _ => by simpa using h⟩
  · exact ⟨t4ToT2, by simp, _, by simp [t4ToT2]; rfl, by simp [t4ToT2], fun p _ _ h _ => by simpa using h⟩
  · exact ⟨s7ToS5, by simp, _, by simp [s7ToS5]; rfl, by simp [s7ToS5], fun p _ _ _ _ => by simp⟩
  · exact ⟨s7ToS5, by simp, _, by simp [s7ToS5]; rfl, by simp [s7ToS5], fun p _ _ _ _ => by simp⟩
  · exact ⟨s7ToS5, by simp, _, by simp [s7ToS5]; rfl, by simp [s7ToS5], fun p _ h _ _ => by simpa using h⟩
  · exact ⟨s7ToS5, by simp, _, by simp [s7ToS5]; rfl, by simp [s7ToS5], fun p _ h _ _ => by simpa using h⟩

/-! ### What follows -/

private theorem channel_once {m : SamplesMap} {l : Label} {a b : Samples} (ha : ChannelIs m l a) (hb : ChannelIs m l b) : a = b := by
  have h1 := (channel_iff m l a).mpr ha
  rw [(channel_iff m l b).mpr hb] at h1
  exact (Except.ok.inj h1).symm

/-- **C58.** If a decoder gets the channel as it is, which C28 says of codecs without loss, then the gain is 1, which changes nothing, or 0 where there is nothing to hear. -/
theorem C58_without_loss (l : Label) (original decoded : SamplesMap) (o : Samples) (ho : ChannelIs original l o) (hd : ChannelIs decoded l o) (g : Option ℝ)
    (h : computeReconGain l original decoded = .ok g) : (level o < silence ∧ g = some 0) ∨ (silence ≤ level o ∧ g = some 1) := by
  obtain ⟨o', h1, h2⟩ := (C58_which_recon_gain l original decoded g).mp h
  obtain rfl := channel_once ho h1
  rcases h2 with h2 | ⟨a, h2, h3, h4⟩ | ⟨a, b, x, h2, h3, h4, h5, h6, h7⟩ | ⟨a, b, h2, h3, h4, h5, h6⟩
  · exact .inl ⟨h2, rfl⟩
  · exact .inr ⟨h2, rfl⟩
  · obtain rfl := channel_once hd h5
    have hpos : 0 < level o := lt_of_lt_of_le silence_pos h2
    have : x ^ 2 = 1 := by
      have := mul_right_cancel₀ hpos.ne' (h7.trans (one_mul _).symm)
      exact this
    refine .inr ⟨h2, ?_⟩
    rw [Option.some.injEq]
    nlinarith
  · obtain rfl := channel_once hd h5
    have := silence_pos
    linarith

/-- **C58.** The gains in a parameter block of a codec without loss are 0 or 255. -/
theorem C58_gains_without_loss (round : ℝ → Rat) (h0 : round 0 = 0) (h1 : round 1 = 1) (original decoded : SamplesMap)
    (hsame : ∀ l o, ChannelIs original l o → ChannelIs decoded l o) (below layer : ChannelNumbers) (e : ReconGainElement)
    (h : IsMeasured (measuredGain round original decoded) below layer e) : ∀ x ∈ e.gains, x = 0 ∨ x = 255 := by
  obtain ⟨given, h2, h3⟩ := h.gains
  have key : ∀ l p, IsGainOf (measuredGain round original decoded) l p → p.2 = 0 ∨ p.2 = 255 := by
    rintro l ⟨k, b⟩ ⟨-, x, q1, q2⟩
    unfold measuredGain at q1
    cases hc : computeReconGain l original decoded with
    | error er => rw [hc] at q1; cases q1
    | ok g =>
      rw [hc] at q1
      obtain ⟨o, ho, -⟩ := (C58_which_recon_gain l original decoded g).mp hc
      rcases C58_without_loss l original decoded o ho (hsame l o ho) g hc with ⟨-, rfl⟩ | ⟨-, rfl⟩
      · cases q1
        rw [h0] at q2
        left
        rcases q2 with ⟨-, r1, -⟩ | ⟨r1, -⟩
        · rw [zero_mul] at r1
          have : b.toNat = 0 := by
            have : ((b.toNat : Nat) : Rat) ≤ ((0 : Nat) : Rat) := by simpa using r1
            exact Nat.le_zero.mp (Nat.cast_le.mp this)
          exact UInt8.toNat_inj.mp this
        · exact absurd r1 (by norm_num)
      · cases q1
        rw [h1] at q2
        right
        rcases q2 with ⟨-, -, r2⟩ | ⟨r1, -⟩
        · have : 255 < b.toNat + 1 := by
            have : ((255 : Nat) : Rat) < ((b.toNat + 1 : Nat) : Rat) := by push_cast; linarith
            exact Nat.cast_lt.mp this
          have hb := b.toNat_lt
          exact UInt8.toNat_inj.mp (by simp; omega)
        · exact absurd r1 (by norm_num)
  intro x hx
  obtain ⟨k, hk, hkx⟩ := List.mem_iff_getElem.mp hx
  have hx' : e.gains[k]? = some x := by rw [List.getElem?_eq_getElem hk, hkx]
  by_cases hp : ∃ p ∈ given, p.1 = k
  · obtain ⟨p, hp, rfl⟩ := hp
    have := h3.gain p hp
    rw [hx'] at this
    cases this
    obtain ⟨hlen, hget⟩ := List.forall₂_iff_get.mp h2
    obtain ⟨j, hj, hjp⟩ := List.mem_iff_getElem.mp hp
    have hl := hget j (hlen ▸ hj) hj
    simp only [List.get_eq_getElem, hjp] at hl
    exact key _ p hl
  · have hlen : k < 12 := by
      have := h3.length
      omega
    have := h3.others k hlen (fun p hp' hk' => hp ⟨p, hp', hk'⟩)
    rw [hx'] at this
    exact .inl (Option.some.inj this)

private theorem level_scaled (x : ℝ) (hx : 0 ≤ x) (b : Samples) : levelOf (b.map fun s : Rat => x * (s : ℝ)) = x * level b := by
  unfold level levelOf
  rw [List.map_map, List.map_map, List.length_map, List.length_map]
  have : (List.map ((fun s => s ^ 2) ∘ fun s : Rat => x * (s : ℝ)) b).sum = x ^ 2 * (List.map ((fun s => s ^ 2) ∘ fun s : Rat => (s : ℝ)) b).sum := by
    rw [← List.sum_map_mul_left]
    congr 1
    exact List.map_congr_left fun s _ => by simp only [Function.comp]; ring
  rw [this, mul_div_assoc, Real.sqrt_mul (sq_nonneg x), Real.sqrt_sq hx]

/-- **C58** (a finding).  The gain does not give a demixed channel the level that it should have: a decoder that multiplies its samples by the gain gets the geometric mean of that level and of the one
it had before.  (Levels are roots of mean squares, but the root is taken of their ratio as if they were mean squares.) -/
theorem C58_the_gain_does_not_restore_the_level (l : Label) (original decoded : SamplesMap) (o b : Samples) (ho : ChannelIs original l o) (hb : ChannelIs decoded l b)
    (x : ℝ) (h : computeReconGain l original decoded = .ok (some x)) (h0 : x ≠ 0) (h1 : x ≠ 1) :
    levelOf (b.map fun s : Rat => x * (s : ℝ)) = Real.sqrt (level o * level b) ∧ levelOf (b.map fun s : Rat => x * (s : ℝ)) ≠ level o := by
  obtain ⟨o', q1, q2⟩ := (C58_which_recon_gain l original decoded _).mp h
  obtain rfl := channel_once ho q1
  generalize hg : some x = g at q2
  rcases q2 with h2 | ⟨a, h2, h3, h4⟩ | ⟨a, b', y, h2, h3, h4, h5, h6, h7⟩ | ⟨a, b', h2, h3, h4, h5, h6⟩
  · cases hg; exact absurd rfl h0
  · cases hg; exact absurd rfl h1
  · cases hg
    obtain rfl := channel_once hb h5
    have hpos : 0 < level o := lt_of_lt_of_le silence_pos h2
    have hbpos : 0 < level b := by
      rcases (level_nonneg b).eq_or_lt with hz | hz
      · rw [← hz, mul_zero] at h7; linarith
      · exact hz
    rw [level_scaled x h6.le]
    constructor
    · rw [← h7, show x ^ 2 * level b * level b = (x * level b) ^ 2 by ring, Real.sqrt_sq (mul_pos h6 hbpos).le]
    · intro hc
      rw [← h7] at hc
      have : x = x ^ 2 := mul_right_cancel₀ hbpos.ne' hc
      exact h1 (by nlinarith [mul_pos h6 h6])
  · cases hg

/-- **C58** (a finding).  A channel that comes out of the decoder weaker than it was has a gain above 1.  If it is weaker by more than a factor of 4 (12 dB), then to make a byte of the gain is
undefined, however the gain is rounded. -/
theorem C58_weak_channels_are_undefined (round : ℝ → Rat) (hround : ∀ x, |(round x : ℝ) - x| ≤ |x| / 4) (l : Label) (original decoded : SamplesMap) (o a b : Samples)
    (ho : ChannelIs original l o) (below : Label) (hrel : relevantMixedLabel l = .ok below) (ha : ChannelIs original below a) (hb : ChannelIs decoded l b)
    (hs : silence ≤ level o) (hm : level o < minusSix * level a) (hweak : 4 * level b < level o) :
    measuredGain round original decoded l = .error .ub ∨ ∃ q, measuredGain round original decoded l = .ok q ∧ reconGainByte q = .error .ub := by
  obtain ⟨g, hg⟩ := C58_every_demixed_channel_gets_a_gain l below original decoded o a b ho hrel ha hb
  have hg' := hg
  rw [C58_which_recon_gain] at hg'
  obtain ⟨o', q1, q2⟩ := hg'
  obtain rfl := channel_once ho q1
  have only : ∀ a', (∃ below, relevantMixedLabel l = .ok below ∧ ChannelIs original below a') → a' = a := by
    rintro a' ⟨k, r1, r2⟩
    rw [hrel] at r1
    cases r1
    exact channel_once r2 ha
  unfold measuredGain
  rw [hg]
  rcases q2 with h2 | ⟨a', h2, h3, h4⟩ | ⟨a', b', y, h2, h3, h4, h5, h6, h7⟩ | ⟨a', b', h2, h3, h4, h5, h6⟩
  · linarith
  · rw [only a' h3] at h4; linarith
  · right
    obtain rfl := channel_once hb h5
    refine ⟨round y, rfl, ?_⟩
    have hy : 2 < y := by
      have hbn := level_nonneg b
      have hpos : 0 < level o := lt_of_lt_of_le silence_pos h2
      have hbpos : 0 < level b := by
        rcases hbn.eq_or_lt with hz | hz
        · rw [← hz, mul_zero] at h7; linarith
        · exact hz
      have : 4 < y ^ 2 := lt_of_mul_lt_mul_right (by rw [h7]; exact hweak) hbn
      nlinarith
    have h8 := (abs_le.mp (hround y)).1
    rw [abs_of_pos h6] at h8
    have h9 : (3 / 2 : ℝ) < (round y : ℝ) := by linarith
    have h10 : (3 / 2 : Rat) < round y := by
      have : (((3 / 2 : Rat)) : ℝ) < (round y : ℝ) := by push_cast; linarith
      exact_mod_cast this
    cases hbyte : reconGainByte (round y) with
    | error er =>
      unfold reconGainByte at hbyte
      split at hbyte
      · cases hbyte
      · exact hbyte.symm ▸ rfl
    | ok c =>
      have := (byte_iff (round y) c).mp hbyte
      have hc := c.toNat_lt
      rcases this with ⟨-, -, r⟩ | ⟨r, -⟩
      · have : (382 : Rat) < ((c.toNat + 1 : Nat) : Rat) := by push_cast; linarith
        have : 382 < c.toNat + 1 := by exact_mod_cast this
        omega
      · linarith
  · left
    rfl

/-! ### A concrete case -/

private theorem silence_le : silence ≤ 1 / 100 := by
  unfold silence
  rw [show (1 / 100 : ℝ) = 10 ^ (-2 : ℝ) by norm_num [Real.rpow_neg]]
  exact Real.rpow_le_rpow_of_exponent_le (by norm_num) (by norm_num)

private theorem six_ge : (1 / 10 : ℝ) ≤ minusSix := by
  unfold minusSix
  rw [show (1 / 10 : ℝ) = 10 ^ (-1 : ℝ) by norm_num [Real.rpow_neg]]
  exact Real.rpow_le_rpow_of_exponent_le (by norm_num) (by norm_num)

private theorem level_two (q : Rat) (hq : 0 ≤ q) : level [q, -q] = q := by
  unfold level levelOf
  simp only [List.map_cons, List.map_nil, List.sum_cons, List.sum_nil, List.length_cons, List.length_nil, Rat.cast_neg]
  rw [show (((q : ℝ)) ^ 2 + ((-(q : ℝ)) ^ 2 + 0)) / ((0 + 1 + 1 : Nat) : ℝ) = (q : ℝ) ^ 2 by push_cast; ring, Real.sqrt_sq (by exact_mod_cast hq)]

/-- A quiet right channel beside a loud left one. -/
private def quietRight (r : Rat) : SamplesMap := fun l => if l = .demixedR2 then some [r, -r] else if l = .mono then some [1 / 2, -1 / 2] else none

/-- **C58**, for the right channel of a stereo layer on top of a mono layer: a decoder has it four times as strong as it was, and gets the gain 1/2, which leaves it twice as strong as it was. -/
example : computeReconGain .demixedR2 (quietRight (1 / 100)) (quietRight (4 / 100)) = .ok (some (1 / 2)) ∧
    levelOf (([4 / 100, -(4 / 100)] : List Rat).map fun s : Rat => (1 / 2 : ℝ) * (s : ℝ)) = 2 / 100 := by
  have e1 : level [1 / 100, -(1 / 100)] = 1 / 100 := by rw [level_two _ (by norm_num)]; norm_num
  have e2 : level [4 / 100, -(4 / 100)] = 4 / 100 := by rw [level_two _ (by norm_num)]; norm_num
  have e3 : level [1 / 2, -1 / 2] = 1 / 2 := by
    rw [show ([1 / 2, -1 / 2] : List Rat) = [1 / 2, -(1 / 2)] by norm_num, level_two _ (by norm_num)]; norm_num
  constructor
  · rw [C58_which_recon_gain]
    refine ⟨[1 / 100, -(1 / 100)], .inl rfl, .masked [1 / 2, -1 / 2] [4 / 100, -(4 / 100)] _ ?_ ⟨.mono, rfl, .inl rfl⟩ ?_ (.inl rfl) (by norm_num) ?_⟩
    · rw [e1]; exact silence_le
    · rw [e1, e3]; have := six_ge; linarith
    · rw [e1, e2]; norm_num
  · rw [level_scaled _ (by norm_num), e2]; norm_num

/-- **C58**, for a right channel that got lost in coding: its gain is undefined. -/
example (round : ℝ → Rat) (hround : ∀ x, |(round x : ℝ) - x| ≤ |x| / 4) : measuredGain round (quietRight (1 / 100)) (quietRight 0) .demixedR2 = .error .ub ∨
    ∃ q, measuredGain round (quietRight (1 / 100)) (quietRight 0) .demixedR2 = .ok q ∧ reconGainByte q = .error .ub := by
  have e1 : level [1 / 100, -(1 / 100)] = 1 / 100 := by rw [level_two _ (by norm_num)]; norm_num
  have e2 : level [0, -0] = 0 := by rw [level_two _ (by norm_num)]; norm_num
  have e3 : level [1 / 2, -1 / 2] = 1 / 2 := by
    rw [show ([1 / 2, -1 / 2] : List Rat) = [1 / 2, -(1 / 2)] by norm_num, level_two _ (by norm_num)]; norm_num
  refine C58_weak_channels_are_undefined round hround .demixedR2 _ _ [1 / 100, -(1 / 100)] [1 / 2, -1 / 2] [0, -0] (.inl rfl) .mono rfl (.inl rfl) (.inl rfl) ?_ ?_ ?_
  · rw [e1]; exact silence_le
  · rw [e1, e3]; have := six_ge; linarith
  · rw [e1, e2]; norm_num

/-- **C58**, without loss: the gain of the quiet channel is 1. -/
example : computeReconGain .demixedR2 (quietRight (1 / 100)) (quietRight (1 / 100)) = .ok (some 1) := by
  have e1 : level [1 / 100, -(1 / 100)] = 1 / 100 := by rw [level_two _ (by norm_num)]; norm_num
  obtain ⟨g, hg⟩ := C58_every_demixed_channel_gets_a_gain .demixedR2 .mono (quietRight (1 / 100)) (quietRight (1 / 100)) [1 / 100, -(1 / 100)] [1 / 2, -1 / 2] [1 / 100, -(1 / 100)]
    (.inl rfl) rfl (.inl rfl) (.inl rfl)
  rcases C58_without_loss .demixedR2 _ _ [1 / 100, -(1 / 100)] (.inl rfl) (.inl rfl) g hg with ⟨h, -⟩ | ⟨-, rfl⟩
  · rw [e1] at h
    have := silence_le
    linarith
  · exact hg

end Iamf.Props
