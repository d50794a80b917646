import Verif.Cli.Output
/-
  C33: the channels of an output frame in the order that Android wants.
-/
namespace Iamf.Props
open Iamf

/-! ### Specification -/

/-- Loudspeakers, in the order of Android's channel masks (`AudioFormat.CHANNEL_OUT_*`, lowest bit first). -/
inductive Speaker
  | frontLeft | frontRight | frontCenter | lowFrequency | backLeft | backRight | frontLeftOfCenter | frontRightOfCenter
  | backCenter | sideLeft | sideRight | topCenter | topFrontLeft | topFrontCenter | topFrontRight | topBackLeft | topBackCenter
  | topBackRight | topSideLeft | topSideRight | bottomFrontLeft | bottomFrontCenter | bottomFrontRight | lowFrequency2
  deriving DecidableEq, Repr

open Speaker in
/-- The loudspeakers of the sound systems, in the order in which the channels of a rendered frame come (comments in
channel_reorderer.cc:45, 59, 92, 124; ITU-R BS.2051 for the others). -/
def speakersOf (soundSystem : UInt8) : List Speaker :=
  if soundSystem = 0 then [frontLeft, frontRight]
  else if soundSystem = 1 then [frontLeft, frontRight, frontCenter, lowFrequency, backLeft, backRight]
  else if soundSystem = 2 then [frontLeft, frontRight, frontCenter, lowFrequency, backLeft, backRight, topFrontLeft, topFrontRight]
  else if soundSystem = 3 then
    [frontLeft, frontRight, frontCenter, lowFrequency, backLeft, backRight, topFrontLeft, topFrontRight, topBackLeft, topBackRight]
  else if soundSystem = 4 then
    [frontLeft, frontRight, frontCenter, lowFrequency, backLeft, backRight, topFrontLeft, topFrontRight, topBackLeft, topBackRight,
      bottomFrontCenter]
  else if soundSystem = 5 then
    [frontCenter, frontLeft, frontRight, topFrontLeft, topFrontRight, sideLeft, sideRight, backLeft, backRight, topCenter,
      lowFrequency, lowFrequency2]
  else if soundSystem = 6 then
    [frontLeft, frontRight, frontCenter, lowFrequency, sideLeft, sideRight, backLeft, backRight, topFrontLeft, topFrontRight,
      topBackLeft, topBackRight, frontLeftOfCenter, frontRightOfCenter]
  else if soundSystem = 7 then
    [frontLeft, frontRight, frontCenter, lowFrequency, backLeft, backRight, frontLeftOfCenter, frontRightOfCenter, backCenter,
      lowFrequency2, sideLeft, sideRight, topFrontLeft, topFrontRight, topFrontCenter, topCenter, topBackLeft, topBackRight,
      topSideLeft, topSideRight, topBackCenter, bottomFrontCenter, bottomFrontLeft, bottomFrontRight]
  else if soundSystem = 8 then
    [frontLeft, frontRight, frontCenter, lowFrequency, sideLeft, sideRight, backLeft, backRight]
  else if soundSystem = 9 then
    [frontLeft, frontRight, frontCenter, lowFrequency, sideLeft, sideRight, backLeft, backRight, topFrontLeft, topFrontRight,
      topBackLeft, topBackRight]
  else if soundSystem = 10 then
    [frontLeft, frontRight, frontCenter, lowFrequency, sideLeft, sideRight, backLeft, backRight, topFrontLeft, topFrontRight]
  else if soundSystem = 11 then [frontLeft, frontRight, frontCenter, lowFrequency, topFrontLeft, topFrontRight]
  else if soundSystem = 12 then [frontCenter]
  else if soundSystem = 13 then
    [frontLeft, frontRight, frontCenter, lowFrequency, backLeft, backRight, frontLeftOfCenter, frontRightOfCenter, sideLeft, sideRight,
      topFrontLeft, topFrontRight, topBackLeft, topBackRight, topSideLeft, topSideRight]
  else []

/-- The place of a loudspeaker in Android's order of some loudspeakers: how many of them have a lower bit in the channel mask. -/
def androidPlace (speakers : List Speaker) (s : Speaker) : Nat :=
  (speakers.filter fun t => decide (t.ctorIdx < s.ctorIdx)).length

/-! ### Proofs -/

private theorem filterMap_all {α : Type} (samples : List α) : ∀ order : List Nat, (∀ i ∈ order, i < samples.length) →
    (order.filterMap fun i => samples[i]?).length = order.length ∧
    ∀ (j i : Nat), order[j]? = some i → (order.filterMap fun i => samples[i]?)[j]? = samples[i]?
  | [], _ => ⟨rfl, by simp⟩
  | i :: order, h => by
    obtain ⟨h1, h2⟩ := filterMap_all samples order fun k hk => h k (List.mem_cons_of_mem _ hk)
    have hi := h i (List.mem_cons_self ..)
    simp only [List.filterMap_cons, List.getElem?_eq_getElem hi, List.length_cons, h1, true_and]
    intro j k
    cases j with
    | zero =>
      simp only [List.getElem?_cons_zero, Option.some.injEq]
      rintro rfl
      rw [List.getElem?_eq_getElem hi]
    | succ j => simpa using h2 j k

private theorem order_ok (s : UInt8) : ((androidOrder s).2.length ≤ (androidOrder s).1 ∧
    (androidOrder s).2.Perm (List.range (androidOrder s).2.length)) := by
  unfold androidOrder
  split
  · decide
  · split
    · decide
    · split
      · decide
      · split
        · decide
        · decide

private theorem order_lt (s : UInt8) : ∀ i ∈ (androidOrder s).2, i < (androidOrder s).2.length := fun i hi =>
  List.mem_range.mp ((order_ok s).2.mem_iff.mp hi)

/-- **C33 (nothing gets lost).** Whatever the sound system and the frame, reordering changes only the order of the channels: none
is lost, duplicated or mixed up with another.  Channels are only reordered on request. -/
theorem C33_only_the_order_changes {α : Type} (android : Bool) (soundSystem : UInt8) (frame out : List α)
    (h : reorderChannels android soundSystem frame = .ok out) : out.Perm frame ∧ (android = false → out = frame) := by
  unfold reorderChannels at h
  cases android with
  | false =>
    simp only [Bool.false_eq_true, if_false, Except.ok.injEq] at h
    subst h
    exact ⟨.refl _, fun _ => rfl⟩
  | true =>
    simp only [if_true] at h
    split at h
    · cases h
    rename_i hlen
    simp only [Except.ok.injEq] at h
    subst h
    refine ⟨?_, by simp⟩
    obtain ⟨h1, h2⟩ := order_ok soundSystem
    have h3 := (h2.filterMap fun i => frame[i]?).append_right (frame.drop (androidOrder soundSystem).2.length)
    refine h3.trans (.of_eq ?_)
    have key : ∀ n, n ≤ frame.length → (List.range n).filterMap (fun i => frame[i]?) = frame.take n := by
      intro n
      induction n with
      | zero => simp
      | succ n ih =>
        intro hn
        rw [List.range_succ, List.filterMap_append, ih (by omega), List.take_add_one, List.filterMap_cons]
        simp [List.getElem?_eq_getElem (show n < frame.length from by omega)]
    rw [key _ (by omega), List.take_append_drop]

/-- **C33 (Android's order).** A frame with one channel for every loudspeaker of its sound system is reordered as Android's
channel masks say: the channel of each loudspeaker goes to the place of that loudspeaker in the mask. -/
theorem C33_android_order {α : Type} (soundSystem : UInt8) (frame : List α)
    (h : frame.length = (speakersOf soundSystem).length) : ∃ out, reorderChannels true soundSystem frame = .ok out ∧
    out.length = frame.length ∧
    ∀ (i : Nat) (s : Speaker), (speakersOf soundSystem)[i]? = some s →
      out[androidPlace (speakersOf soundSystem) s]? = frame[i]? := by
  have key : ∀ m order names, androidOrder soundSystem = (m, order) → speakersOf soundSystem = names →
      m ≤ names.length → order.length ≤ names.length → (∀ i ∈ order, i < order.length) →
      (∀ i < names.length, ∀ s ∈ names[i]?, (order ++ (List.range (names.length - order.length)).map (order.length + ·))[androidPlace names s]? = some i) →
      ∃ out, reorderChannels true soundSystem frame = .ok out ∧ out.length = frame.length ∧
      ∀ (i : Nat) (s : Speaker), (speakersOf soundSystem)[i]? = some s →
      out[androidPlace (speakersOf soundSystem) s]? = frame[i]? := by
    intro m order names e1 e2 h1 h2 h3 h4
    rw [e2] at h ⊢
    obtain ⟨f1, f2⟩ := filterMap_all frame order fun i hi => by have := h3 i hi; omega
    refine ⟨(order.filterMap fun i => frame[i]?) ++ frame.drop order.length, ?_, ?_, ?_⟩
    · unfold reorderChannels
      rw [if_pos rfl, e1, if_neg (by dsimp only; omega)]
    · rw [List.length_append, f1, List.length_drop]
      omega
    · intro i s hs
      have hi : i < names.length := by
        rcases Nat.lt_or_ge i names.length with hi | hi
        · exact hi
        · rw [List.getElem?_eq_none hi] at hs; cases hs
      have := h4 i hi s hs
      rcases Nat.lt_or_ge (androidPlace names s) order.length with hp | hp
      · rw [List.getElem?_append_left hp] at this
        rw [List.getElem?_append_left (by rw [f1]; exact hp)]
        exact f2 _ _ this
      · rw [List.getElem?_append_right hp, List.getElem?_map, Option.map_eq_some_iff] at this
        obtain ⟨k, hk, rfl⟩ := this
        rw [List.getElem?_append_right (by rw [f1]; exact hp), f1, List.getElem?_drop]
        rw [List.getElem?_range] at hk
        · simp only [Option.some.injEq] at hk
          rw [hk]
        · rcases Nat.lt_or_ge (androidPlace names s - order.length) (names.length - order.length) with h | h
          · exact h
          · rw [List.getElem?_eq_none (by simpa using h)] at hk; cases hk
  by_cases hs : soundSystem.toNat < 14
  · have : soundSystem = UInt8.ofNat soundSystem.toNat := by simp
    have all : ∀ n < 14, (androidOrder (UInt8.ofNat n)).1 ≤ (speakersOf (UInt8.ofNat n)).length ∧
        (androidOrder (UInt8.ofNat n)).2.length ≤ (speakersOf (UInt8.ofNat n)).length ∧
        (∀ i < (speakersOf (UInt8.ofNat n)).length, ∀ s ∈ (speakersOf (UInt8.ofNat n))[i]?,
          ((androidOrder (UInt8.ofNat n)).2 ++ (List.range ((speakersOf (UInt8.ofNat n)).length - (androidOrder (UInt8.ofNat n)).2.length)).map
            ((androidOrder (UInt8.ofNat n)).2.length + ·))[androidPlace (speakersOf (UInt8.ofNat n)) s]? = some i) := by decide +kernel
    have := all _ hs
    simp only [UInt8.ofNat_toNat] at this
    exact key _ _ _ rfl rfl this.1 this.2.1 (order_lt _) this.2.2
  · have e : ∀ k : UInt8, k.toNat < 14 → soundSystem ≠ k := by rintro k hk rfl; exact hs hk
    refine key 0 [] [] ?_ ?_ (by simp) (by simp) (by simp) (by simp)
    · unfold androidOrder
      simp [e 5 (by decide), e 6 (by decide), e 7 (by decide), e 8 (by decide), e 9 (by decide), e 10 (by decide)]
    · unfold speakersOf
      simp [e 0 (by decide), e 1 (by decide), e 2 (by decide), e 3 (by decide), e 4 (by decide), e 5 (by decide), e 6 (by decide),
        e 7 (by decide), e 8 (by decide), e 9 (by decide), e 10 (by decide), e 11 (by decide), e 12 (by decide), e 13 (by decide)]

/-- **C33 (when it fails).** Reordering fails exactly if asked for and the frame has too few channels for the reordering of its
sound system: fewer than 8 for the ones with 7 channels around, 14 for G, 24 for H, but only 11 for F, which has 12. -/
theorem C33_fails_exactly_with_too_few {α : Type} (android : Bool) (soundSystem : UInt8) (frame : List α) :
    (∃ e, reorderChannels android soundSystem frame = .error e) ↔
    android = true ∧
    (((soundSystem = 8 ∨ soundSystem = 9 ∨ soundSystem = 10) ∧ frame.length < 8) ∨ (soundSystem = 5 ∧ frame.length < 11) ∨
      (soundSystem = 6 ∧ frame.length < 14) ∨ (soundSystem = 7 ∧ frame.length < 24)) := by
  unfold reorderChannels
  cases android with
  | false => simp
  | true =>
    simp only [if_true, true_and]
    have : (∃ e, (if frame.length < (androidOrder soundSystem).1 then (.error .invalidArgument : Except Err (List α))
        else .ok ((androidOrder soundSystem).2.filterMap (fun i => frame[i]?) ++ frame.drop (androidOrder soundSystem).2.length)) = .error e)
        ↔ frame.length < (androidOrder soundSystem).1 := by
      split <;> simp [*]
    rw [this]
    unfold androidOrder
    split
    · rename_i h
      rcases h with rfl | rfl | rfl <;> simp
    · split
      · rename_i h; subst h; simp
      · split
        · rename_i h; subst h; simp
        · split
          · rename_i h; subst h; simp
          · simp_all

/-- A frame of sound system J (7.1.4): the channels at the back come before those at the sides. -/
example : reorderChannels true 9 ["L", "R", "C", "LFE", "Lss", "Rss", "Lrs", "Rrs", "Ltf", "Rtf", "Ltb", "Rtb"] =
    .ok ["L", "R", "C", "LFE", "Lrs", "Rrs", "Lss", "Rss", "Ltf", "Rtf", "Ltb", "Rtb"] := by rfl

/-- The second low-frequency channel of sound system F is not needed for the reordering. -/
example : (∃ out, reorderChannels true 5 [0, 1, 2, 3, 4, 5, 6, 7, 8, 9, 10] = .ok out) ∧ (speakersOf 5).length = 12 :=
  ⟨⟨_, rfl⟩, rfl⟩

end Iamf.Props
