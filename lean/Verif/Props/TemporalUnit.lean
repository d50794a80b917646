import Verif.Cli.TemporalUnit
/-
  Properties of temporal units: C20.
-/
namespace Iamf.Props
open Iamf

/-! ## C20: temporal units -/

/-- Sorting gives a permutation. -/
theorem insertBy_perm {α : Type} (le : α → α → Bool) (a : α) (l : List α) : (insertBy le a l).Perm (a :: l) := by
  induction l with
  | nil => exact .refl _
  | cons b l ih =>
    simp only [insertBy]
    split
    · exact .refl _
    · exact (ih.cons b).trans (.swap a b l)

theorem sortBy_perm {α : Type} (le : α → α → Bool) (l : List α) : (sortBy le l).Perm l := by
  induction l with
  | nil => exact .refl _
  | cons a l ih => exact (insertBy_perm le a _).trans (ih.cons a)

theorem insertBy_sorted {α : Type} (le : α → α → Bool) (htot : ∀ a b, le a b = false → le b a = true)
    (htr : ∀ a b c, le a b = true → le b c = true → le a c = true) (a : α) (l : List α)
    (h : l.Pairwise fun x y => le x y = true) : (insertBy le a l).Pairwise fun x y => le x y = true := by
  induction l with
  | nil => simp [insertBy]
  | cons b l ih =>
    simp only [insertBy]
    rw [List.pairwise_cons] at h
    split
    next hab =>
      rw [List.pairwise_cons]
      refine ⟨fun x hx => ?_, List.pairwise_cons.mpr h⟩
      rcases List.mem_cons.mp hx with rfl | hx
      · exact hab
      · exact htr _ _ _ hab (h.1 x hx)
    next hab =>
      rw [List.pairwise_cons]
      refine ⟨fun x hx => ?_, ih h.2⟩
      have := (insertBy_perm le a l).subset hx
      rcases List.mem_cons.mp this with rfl | hx
      · exact htot _ _ (by simpa using hab)
      · exact h.1 x hx

theorem sortBy_sorted {α : Type} (le : α → α → Bool) (htot : ∀ a b, le a b = false → le b a = true)
    (htr : ∀ a b c, le a b = true → le b c = true → le a c = true) (l : List α) :
    (sortBy le l).Pairwise fun x y => le x y = true := by
  induction l with
  | nil => simp [sortBy]
  | cons a l ih => exact insertBy_sorted le htot htr a _ ih

private theorem blockLe_tot (a b : BlockWithData) (h : blockLe a b = false) : blockLe b a = true := by
  simp only [blockLe, decide_eq_false_iff_not, decide_eq_true_eq, UInt32.le_iff_toNat_le] at *; omega
private theorem blockLe_trans (a b c : BlockWithData) (h : blockLe a b = true) (h' : blockLe b c = true) : blockLe a c = true := by
  simp only [blockLe, decide_eq_true_eq, UInt32.le_iff_toNat_le] at *; omega

/-- The order of the frames, in mathematical terms. -/
def FrameBefore (a b : FrameWithData) : Prop :=
  a.elementId.toNat < b.elementId.toNat ∨
    (a.elementId.toNat = b.elementId.toNat ∧ a.frame.substreamId.toNat ≤ b.frame.substreamId.toNat)

private theorem frameLe_iff (a b : FrameWithData) : frameLe a b = true ↔ FrameBefore a b := by
  unfold frameLe FrameBefore
  split
  next h =>
    have : a.elementId.toNat ≠ b.elementId.toNat := fun h' => h (UInt32.toNat_inj.mp h')
    simp only [decide_eq_true_eq, UInt32.lt_iff_toNat_lt]
    omega
  next h =>
    simp only [ne_eq, Classical.not_not] at h
    simp [h, UInt32.le_iff_toNat_le]

private theorem frameLe_tot (a b : FrameWithData) (h : frameLe a b = false) : frameLe b a = true := by
  have h' : ¬ FrameBefore a b := by rw [← frameLe_iff]; simp [h]
  rw [frameLe_iff]
  unfold FrameBefore at *
  omega
private theorem frameLe_trans (a b c : FrameWithData) (h : frameLe a b = true) (h' : frameLe b c = true) : frameLe a c = true := by
  rw [frameLe_iff] at *
  unfold FrameBefore at *
  omega

/-- What makes OBUs a temporal unit from `start` to `stop` with the given trims. -/
structure UnitConsistent (blocks : List BlockWithData) (frames : List FrameWithData) (arbitrary : List ArbitraryObu)
    (start stop : Int) (trimStart trimEnd : UInt32) : Prop where
  /-- No substream and no parameter occurs twice. -/
  substreams : (frames.map fun f => f.frame.substreamId).Nodup
  parameters : (blocks.map fun b => b.obu.parameterId).Nodup
  /-- Everything has the same time. -/
  frameTimes : ∀ f ∈ frames, f.start = start ∧ f.stop = stop
  blockTimes : ∀ b ∈ blocks, b.start = start ∧ b.stop = stop
  ticks : ∀ o ∈ arbitrary, o.insertionTick = some start
  /-- All frames are trimmed in the same way. -/
  trims : ∀ f ∈ frames, f.header.trimStart = trimStart ∧ f.header.trimEnd = trimEnd
  /-- All frames belong to an audio element with a codec config. -/
  elements : ∀ f ∈ frames, ∃ i n, f.element = some (i, some n)

theorem eq_of_nodup_map {α β : Type} {f : α → β} {l : List α} (h : (l.map f).Nodup) {x y : α} (hx : x ∈ l) (hy : y ∈ l)
    (he : f x = f y) : x = y := by
  induction l with
  | nil => simp at hx
  | cons a l ih =>
    rw [List.map_cons, List.nodup_cons] at h
    rcases List.mem_cons.mp hx with hx' | hx' <;> rcases List.mem_cons.mp hy with hy' | hy'
    · rw [hx', hy']
    · exact absurd (List.mem_map.mpr ⟨y, hy', by rw [← hx', he]⟩) h.1
    · exact absurd (List.mem_map.mpr ⟨x, hx', by rw [← hy', he]⟩) h.1
    · exact ih h.2 hx' hy'

private theorem frames_iff (s : UnitStatistics) (l : List FrameWithData) (seen : List UInt32) :
    (checkFrames s (l.map some) seen = .ok () ∨ checkFrames s (l.map some) seen = .error .invalidArgument) ∧
    (checkFrames s (l.map some) seen = .ok () ↔
      (l.map fun f => f.frame.substreamId).Nodup ∧ (∀ f ∈ l, f.frame.substreamId ∉ seen) ∧
      (∀ f ∈ l, f.start = s.start ∧ f.stop = s.stop) ∧
      (∀ f ∈ l, f.header.trimStart = s.trimStart ∧ f.header.trimEnd = s.trimEnd) ∧
      (∀ f ∈ l, ∃ i n, f.element = some (i, some n))) := by
  induction l generalizing seen with
  | nil => simp [checkFrames]
  | cons f l ih =>
    simp only [List.map_cons, checkFrames]
    split
    next h => simp [h]
    next h =>
      split
      next h2 => simp [h2]
      next h2 => simp [h2]
      next i n h2 =>
        split
        next h3 => simp [h3]
        next h3 =>
          split
          next h4 => simp [h4]
          next h4 =>
            split
            next h5 => simp [h5]
            next h5 =>
              split
              next h6 => simp [h6]
              next h6 =>
                refine ⟨(ih _).1, (ih _).2.trans ?_⟩
                simp only [ne_eq, Classical.not_not] at h3 h4 h5 h6
                constructor
                · rintro ⟨a1, a2, a3, a4, a5⟩
                  refine ⟨List.nodup_cons.mpr ⟨?_, a1⟩, ?_, ?_, ?_, ?_⟩
                  · rw [List.mem_map]
                    rintro ⟨g, hg, he⟩
                    exact a2 g hg (by rw [he]; exact List.mem_cons_self)
                  · rintro g hg
                    rcases List.mem_cons.mp hg with rfl | hg
                    · exact h
                    · exact fun hm => a2 g hg (List.mem_cons_of_mem _ hm)
                  · rintro g hg
                    rcases List.mem_cons.mp hg with rfl | hg
                    · exact ⟨h5, h6⟩
                    · exact a3 g hg
                  · rintro g hg
                    rcases List.mem_cons.mp hg with rfl | hg
                    · exact ⟨h4, h3⟩
                    · exact a4 g hg
                  · rintro g hg
                    rcases List.mem_cons.mp hg with rfl | hg
                    · exact ⟨i, n, h2⟩
                    · exact a5 g hg
                · rintro ⟨a1, a2, a3, a4, a5⟩
                  rw [List.nodup_cons] at a1
                  refine ⟨a1.2, fun g hg hm => ?_, fun g hg => a3 g (List.mem_cons_of_mem _ hg),
                    fun g hg => a4 g (List.mem_cons_of_mem _ hg), fun g hg => a5 g (List.mem_cons_of_mem _ hg)⟩
                  rcases List.mem_cons.mp hm with he | hm
                  · exact a1.1 (List.mem_map.mpr ⟨g, hg, he⟩)
                  · exact a2 g (List.mem_cons_of_mem _ hg) hm

private theorem blocks_iff (s : UnitStatistics) (l : List BlockWithData) (seen : List UInt32) :
    (checkBlocks s (l.map some) seen = .ok () ∨ checkBlocks s (l.map some) seen = .error .invalidArgument) ∧
    (checkBlocks s (l.map some) seen = .ok () ↔
      (l.map fun b => b.obu.parameterId).Nodup ∧ (∀ b ∈ l, b.obu.parameterId ∉ seen) ∧
      (∀ b ∈ l, b.start = s.start ∧ b.stop = s.stop)) := by
  induction l generalizing seen with
  | nil => simp [checkBlocks]
  | cons f l ih =>
    simp only [List.map_cons, checkBlocks]
    split
    next h => simp [h]
    next h =>
      split
      next h5 => simp [h5]
      next h5 =>
        split
        next h6 => simp [h6]
        next h6 =>
          refine ⟨(ih _).1, (ih _).2.trans ?_⟩
          simp only [ne_eq, Classical.not_not] at h5 h6
          constructor
          · rintro ⟨a1, a2, a3⟩
            refine ⟨List.nodup_cons.mpr ⟨?_, a1⟩, ?_, ?_⟩
            · rw [List.mem_map]
              rintro ⟨g, hg, he⟩
              exact a2 g hg (by rw [he]; exact List.mem_cons_self)
            · rintro g hg
              rcases List.mem_cons.mp hg with rfl | hg
              · exact h
              · exact fun hm => a2 g hg (List.mem_cons_of_mem _ hm)
            · rintro g hg
              rcases List.mem_cons.mp hg with rfl | hg
              · exact ⟨h5, h6⟩
              · exact a3 g hg
          · rintro ⟨a1, a2, a3⟩
            rw [List.nodup_cons] at a1
            refine ⟨a1.2, fun g hg hm => ?_, fun g hg => a3 g (List.mem_cons_of_mem _ hg)⟩
            rcases List.mem_cons.mp hm with he | hm
            · exact a1.1 (List.mem_map.mpr ⟨g, hg, he⟩)
            · exact a2 g (List.mem_cons_of_mem _ hg) hm

private theorem arbitrary_iff (s : UnitStatistics) (l : List ArbitraryObu) (seen : Bool) :
    (checkArbitrary s (l.map some) seen = .ok () ∨ checkArbitrary s (l.map some) seen = .error .invalidArgument) ∧
    (checkArbitrary s (l.map some) seen = .ok () ↔
      (∀ o ∈ l, o.insertionTick = some s.start) ∧
      (s.needsInvalidObu = true → seen = true ∨ ∃ o ∈ l, o.invalidatesBitstream = true)) := by
  induction l generalizing seen with
  | nil =>
    cases hn : s.needsInvalidObu <;> cases seen <;> simp [checkArbitrary, hn]
  | cons o l ih =>
    simp only [List.map_cons, checkArbitrary]
    split
    next h => simp [h]
    next t h =>
      split
      next h2 => simp [h, h2]
      next h2 =>
        simp only [ne_eq, Classical.not_not] at h2
        refine ⟨(ih _).1, (ih _).2.trans ?_⟩
        rw [Bool.or_eq_true]
        simp [h, h2, or_assoc]

private theorem create_cases (blocks : List BlockWithData) (frames : List FrameWithData) (arbitrary : List ArbitraryObu) (v : TemporalUnitView) :
    TemporalUnitView.create blocks frames arbitrary = .ok v ↔
    ∃ s, (match frames, arbitrary with
        | f :: _, _ => statisticsFromFrame (some f)
        | [], o :: _ => statisticsFromArbitrary (some o)
        | [], [] => .error .invalidArgument) = .ok s ∧
      checkFrames s (frames.map some) [] = .ok () ∧ checkBlocks s (blocks.map some) [] = .ok () ∧
      checkArbitrary s (arbitrary.map some) false = .ok () ∧
      v = ⟨sortBy blockLe blocks, sortBy frameLe frames, arbitrary, s.start, s.stop, s.trimStart, s.untrimmed⟩ := by
  have hm : ∀ {β : Type} (l : List β), (l.map some).filterMap id = l := by
    intro β l; induction l <;> simp_all
  have key : ∀ x : Except Err UnitStatistics,
      (x.bind fun s => (checkFrames s (frames.map some) []).bind fun _ => (checkBlocks s (blocks.map some) []).bind fun _ =>
        (checkArbitrary s (arbitrary.map some) false).bind fun _ =>
        .ok ⟨sortBy blockLe ((blocks.map some).filterMap id), sortBy frameLe ((frames.map some).filterMap id),
          (arbitrary.map some).filterMap id, s.start, s.stop, s.trimStart, s.untrimmed⟩) = Except.ok v ↔
      ∃ s, x = .ok s ∧ checkFrames s (frames.map some) [] = .ok () ∧ checkBlocks s (blocks.map some) [] = .ok () ∧
        checkArbitrary s (arbitrary.map some) false = .ok () ∧
        v = ⟨sortBy blockLe blocks, sortBy frameLe frames, arbitrary, s.start, s.stop, s.trimStart, s.untrimmed⟩ := by
    intro x
    cases x with
    | error e => simp [Except.bind]
    | ok s =>
      simp only [Except.bind, hm, Except.ok.injEq, exists_eq_left']
      cases h1 : checkFrames s (frames.map some) [] with
      | error e => simp
      | ok u =>
        cases h2 : checkBlocks s (blocks.map some) [] with
        | error e => simp
        | ok u =>
          cases h3 : checkArbitrary s (arbitrary.map some) false with
          | error e => simp
          | ok u => simp [eq_comm]
  unfold TemporalUnitView.create TemporalUnitView.createFromPointers
  cases frames with
  | cons f fs => exact key _
  | nil => cases arbitrary <;> exact key _

/-- **C20 (characterization).** For every temporal unit with an audio frame: the view is created exactly if all frames,
parameter blocks and arbitrary OBUs agree on the time span, all frames agree on the trims, no substream or parameter id
occurs twice, and the sum of the trims (as computed in 32 bits) is not more than the frame. -/
theorem C20_accepted_iff_consistent (blocks : List BlockWithData) (f : FrameWithData) (frames : List FrameWithData)
    (arbitrary : List ArbitraryObu) (i n : UInt32) (hf : f.element = some (i, some n)) :
    (∃ v, TemporalUnitView.create blocks (f :: frames) arbitrary = .ok v) ↔
      UnitConsistent blocks (f :: frames) arbitrary f.start f.stop f.header.trimStart f.header.trimEnd ∧
      f.header.trimStart + f.header.trimEnd ≤ n := by
  constructor
  · rintro ⟨v, hv⟩
    obtain ⟨s, h1, h2, h3, h4, -⟩ := (create_cases _ _ _ _).mp hv
    simp only [statisticsFromFrame, hf] at h1
    split at h1
    next htrim =>
      simp only [Except.ok.injEq] at h1
      subst h1
      obtain ⟨a1, -, a3, a4, a5⟩ := (frames_iff _ _ _).2.mp h2
      obtain ⟨b1, -, b3⟩ := (blocks_iff _ _ _).2.mp h3
      exact ⟨⟨a1, b1, a3, b3, ((arbitrary_iff _ _ _).2.mp h4).1, a4, a5⟩, htrim⟩
    · simp at h1
  · rintro ⟨hc, ht⟩
    refine ⟨_, (create_cases _ _ _ _).mpr ⟨⟨n, f.header.trimEnd, f.header.trimStart,
      n - (f.header.trimStart + f.header.trimEnd), f.start, f.stop, false⟩, ?_, ?_, ?_, ?_, rfl⟩⟩
    · simp only [statisticsFromFrame, hf]
      rw [if_pos ht]
    · exact (frames_iff _ _ _).2.mpr ⟨hc.substreams, by simp, hc.frameTimes, hc.trims, hc.elements⟩
    · exact (blocks_iff _ _ _).2.mpr ⟨hc.parameters, by simp, hc.blockTimes⟩
    · exact (arbitrary_iff _ _ _).2.mpr ⟨hc.ticks, by simp⟩

/-- **C20 (what a view shows).** Every view that is created holds exactly the given OBUs, its time span is theirs;
parameter blocks are strictly sorted by parameter id, frames by audio element id and substream id, arbitrary OBUs keep
their order.  If there is an audio frame, the number of untrimmed samples and the two trims add up to the frame,
unless the trims exceed 32 bits. -/
theorem C20_view_is_sorted_and_complete (blocks : List BlockWithData) (frames : List FrameWithData)
    (arbitrary : List ArbitraryObu) (v : TemporalUnitView)
    (h : TemporalUnitView.create blocks frames arbitrary = .ok v) :
    v.blocks.Perm blocks ∧ v.frames.Perm frames ∧ v.arbitrary = arbitrary ∧
    (v.blocks.Pairwise fun a b => a.obu.parameterId < b.obu.parameterId) ∧
    v.frames.Pairwise FrameBefore ∧ (v.frames.map fun f => f.frame.substreamId).Nodup ∧
    (∃ te, UnitConsistent v.blocks v.frames v.arbitrary v.start v.stop v.trimStart te ∧
      ∀ f ∈ frames.head?, ∀ i n, f.element = some (i, some n) → v.trimStart.toNat + te.toNat < 2 ^ 32 →
        v.untrimmed.toNat + v.trimStart.toNat + te.toNat = n.toNat) := by
  obtain ⟨s, h1, h2, h3, h4, rfl⟩ := (create_cases _ _ _ _).mp h
  obtain ⟨a1, -, a3, a4, a5⟩ := (frames_iff _ _ _).2.mp h2
  obtain ⟨b1, -, b3⟩ := (blocks_iff _ _ _).2.mp h3
  have c1 := ((arbitrary_iff _ _ _).2.mp h4).1
  have hpf := sortBy_perm frameLe frames
  have hpb := sortBy_perm blockLe blocks
  have hnf : ((sortBy frameLe frames).map fun f => f.frame.substreamId).Nodup := (hpf.map _).nodup_iff.mpr a1
  have hnb : ((sortBy blockLe blocks).map fun b => b.obu.parameterId).Nodup := (hpb.map _).nodup_iff.mpr b1
  refine ⟨hpb, hpf, rfl, ?_, ?_, hnf, s.trimEnd, ⟨hnf, hnb, fun f hf => a3 f (hpf.subset hf), fun b hb => b3 b (hpb.subset hb),
    c1, fun f hf => a4 f (hpf.subset hf), fun f hf => a5 f (hpf.subset hf)⟩, ?_⟩
  · have hs := sortBy_sorted blockLe blockLe_tot blockLe_trans blocks
    have hne : (sortBy blockLe blocks).Pairwise fun a b => a.obu.parameterId ≠ b.obu.parameterId := by
      rw [List.Nodup, List.pairwise_map] at hnb; exact hnb
    refine (hs.and hne).imp fun hab => ?_
    simp only [blockLe, decide_eq_true_eq, UInt32.le_iff_toNat_le] at hab
    rw [UInt32.lt_iff_toNat_lt]
    have : _ ≠ _ := fun h' => hab.2 (UInt32.toNat_inj.mp h')
    omega
  · exact (sortBy_sorted frameLe frameLe_tot frameLe_trans frames).imp fun hab => (frameLe_iff _ _).mp hab
  · intro f hf i n hfn hlt
    cases frames with
    | nil => simp at hf
    | cons g gs =>
      simp only [List.head?_cons, Option.mem_def, Option.some.injEq] at hf
      subst hf
      simp only [statisticsFromFrame, hfn] at h1
      split at h1
      next htrim =>
        simp only [Except.ok.injEq] at h1
        subst h1
        simp only at hlt ⊢
        rw [UInt32.le_iff_toNat_le, UInt32.toNat_add, Nat.mod_eq_of_lt hlt] at htrim
        rw [UInt32.toNat_sub_of_le _ _ (by rw [UInt32.le_iff_toNat_le, UInt32.toNat_add, Nat.mod_eq_of_lt hlt]; exact htrim),
          UInt32.toNat_add, Nat.mod_eq_of_lt hlt]
        omega
      · simp at h1

private theorem create_error (blocks : List BlockWithData) (frames : List FrameWithData) (arbitrary : List ArbitraryObu) (e : Err)
    (h : TemporalUnitView.create blocks frames arbitrary = .error e) : e = .invalidArgument := by
  have key : ∀ x : Except Err UnitStatistics, (∀ e, x = .error e → e = .invalidArgument) →
      (x.bind fun s => (checkFrames s (frames.map some) []).bind fun _ => (checkBlocks s (blocks.map some) []).bind fun _ =>
        (checkArbitrary s (arbitrary.map some) false).bind fun _ =>
        .ok (⟨sortBy blockLe ((blocks.map some).filterMap id), sortBy frameLe ((frames.map some).filterMap id),
          (arbitrary.map some).filterMap id, s.start, s.stop, s.trimStart, s.untrimmed⟩ : TemporalUnitView)) = Except.error e →
      e = .invalidArgument := by
    intro x hx hb
    cases x with
    | error e' =>
      simp only [Except.bind, Except.error.injEq] at hb
      exact hx e (by rw [hb])
    | ok s =>
      simp only [Except.bind] at hb
      rcases (frames_iff s frames []).1 with h1 | h1
      · rw [h1] at hb
        simp only at hb
        rcases (blocks_iff s blocks []).1 with h2 | h2
        · rw [h2] at hb
          simp only at hb
          rcases (arbitrary_iff s arbitrary false).1 with h3 | h3
          · rw [h3] at hb; simp at hb
          · rw [h3] at hb; simpa using hb.symm
        · rw [h2] at hb; simpa using hb.symm
      · rw [h1] at hb; simpa using hb.symm
  unfold TemporalUnitView.create TemporalUnitView.createFromPointers at h
  cases frames with
  | cons f fs =>
    refine key _ ?_ h
    intro e he
    simp only [statisticsFromFrame] at he
    repeat' split at he
    all_goals simp_all
  | nil =>
    cases arbitrary with
    | nil => exact key (.error .invalidArgument) (by simp) h
    | cons o os =>
      refine key _ ?_ h
      intro e he
      simp only [List.map_cons, statisticsFromArbitrary] at he
      split at he <;> simp_all

/-- **C20 (canonical).** If all frames have the same frame size, the order in which parameter blocks and frames are
given is unobservable: the same view or the same error results. -/
theorem C20_order_is_unobservable (blocks blocks' : List BlockWithData) (frames frames' : List FrameWithData)
    (arbitrary : List ArbitraryObu) (hb : blocks.Perm blocks') (hf : frames.Perm frames')
    (hsize : ∀ f ∈ frames, ∀ g ∈ frames, ∀ i n j m, f.element = some (i, some n) → g.element = some (j, some m) → n = m) :
    TemporalUnitView.create blocks frames arbitrary = TemporalUnitView.create blocks' frames' arbitrary := by
  have fwd : ∀ (b b' : List BlockWithData) (fr fr' : List FrameWithData) (v : TemporalUnitView), b.Perm b' → fr.Perm fr' →
      (∀ f ∈ fr, ∀ g ∈ fr, ∀ i n j m, f.element = some (i, some n) → g.element = some (j, some m) → n = m) →
      TemporalUnitView.create b fr arbitrary = .ok v → TemporalUnitView.create b' fr' arbitrary = .ok v := by
    intro b b' fr fr' v hb hf hsize h
    obtain ⟨s, h1, h2, h3, h4, rfl⟩ := (create_cases _ _ _ _).mp h
    obtain ⟨a1, a2, a3, a4, a5⟩ := (frames_iff _ _ _).2.mp h2
    obtain ⟨b1, b2, b3⟩ := (blocks_iff _ _ _).2.mp h3
    have hsf : sortBy frameLe fr = sortBy frameLe fr' := by
      refine List.Perm.eq_of_pairwise (le := fun x y => frameLe x y = true) ?_
        (sortBy_sorted frameLe frameLe_tot frameLe_trans fr) (sortBy_sorted frameLe frameLe_tot frameLe_trans fr')
        ((sortBy_perm _ _).trans (hf.trans (sortBy_perm _ _).symm))
      intro x y hx hy hxy hyx
      rw [frameLe_iff] at hxy hyx
      have hx' := (sortBy_perm frameLe fr).subset hx
      have hy' := hf.symm.subset ((sortBy_perm frameLe fr').subset hy)
      have heq : x.frame.substreamId = y.frame.substreamId := by
        apply UInt32.toNat_inj.mp
        unfold FrameBefore at hxy hyx
        omega
      exact eq_of_nodup_map a1 hx' hy' heq
    have hsb : sortBy blockLe b = sortBy blockLe b' := by
      refine List.Perm.eq_of_pairwise (le := fun x y => blockLe x y = true) ?_
        (sortBy_sorted blockLe blockLe_tot blockLe_trans b) (sortBy_sorted blockLe blockLe_tot blockLe_trans b')
        ((sortBy_perm _ _).trans (hb.trans (sortBy_perm _ _).symm))
      intro x y hx hy hxy hyx
      simp only [blockLe, decide_eq_true_eq, UInt32.le_iff_toNat_le] at hxy hyx
      have hx' := (sortBy_perm blockLe b).subset hx
      have hy' := hb.symm.subset ((sortBy_perm blockLe b').subset hy)
      have heq : x.obu.parameterId = y.obu.parameterId := by
        apply UInt32.toNat_inj.mp
        omega
      exact eq_of_nodup_map b1 hx' hy' heq
    refine (create_cases _ _ _ _).mpr ⟨s, ?_, ?_, ?_, h4, by rw [hsf, hsb]⟩
    · cases fr with
      | nil => rw [List.nil_perm.mp hf]; exact h1
      | cons g gs =>
        cases fr' with
        | nil => exact absurd (List.perm_nil.mp hf) (by simp)
        | cons g' gs' =>
          have hg' : g' ∈ g :: gs := hf.symm.subset List.mem_cons_self
          obtain ⟨i, n, hgn⟩ := a5 g List.mem_cons_self
          obtain ⟨j, m, hgm⟩ := a5 g' hg'
          have hnm := hsize g List.mem_cons_self g' hg' i n j m hgn hgm
          subst hnm
          have e1 := a3 g List.mem_cons_self
          have e2 := a3 g' hg'
          have e3 := a4 g List.mem_cons_self
          have e4 := a4 g' hg'
          simp only [statisticsFromFrame, hgn] at h1
          simp only [statisticsFromFrame, hgm]
          rw [e2.1, e2.2, e4.1, e4.2]
          rw [e1.1, e1.2, e3.1, e3.2] at h1
          exact h1
    · exact (frames_iff _ _ _).2.mpr ⟨(hf.map _).nodup_iff.mp a1, fun f h => a2 f (hf.symm.subset h),
        fun f h => a3 f (hf.symm.subset h), fun f h => a4 f (hf.symm.subset h), fun f h => a5 f (hf.symm.subset h)⟩
    · exact (blocks_iff _ _ _).2.mpr ⟨(hb.map _).nodup_iff.mp b1, fun f h => b2 f (hb.symm.subset h),
        fun f h => b3 f (hb.symm.subset h)⟩
  match h : TemporalUnitView.create blocks frames arbitrary with
  | .ok v => rw [fwd _ _ _ _ v hb hf hsize h]
  | .error e =>
    match h' : TemporalUnitView.create blocks' frames' arbitrary with
    | .ok v =>
      have := fwd _ _ _ _ v hb.symm hf.symm (fun f hf1 g hg1 => hsize f (hf.symm.subset hf1) g (hf.symm.subset hg1)) h'
      rw [h] at this
      simp at this
    | .error e' => rw [create_error _ _ _ _ h, create_error _ _ _ _ h']

/-- An audio frame of substream `id` of element `el` with frames of `n` samples. -/
def exampleFrame (el id n trimStart trimEnd : UInt32) : FrameWithData :=
  ⟨⟨5, false, false, trimEnd, trimStart, none⟩, ⟨id, [1, 2]⟩, 960, 1920, some (el, some n)⟩

def exampleBlock (pid : UInt32) : BlockWithData := ⟨⟨pid, none, []⟩, 960, 1920, ⟨3, false, false, 0, 0, none⟩, ⟨⟨pid, 48000, 0, none⟩, .mixGain 0⟩⟩

example : ∃ v, TemporalUnitView.create [exampleBlock 7, exampleBlock 3] [exampleFrame 2 1 960 10 20, exampleFrame 1 9 960 10 20,
    exampleFrame 1 4 960 10 20] [] = .ok v ∧ v.frames.map (fun f => f.frame.substreamId) = [4, 9, 1] ∧
    v.blocks.map (fun b => b.obu.parameterId) = [3, 7] ∧ v.untrimmed = 930 := ⟨_, rfl, by decide +kernel, by decide +kernel, by decide +kernel⟩

/-- **C20 (finding).** The trims are added in 32 bits: a frame of 960 samples that claims to trim 2^31 samples at each
end is accepted, with all its samples left. -/
theorem C20_trim_sum_wraps :
    ∃ v, TemporalUnitView.create [] [exampleFrame 1 1 960 0x80000000 0x80000000] [] = .ok v ∧ v.untrimmed = 960 :=
  ⟨_, rfl, by decide +kernel⟩

/-- **C20 (finding).** The frame size is taken from the first frame only: if frames of different sizes are given, the
number of samples depends on the order. -/
theorem C20_frame_size_depends_on_order :
    ∃ v v', TemporalUnitView.create [] [exampleFrame 1 1 960 0 0, exampleFrame 2 2 1024 0 0] [] = .ok v ∧
      TemporalUnitView.create [] [exampleFrame 2 2 1024 0 0, exampleFrame 1 1 960 0 0] [] = .ok v' ∧
      v.untrimmed = 960 ∧ v'.untrimmed = 1024 :=
  ⟨_, _, rfl, rfl, by decide +kernel, by decide +kernel⟩

end Iamf.Props
