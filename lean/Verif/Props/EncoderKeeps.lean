import Verif.Props.EncoderTiming
/-
  What the functions of the frame generator do not change.
-/
namespace Iamf.Props
open Iamf

/-- The same phase and constants; encoders that are gone do not come back. -/
structure Keeps {σ : Type} (g g' : FrameGenerator σ) : Prop where
  order : g'.order = g.order
  phase : g'.phase = g.phase
  elements : g'.elements = g.elements
  delay : g'.delay = g.delay
  gone : ∀ i, g.encoders i = none → g'.encoders i = none

variable {L : EncoderLib} {σ : Type}

theorem Keeps.refl (g : FrameGenerator σ) : Keeps g g := ⟨rfl, rfl, rfl, rfl, fun _ h => h⟩

theorem Keeps.trans {a b c : FrameGenerator σ} (h : Keeps a b) (k : Keeps b c) : Keeps a c :=
  ⟨k.order.trans h.order, k.phase.trans h.phase, k.elements.trans h.elements, k.delay.trans h.delay, fun i hi => k.gone i (h.gone i hi)⟩

theorem except_ok {α β : Type} {x : Except Err α} {f : α → Except Err β} {b : β} : x.bind f = .ok b ↔ ∃ a, x = .ok a ∧ f a = .ok b := by
  cases x with
  | error e => simp [Except.bind]
  | ok a => simp [Except.bind]

theorem encodeFrame_keeps {g : FrameGenerator L.State} {element n id : UInt32} {d : SubstreamData} {i : List (List Rat)} {t : List (List Int32)}
    {m : DownMixingParams} {s : Option Int} {y : Option Int × FrameGenerator L.State} (h : g.encodeFrame L element n id d i t m s = .ok y) : Keeps g y.2 := by
  unfold FrameGenerator.encodeFrame at h
  simp only [TimingModule.nextFrame] at h
  obtain ⟨⟨⟨r, start, stop⟩, fs⟩, ht⟩ : ∃ x, timestampsForId id n g.timing.frames = x := ⟨_, rfl⟩
  rw [ht] at h
  cases r with
  | error e => simp at h
  | ok u =>
    simp only at h
    split at h
    · simp at h
    · cases he : g.encoders id with
      | none => rw [he] at h; simp at h
      | some e =>
        rw [he] at h
        simp only [bind, except_ok, Except.ok.injEq] at h
        obtain ⟨e', -, rfl⟩ := h
        refine ⟨rfl, rfl, rfl, rfl, fun k hk => ?_⟩
        have : k ≠ id := by rintro rfl; rw [he] at hk; simp at hk
        simp [IdMap.set, this, hk]

theorem nextFrameData_keeps {g : FrameGenerator σ} {linear : Int16 → Rat} {element n : UInt32} {subs : SubstreamLabels} {m : LabeledSamples}
    {mixing : DownMixingParams} {y : DownMixingParams × FrameGenerator σ} (h : g.nextFrameData linear element n subs m mixing = .ok y) : Keeps g y.2 := by
  unfold FrameGenerator.nextFrameData at h
  simp only at h
  split at h
  · rw [Except.ok.injEq] at h; subst h; exact Keeps.refl g
  · obtain ⟨⟨r, p⟩, hg⟩ : ∃ x, g.parameters.getDownMixing element = x := ⟨_, rfl⟩
    rw [hg] at h
    cases r with
    | error e => simp at h
    | ok q =>
      simp only [bind, except_ok, Except.ok.injEq] at h
      obtain ⟨a, -, b, -, rfl⟩ := h
      exact ⟨rfl, rfl, rfl, rfl, fun _ h => h⟩

theorem encodeSubstreams_keeps (element n : UInt32) (m : DownMixingParams) (subs : SubstreamLabels) :
    ∀ (r : FrameGenerator.Progress) (g : FrameGenerator L.State) (y : FrameGenerator.Progress × FrameGenerator L.State),
      FrameGenerator.encodeSubstreams L element n m subs r g = .ok y → Keeps g y.2 := by
  induction subs with
  | nil => intro r g y h; simp only [FrameGenerator.encodeSubstreams, Except.ok.injEq] at h; subst h; exact Keeps.refl g
  | cons x subs ih =>
    intro r g y h
    obtain ⟨id, ls⟩ := x
    simp only [FrameGenerator.encodeSubstreams] at h
    cases hd : g.data id with
    | none =>
      rw [hd] at h
      simp only at h
      split at h
      · simp at h
      · exact ih _ _ _ h
    | some d =>
      rw [hd] at h
      simp only at h
      split at h
      · exact ih _ _ _ h
      · simp only [bind, except_ok] at h
        obtain ⟨a, -, b, -, h⟩ := h
        cases ha : a.1 with
        | nil => rw [ha] at h; simp at h
        | cons c cs =>
          rw [ha] at h
          simp only at h
          split at h
          · split at h
            · simp at h
            · refine Keeps.trans ?_ (ih _ _ _ h)
              exact ⟨rfl, rfl, rfl, rfl, fun _ h => h⟩
          · simp only [except_ok] at h
            obtain ⟨z, hz, h⟩ := h
            exact (encodeFrame_keeps hz).trans (ih _ _ _ h)

theorem encodeLoop_keeps (linear : Int16 → Rat) (element n : UInt32) (subs : SubstreamLabels) (empties : LabeledSamples) (fuel : Nat) :
    ∀ (m : LabeledSamples) (mixing : DownMixingParams) (g : FrameGenerator L.State) (y : Option Int × FrameGenerator L.State),
      FrameGenerator.encodeLoop L linear element n subs empties fuel m mixing g = .ok y → Keeps g y.2 := by
  induction fuel with
  | zero => intro m mixing g y h; simp [FrameGenerator.encodeLoop] at h
  | succ k ih =>
    intro m mixing g y h
    simp only [FrameGenerator.encodeLoop, bind, except_ok] at h
    obtain ⟨a, ha, b, hb, h⟩ := h
    have k1 := (nextFrameData_keeps ha).trans (encodeSubstreams_keeps _ _ _ _ _ _ _ hb)
    split at h
    · exact k1.trans (ih _ _ _ _ h)
    · rw [Except.ok.injEq] at h; subst h; exact k1

theorem maybeEncode_keeps {linear : Int16 → Rat} {g : FrameGenerator L.State} {element : UInt32} {e : ElementWithData} {labels : List Label}
    {g' : FrameGenerator L.State} (h : g.maybeEncode L linear element e labels = .ok g') : Keeps g g' := by
  unfold FrameGenerator.maybeEncode at h
  simp only at h
  split at h
  · rw [Except.ok.injEq] at h; subst h; exact Keeps.refl g
  · cases hc : e.codec with
    | none => rw [hc] at h; simp at h
    | some c =>
      rw [hc] at h
      simp only at h
      split at h
      · simp at h
      · simp only [bind, except_ok] at h
        obtain ⟨⟨stamp, g1⟩, h1, h2⟩ := h
        have k1 := encodeLoop_keeps _ _ _ _ _ _ _ _ _ _ h1
        cases stamp with
        | none =>
          simp only [Except.ok.injEq] at h2
          subst h2
          exact k1.trans ⟨rfl, rfl, rfl, rfl, fun _ h => h⟩
        | some t =>
          simp only at h2
          obtain ⟨⟨r, p⟩, hg⟩ : ∃ x, g1.parameters.updateDemixing element (t + c.config.numSamplesPerFrame.toNat) = x := ⟨_, rfl⟩
          rw [hg] at h2
          cases r with
          | error e => simp at h2
          | ok u =>
            simp only [Except.ok.injEq] at h2
            subst h2
            exact k1.trans ⟨rfl, rfl, rfl, rfl, fun _ h => h⟩

theorem addSamples_keeps {linear : Int16 → Rat} {g : FrameGenerator L.State} {element : UInt32} {label : Label} {s : Samples}
    {g' : FrameGenerator L.State} (h : g.addSamples L linear element label s = .ok g') : Keeps g g' := by
  unfold FrameGenerator.addSamples at h
  simp only at h
  split at h
  · rw [Except.ok.injEq] at h; subst h; exact Keeps.refl g
  · split at h
    · simp at h
    · cases hl : g.labels element with
      | none => rw [hl] at h; simp at h
      | some ls =>
        rw [hl] at h
        simp only at h
        cases he : g.elements with
        | none => rw [he] at h; simp at h
        | some es =>
          rw [he] at h
          simp only at h
          cases hx : es.lookup element with
          | none => rw [hx] at h; simp at h
          | some e =>
            rw [hx] at h
            simp only at h
            refine Keeps.trans ?_ (maybeEncode_keeps h)
            exact ⟨rfl, rfl, he.symm, rfl, fun _ h => h⟩

theorem flushElements_keeps (linear : Int16 → Rat) (es : List (UInt32 × ElementWithData)) : ∀ g g' : FrameGenerator L.State,
    FrameGenerator.flushElements L linear es g = .ok g' → Keeps g g' := by
  induction es with
  | nil => intro g g' h; simp only [FrameGenerator.flushElements, Except.ok.injEq] at h; subst h; exact Keeps.refl g
  | cons x es ih =>
    intro g g' h
    obtain ⟨id, e⟩ := x
    simp only [FrameGenerator.flushElements] at h
    cases hl : g.labels id with
    | none => rw [hl] at h; simp at h
    | some ls =>
      rw [hl] at h
      simp only [bind, except_ok] at h
      obtain ⟨g1, h1, h2⟩ := h
      exact (maybeEncode_keeps h1).trans (ih _ _ h2)

theorem finalizeEncoders_keeps (ids : List UInt32) : ∀ g g' : FrameGenerator L.State,
    FrameGenerator.finalizeEncoders L ids g = .ok g' → Keeps g g' := by
  induction ids with
  | nil => intro g g' h; simp only [FrameGenerator.finalizeEncoders, Except.ok.injEq] at h; subst h; exact Keeps.refl g
  | cons id ids ih =>
    intro g g' h
    simp only [FrameGenerator.finalizeEncoders] at h
    cases he : g.encoders id with
    | none => rw [he] at h; exact ih _ _ h
    | some e =>
      rw [he] at h
      cases hd : g.data id with
      | none => rw [hd] at h; exact ih _ _ h
      | some d =>
        rw [hd] at h
        simp only at h
        split at h
        · simp only [bind, except_ok] at h
          obtain ⟨e', -, h⟩ := h
          refine Keeps.trans ?_ (ih _ _ h)
          refine ⟨rfl, rfl, rfl, rfl, fun k hk => ?_⟩
          have : k ≠ id := by rintro rfl; rw [he] at hk; simp at hk
          simp [IdMap.set, this, hk]
        · exact ih _ _ h

theorem popFrames_keeps (ids : List UInt32) : ∀ (g : FrameGenerator σ) (y : List (GenFrame × List UInt8) × FrameGenerator σ),
    FrameGenerator.popFrames ids g = .ok y → Keeps g y.2 ∧ ((∀ i ∈ ids, g.encoders i = none) → y.1 = []) := by
  induction ids with
  | nil => intro g y h; simp only [FrameGenerator.popFrames, Except.ok.injEq] at h; subst h; exact ⟨Keeps.refl g, fun _ => rfl⟩
  | cons id ids ih =>
    intro g y h
    simp only [FrameGenerator.popFrames] at h
    cases he : g.encoders id with
    | none =>
      rw [he] at h
      obtain ⟨k1, k2⟩ := ih _ _ h
      exact ⟨k1, fun hn => k2 fun i hi => hn i (List.mem_cons_of_mem _ hi)⟩
    | some e =>
      rw [he] at h
      simp only at h
      refine ⟨?_, fun hn => ?_⟩
      · obtain ⟨⟨fs, e'⟩, hp⟩ : ∃ x, e.pop = x := ⟨_, rfl⟩
        rw [hp] at h
        cases fs with
        | nil => simp at h
        | cons f fs =>
          simp only at h
          split at h
          · simp only [bind, except_ok, Except.ok.injEq] at h
            obtain ⟨a, -, b, hb, rfl⟩ := h
            refine Keeps.trans ?_ (ih _ _ hb).1
            refine ⟨rfl, rfl, rfl, rfl, fun k hk => ?_⟩
            have : k ≠ id := by rintro rfl; rw [he] at hk; simp at hk
            simp [IdMap.set, this, hk]
          · simp at h
      · have := hn id (List.mem_cons_self ..)
        rw [he] at this
        simp at this

/-- The phase after a call of `OutputFrames`. -/
def phaseOut : GeneratorPhase → GeneratorPhase
  | .taking => .taking
  | _ => .flushing

theorem outputFrames_keeps {linear : Int16 → Rat} {g : FrameGenerator L.State} {y : List (GenFrame × List UInt8) × FrameGenerator L.State}
    (h : g.outputFrames L linear = .ok y) :
    y.2.order = g.order ∧ y.2.phase = phaseOut g.phase ∧ y.2.delay = g.delay ∧ (∀ i, g.encoders i = none → y.2.encoders i = none) ∧
    ((∀ i ∈ g.order, g.encoders i = none) → y.1 = []) := by
  unfold FrameGenerator.outputFrames at h
  simp only [bind, except_ok, Except.ok.injEq] at h
  obtain ⟨g1, h1, g2, h2, z, h3, rfl⟩ := h
  have k1 : g1.order = g.order ∧ g1.phase = phaseOut g.phase ∧ g1.delay = g.delay ∧ (∀ i, g.encoders i = none → g1.encoders i = none) := by
    cases hp : g.phase with
    | taking => rw [hp] at h1; simp only [Except.ok.injEq] at h1; subst h1; exact ⟨rfl, hp, rfl, fun _ h => h⟩
    | finalizeCalled => rw [hp] at h1; simp only [Except.ok.injEq] at h1; subst h1; exact ⟨rfl, rfl, rfl, fun _ h => h⟩
    | flushing =>
      rw [hp] at h1
      simp only at h1
      cases he : g.elements with
      | none => rw [he] at h1; simp at h1
      | some es =>
        rw [he] at h1
        have := flushElements_keeps _ _ _ _ h1
        exact ⟨this.order, this.phase.trans hp, this.delay, this.gone⟩
  have k2 : Keeps g1 g2 := by
    split at h2
    · exact finalizeEncoders_keeps _ _ _ h2
    · rw [Except.ok.injEq] at h2; subst h2; exact Keeps.refl g1
  have k3 : Keeps g2 z.2 ∧ ((∀ i ∈ g2.order, g2.encoders i = none) → z.1 = []) := by
    split at h3
    · exact popFrames_keeps _ _ _ h3
    · rw [Except.ok.injEq] at h3; subst h3; exact ⟨Keeps.refl g2, fun _ => rfl⟩
  have k := k2.trans k3.1
  refine ⟨k.order.trans k1.1, k.phase.trans k1.2.1, k.delay.trans k1.2.2.1, fun i hi => ?_, fun hn => k3.2 fun i hi => ?_⟩
  · have := k.gone i (k1.2.2.2 i hi)
    simp only [FrameGenerator.eraseFinished, this]
  · rw [k2.order, k1.1] at hi
    exact k2.gone i (k1.2.2.2 i (hn i hi))

/-- What any call keeps. -/
theorem call_keeps {linear : Int16 → Rat} {g : FrameGenerator L.State} {c : GeneratorCall} {y : List (GenFrame × List UInt8) × FrameGenerator L.State}
    (h : g.call L linear c = .ok y) :
    y.2.order = g.order ∧ (g.phase ≠ .taking → y.2.phase ≠ .taking) ∧ y.2.delay = g.delay ∧ (∀ i, g.encoders i = none → y.2.encoders i = none) ∧
    ((∀ i ∈ g.order, g.encoders i = none) → y.1 = []) ∧ (c ≠ .finalize → g.phase = .taking → y.2.phase = .taking) := by
  cases c with
  | add e l s =>
    simp only [FrameGenerator.call, bind, except_ok, Except.ok.injEq] at h
    obtain ⟨g1, h1, rfl⟩ := h
    have k := addSamples_keeps h1
    exact ⟨k.order, fun hp => by rw [k.phase]; exact hp, k.delay, k.gone, fun _ => rfl, fun _ hp => by rw [k.phase]; exact hp⟩
  | finalize =>
    simp only [FrameGenerator.call, Except.ok.injEq] at h
    subst h
    refine ⟨rfl, fun hp => ?_, rfl, fun _ h => h, fun _ => rfl, fun hf => ?_⟩
    · simp only [FrameGenerator.finalize, if_neg hp]; exact hp
    · exact absurd rfl hf
  | output =>
    obtain ⟨k1, k2, k3, k4, k5⟩ := outputFrames_keeps h
    refine ⟨k1, fun hp => ?_, k3, k4, k5, fun _ hp => ?_⟩
    · rw [k2]; cases hg : g.phase with
      | taking => exact absurd hg hp
      | finalizeCalled => simp [phaseOut]
      | flushing => simp [phaseOut]
    · rw [k2, hp]; rfl
  | addDemixing b =>
    simp only [FrameGenerator.call, Except.ok.injEq] at h
    subst h
    exact ⟨rfl, fun hp => hp, rfl, fun _ h => h, fun _ => rfl, fun _ hp => hp⟩

end Iamf.Props
