import Verif.Cli.Encoder
import Verif.Props.Sequencer
import Verif.Props.EncoderKeeps
/-
  What one call of an encoder does, step by step.
-/
namespace Iamf.Props
open Iamf

/-! ### Sequencers -/

/-- A sequencer accepted calls, one after the other. -/
def Accepts {σ : Type} (K : Sink σ) (cs : List SequencerCall) (q q' : Sequencer σ) : Prop :=
  Succeeded (Sequencer.calls K cs q).1 ∧ (Sequencer.calls K cs q).2 = q'

theorem Accepts.nil {σ : Type} (K : Sink σ) (q : Sequencer σ) : Accepts K [] q q := ⟨fun r hr => (by cases hr), rfl⟩

theorem sequencer_append {σ : Type} (K : Sink σ) (a b : List SequencerCall) : ∀ q : Sequencer σ,
    Sequencer.calls K (a ++ b) q = ((Sequencer.calls K a q).1 ++ (Sequencer.calls K b (Sequencer.calls K a q).2).1,
      (Sequencer.calls K b (Sequencer.calls K a q).2).2) := by
  induction a with
  | nil => intro q; rfl
  | cons c a ih =>
    intro q
    have h : ∀ cs, Sequencer.calls K (c :: cs) q = ((q.call K c).1 :: (Sequencer.calls K cs (q.call K c).2).1, (Sequencer.calls K cs (q.call K c).2).2) :=
      fun _ => rfl
    rw [List.cons_append, h, h, ih]
    rfl

theorem Accepts.append {σ : Type} {K : Sink σ} {a b : List SequencerCall} {q r s : Sequencer σ} (h : Accepts K a q r) (k : Accepts K b r s) :
    Accepts K (a ++ b) q s := by
  obtain ⟨h1, rfl⟩ := h
  obtain ⟨k1, rfl⟩ := k
  refine ⟨?_, by rw [sequencer_append]⟩
  rw [sequencer_append]
  intro x hx
  rcases List.mem_append.mp hx with hx | hx
  · exact h1 x hx
  · exact k1 x hx

theorem accepts_one {σ : Type} {K : Sink σ} {c : SequencerCall} {q q' : Sequencer σ} (h : q.call K c = (.ok (), q')) : Accepts K [c] q q' := by
  have e : Sequencer.calls K [c] q = ([(q.call K c).1], (q.call K c).2) := rfl
  rw [h] at e
  refine ⟨?_, by rw [e]⟩
  rw [e]
  intro r hr
  simpa using hr

/-- All sequencers of an encoder accepted the same calls. -/
def AllAccept {L : EncoderLib} {P : EncoderParts} {σ : Type} (K : Sink σ) (cs : List SequencerCall) (e e' : IamfEncoder L P σ) : Prop :=
  List.Forall₂ (Accepts K cs) e.others e'.others ∧ Accepts streamingSink cs e.streaming e'.streaming

theorem forall₂_accepts_nil {σ : Type} (K : Sink σ) (qs : List (Sequencer σ)) : List.Forall₂ (Accepts K []) qs qs := by
  induction qs with
  | nil => exact .nil
  | cons q qs ih => exact .cons (.nil K q) ih

theorem forall₂_accepts_append {σ : Type} {K : Sink σ} {a b : List SequencerCall} {qs rs ss : List (Sequencer σ)}
    (h : List.Forall₂ (Accepts K a) qs rs) (k : List.Forall₂ (Accepts K b) rs ss) : List.Forall₂ (Accepts K (a ++ b)) qs ss := by
  induction h generalizing ss with
  | nil => cases k; exact .nil
  | cons h _ ih =>
    cases k with
    | cons k ks => exact .cons (h.append k) (ih ks)

variable {L : EncoderLib} {P : EncoderParts} {σ : Type} {K : Sink σ} {linear : Int16 → Rat}

theorem AllAccept.same {e e' : IamfEncoder L P σ} (h : e'.others = e.others) (k : e'.streaming = e.streaming) : AllAccept K [] e e' := by
  unfold AllAccept
  rw [h, k]
  exact ⟨forall₂_accepts_nil K _, .nil _ _⟩

theorem AllAccept.append {a b : List SequencerCall} {e f g : IamfEncoder L P σ} (h : AllAccept K a e f) (k : AllAccept K b f g) :
    AllAccept K (a ++ b) e g := ⟨forall₂_accepts_append h.1 k.1, h.2.append k.2⟩

theorem pushDescriptorsToAll_accepts (d : SequenceObus) (qs : List (Sequencer σ)) : ∀ rs, IamfEncoder.pushDescriptorsToAll K d qs = .ok rs →
    List.Forall₂ (Accepts K [.pushDescriptors d]) qs rs := by
  induction qs with
  | nil => intro rs h; simp only [IamfEncoder.pushDescriptorsToAll, Except.ok.injEq] at h; subst h; exact .nil
  | cons q qs ih =>
    intro rs h
    simp only [IamfEncoder.pushDescriptorsToAll] at h
    obtain ⟨⟨r, q'⟩, hq⟩ : ∃ x, q.pushDescriptors K d = x := ⟨_, rfl⟩
    rw [hq] at h
    cases r with
    | error e => simp at h
    | ok u =>
      simp only [bind, except_ok, Except.ok.injEq] at h
      obtain ⟨rs', h1, rfl⟩ := h
      exact .cons (accepts_one hq) (ih _ h1)

theorem closeAll_accepts (d : SequenceObus) (qs : List (Sequencer σ)) : ∀ rs, IamfEncoder.closeAll K d qs = .ok rs →
    List.Forall₂ (Accepts K [.updateAndClose d]) qs rs := by
  induction qs with
  | nil => intro rs h; simp only [IamfEncoder.closeAll, Except.ok.injEq] at h; subst h; exact .nil
  | cons q qs ih =>
    intro rs h
    simp only [IamfEncoder.closeAll] at h
    obtain ⟨⟨r, q'⟩, hq⟩ : ∃ x, q.updateAndClose K d = x := ⟨_, rfl⟩
    rw [hq] at h
    cases r with
    | error e => simp at h
    | ok u =>
      simp only [bind, except_ok, Except.ok.injEq] at h
      obtain ⟨rs', h1, rfl⟩ := h
      exact .cons (accepts_one hq) (ih _ h1)

theorem pushUnitToAll_accepts (v : TemporalUnitView) (qs : List (Sequencer σ)) : ∀ rs, IamfEncoder.pushUnitToAll K v qs = .ok rs →
    List.Forall₂ (Accepts K [.pushUnit v]) qs rs := by
  induction qs with
  | nil => intro rs h; simp only [IamfEncoder.pushUnitToAll, Except.ok.injEq] at h; subst h; exact .nil
  | cons q qs ih =>
    intro rs h
    simp only [IamfEncoder.pushUnitToAll] at h
    obtain ⟨⟨r, q'⟩, hq⟩ : ∃ x, q.pushUnit K v = x := ⟨_, rfl⟩
    rw [hq] at h
    cases r with
    | error e => simp at h
    | ok u =>
      simp only [bind, except_ok, Except.ok.injEq] at h
      obtain ⟨rs', h1, rfl⟩ := h
      exact .cons (accepts_one hq) (ih _ h1)

/-! ### The end -/

/-- What neither ending nor writing a temporal unit changes. -/
structure SameInside (e e' : IamfEncoder L P σ) : Prop where
  timed : e'.timed = e.timed
  blocks : e'.blocks = e.blocks
  demixing : e'.demixing = e.demixing
  mixGain : e'.mixGain = e.mixGain
  reconGain : e'.reconGain = e.reconGain
  cached : e'.cached = e.cached
  generator : e'.generator = e.generator
  decoders : e'.decoders = e.decoders
  finalizer : e'.finalizer = e.finalizer
  finalizeCalled : e'.finalizeCalled = e.finalizeCalled

theorem SameInside.refl (e : IamfEncoder L P σ) : SameInside e e := ⟨rfl, rfl, rfl, rfl, rfl, rfl, rfl, rfl, rfl, rfl⟩

theorem SameInside.trans {a b c : IamfEncoder L P σ} (h : SameInside a b) (k : SameInside b c) : SameInside a c :=
  ⟨k.timed.trans h.timed, k.blocks.trans h.blocks, k.demixing.trans h.demixing, k.mixGain.trans h.mixGain, k.reconGain.trans h.reconGain,
    k.cached.trans h.cached, k.generator.trans h.generator, k.decoders.trans h.decoders, k.finalizer.trans h.finalizer,
    k.finalizeCalled.trans h.finalizeCalled⟩

theorem SameInside.generating {e e' : IamfEncoder L P σ} (h : SameInside e e') : e'.generating = e.generating := by
  unfold IamfEncoder.generating
  rw [h.timed, h.generator]

/-- The descriptors with other mix presentations. -/
def withMixes (d : SequenceObus) (m : List (Obu MixPresentation)) : SequenceObus := ⟨d.sequenceHeader, d.metadata, d.codecs, d.elements, m, d.arbitrary⟩

theorem finalizeDescriptors_parts {e e' : IamfEncoder L P σ} (h : e.finalizeDescriptors = .ok e') :
    SameInside e e' ∧ e'.others = e.others ∧ e'.streaming = e.streaming ∧ e'.sequencersFinalized = e.sequencersFinalized ∧ e'.mixesFinalized = true ∧
    (e.mixesFinalized = true → e' = e) ∧
    (e.mixesFinalized = false → ∃ m, P.finish e.finalizer = .ok m ∧ e'.sequence = withMixes e.sequence m) := by
  unfold IamfEncoder.finalizeDescriptors at h
  cases hm : e.mixesFinalized with
  | true =>
    rw [hm, if_pos rfl, Except.ok.injEq] at h
    subst h
    exact ⟨.refl _, rfl, rfl, rfl, hm, fun _ => rfl, fun h => by cases h⟩
  | false =>
    rw [hm, if_neg (by decide)] at h
    simp only [bind, except_ok, Except.ok.injEq] at h
    obtain ⟨m, h1, rfl⟩ := h
    exact ⟨⟨rfl, rfl, rfl, rfl, rfl, rfl, rfl, rfl, rfl, rfl⟩, rfl, rfl, rfl, rfl, fun h => (by cases h), fun _ => ⟨m, h1, rfl⟩⟩

theorem finalizeSequencers_parts {e e' : IamfEncoder L P σ} (h : e.finalizeSequencers K = .ok e') :
    SameInside e e' ∧ e'.sequence = e.sequence ∧ e'.mixesFinalized = e.mixesFinalized ∧ e'.sequencersFinalized = true ∧
    (e.sequencersFinalized = true → e' = e) ∧
    (e.sequencersFinalized = false → AllAccept K [.updateAndClose e.sequence] e e') := by
  unfold IamfEncoder.finalizeSequencers at h
  cases hm : e.sequencersFinalized with
  | true =>
    rw [hm, if_pos rfl, Except.ok.injEq] at h
    subst h
    exact ⟨.refl _, rfl, rfl, hm, fun _ => rfl, fun h => by cases h⟩
  | false =>
    rw [hm, if_neg (by decide)] at h
    simp only [bind, except_ok] at h
    obtain ⟨os, h1, h⟩ := h
    obtain ⟨⟨r, q'⟩, hq⟩ : ∃ x, e.streaming.updateAndClose streamingSink e.sequence = x := ⟨_, rfl⟩
    rw [hq] at h
    cases r with
    | error x => simp at h
    | ok u =>
      simp only [Except.ok.injEq] at h
      subst h
      exact ⟨⟨rfl, rfl, rfl, rfl, rfl, rfl, rfl, rfl, rfl, rfl⟩, rfl, rfl, rfl, fun h => (by cases h),
        fun _ => ⟨closeAll_accepts _ _ _ h1, accepts_one hq⟩⟩

theorem pushToSequencers_parts {e : IamfEncoder L P σ} {blocks : List BlockWithData} {frames : List FrameWithData} {obus : List ArbitraryObu}
    {y : List UInt8 × IamfEncoder L P σ} (h : e.pushToSequencers K blocks frames obus = .ok y) :
    SameInside e y.2 ∧ y.2.sequence = e.sequence ∧ y.2.mixesFinalized = e.mixesFinalized ∧ y.2.sequencersFinalized = e.sequencersFinalized ∧
    y.1 = y.2.streaming.sink.previousUnit ∧ ∃ v, TemporalUnitView.create blocks frames obus = .ok v ∧ AllAccept K [.pushUnit v] e y.2 := by
  unfold IamfEncoder.pushToSequencers at h
  simp only [bind, except_ok] at h
  obtain ⟨v, h1, os, h2, h⟩ := h
  obtain ⟨⟨r, q'⟩, hq⟩ : ∃ x, e.streaming.pushUnit streamingSink v = x := ⟨_, rfl⟩
  rw [hq] at h
  cases r with
  | error x => simp at h
  | ok u =>
    simp only [Except.ok.injEq] at h
    subst h
    exact ⟨⟨rfl, rfl, rfl, rfl, rfl, rfl, rfl, rfl, rfl, rfl⟩, rfl, rfl, rfl, rfl, v, h1, pushUnitToAll_accepts _ _ _ h2, accepts_one hq⟩

/-! ### OutputTemporalUnit -/

/-- Nothing more is to come. -/
def ended (e : IamfEncoder L P σ) : Bool := e.finalizeCalled && !e.generating

/-- The last call of the sequencers, if it was made between two states. -/
def closing (e e' : IamfEncoder L P σ) : List SequencerCall :=
  if e'.sequencersFinalized && !e.sequencersFinalized then [.updateAndClose e'.sequence] else []

/-- At the end the mix presentations are replaced by the measured ones. -/
structure Finishes (e e' : IamfEncoder L P σ) : Prop where
  mixes : e'.mixesFinalized = (e.mixesFinalized || ended e')
  sequencers : e'.sequencersFinalized = (e.sequencersFinalized || ended e')
  replaced : (e'.mixesFinalized && !e.mixesFinalized) = true → ∃ m, P.finish e'.finalizer = .ok m ∧ e'.sequence = withMixes e.sequence m
  same : (e'.mixesFinalized && !e.mixesFinalized) = false → e'.sequence = e.sequence

/-- The temporal unit `v` was written by all sequencers, and `b` are its bytes. -/
def WroteUnit (K : Sink σ) (e e' : IamfEncoder L P σ) (v : TemporalUnitView) (b : List UInt8) : Prop :=
  AllAccept K (.pushUnit v :: closing e e') e e' ∧ ∃ q, Accepts streamingSink [.pushUnit v] e.streaming q ∧ b = q.sink.previousUnit

/-- Finalizing when nothing more is to come. -/
theorem end_parts {e e1 e' : IamfEncoder L P σ} (hc : e.finalizeCalled = true) (hg : e.generating = false)
    (hf : e.mixesFinalized = e.sequencersFinalized) (h1 : e.finalizeDescriptors = .ok e1) (h2 : e1.finalizeSequencers K = .ok e') :
    SameInside e e' ∧ Finishes e e' ∧ AllAccept K (closing e e') e e' := by
  obtain ⟨a1, a2, a3, a4, a5, a6, a7⟩ := finalizeDescriptors_parts h1
  obtain ⟨b1, b2, b3, b4, b5, b6⟩ := finalizeSequencers_parts h2
  have hs := a1.trans b1
  have hend : ended e' = true := by unfold ended; rw [hs.finalizeCalled, hs.generating, hc, hg]; rfl
  refine ⟨hs, ⟨?_, ?_, fun hr => ?_, fun hr => ?_⟩, ?_⟩
  · rw [hend, b3, a5]; simp
  · rw [hend, b4]; simp
  · rw [b3, a5] at hr
    obtain ⟨m, m1, m2⟩ := a7 (by simpa using hr)
    exact ⟨m, by rw [hs.finalizer]; exact m1, by rw [b2]; exact m2⟩
  · rw [b3, a5] at hr
    have : e.mixesFinalized = true := by simpa using hr
    rw [b2, a6 this]
  · cases he : e.sequencersFinalized with
    | true =>
      have : e' = e := by
        have h3 := a6 (by rw [hf]; exact he)
        have h4 := b5 (by rw [a4]; exact he)
        rw [h4, h3]
      subst this
      unfold closing
      rw [he]
      exact .same rfl rfl
    | false =>
      unfold closing
      rw [he, b4]
      have := b6 (by rw [a4]; exact he)
      rw [b2]
      have k := (AllAccept.same (K := K) a2 a3).append this
      exact k

theorem going_parts {e : IamfEncoder L P σ} (hg : ended e = false) : Finishes e e ∧ closing e e = [] := by
  refine ⟨⟨by rw [hg, Bool.or_false], by rw [hg, Bool.or_false], fun hr => ?_, fun _ => rfl⟩, ?_⟩
  · cases h : e.mixesFinalized <;> rw [h] at hr <;> cases hr
  · unfold closing
    cases e.sequencersFinalized <;> rfl

/-- Writing comes before the end. -/
theorem write_then_end {e e1 e' : IamfEncoder L P σ} {v : TemporalUnitView} {b : List UInt8} (h1 : AllAccept K [.pushUnit v] e e1)
    (hb : b = e1.streaming.sink.previousUnit) (hs : e1.sequencersFinalized = e.sequencersFinalized) (h2 : AllAccept K (closing e1 e') e1 e') :
    WroteUnit K e e' v b := by
  refine ⟨?_, e1.streaming, h1.2, hb⟩
  have : closing e e' = closing e1 e' := by unfold closing; rw [hs]
  rw [this]
  exact h1.append h2

theorem Finishes.of {e e1 e' : IamfEncoder L P σ} (hs : e1.sequence = e.sequence) (hm : e1.mixesFinalized = e.mixesFinalized)
    (hq : e1.sequencersFinalized = e.sequencersFinalized) (h : Finishes e1 e') : Finishes e e' :=
  ⟨by rw [h.mixes, hm], by rw [h.sequencers, hq], fun hr => by rw [← hm] at hr; rw [← hs]; exact h.replaced hr,
    fun hr => by rw [← hm] at hr; rw [← hs]; exact h.same hr⟩

/-- A call without frames. -/
structure NoFrames (K : Sink σ) (e e' : IamfEncoder L P σ) (buffer b : List UInt8) : Prop where
  inside : e'.blocks = e.blocks ∧ e'.demixing = e.demixing ∧ e'.mixGain = e.mixGain ∧ e'.reconGain = e.reconGain ∧ e'.cached = e.cached ∧
    e'.generator = e.generator ∧ e'.decoders = e.decoders ∧ e'.finalizer = e.finalizer ∧ e'.finalizeCalled = e.finalizeCalled
  ends : Finishes e e'
  timed : e'.timed = if e.finalizeCalled then e.timed.takeFirst.2 else e.timed
  wrote : e.finalizeCalled = true → e.timed.takeFirst.1 ≠ [] → ∃ v, TemporalUnitView.create [] [] e.timed.takeFirst.1 = .ok v ∧ WroteUnit K e e' v b
  nothing : (e.finalizeCalled = false ∨ e.timed.takeFirst.1 = []) → b = buffer ∧ AllAccept K (closing e e') e e'

theorem withoutFrames_parts {e e' : IamfEncoder L P σ} {buffer b : List UInt8} (h : e.withoutFrames K buffer = .ok (b, e'))
    (hf : e.mixesFinalized = e.sequencersFinalized) : NoFrames K e e' buffer b := by
  unfold IamfEncoder.withoutFrames at h
  cases hc : e.finalizeCalled with
  | false =>
    rw [hc, if_neg (by decide), Except.ok.injEq, Prod.mk.injEq] at h
    obtain ⟨rfl, rfl⟩ := h
    obtain ⟨g1, g2⟩ := going_parts (e := e) (by unfold ended; rw [hc]; rfl)
    exact ⟨⟨rfl, rfl, rfl, rfl, rfl, rfl, rfl, rfl, rfl⟩, g1, by rw [hc]; rfl, fun h => by (rw [hc] at h; cases h),
      fun _ => ⟨rfl, by rw [g2]; exact .same rfl rfl⟩⟩
  | true =>
    rw [if_pos hc] at h
    simp only [bind, except_ok] at h
    obtain ⟨e0, he0⟩ : ∃ x : IamfEncoder L P σ, x = { e with timed := e.timed.takeFirst.2 } := ⟨_, rfl⟩
    rw [← he0] at h
    have i0 : e0.blocks = e.blocks ∧ e0.demixing = e.demixing ∧ e0.mixGain = e.mixGain ∧ e0.reconGain = e.reconGain ∧ e0.cached = e.cached ∧
        e0.generator = e.generator ∧ e0.decoders = e.decoders ∧ e0.finalizer = e.finalizer ∧ e0.finalizeCalled = e.finalizeCalled ∧
        e0.timed = e.timed.takeFirst.2 ∧ e0.sequence = e.sequence ∧ e0.mixesFinalized = e.mixesFinalized ∧
        e0.sequencersFinalized = e.sequencersFinalized ∧ e0.others = e.others ∧ e0.streaming = e.streaming := by
      subst he0; exact ⟨rfl, rfl, rfl, rfl, rfl, rfl, rfl, rfl, rfl, rfl, rfl, rfl, rfl, rfl, rfl⟩
    clear he0
    obtain ⟨i1, i2, i3, i4, i5, i6, i7, i8, i9, i10, i11, i12, i13, i14, i15⟩ := i0
    have hc0 : e0.finalizeCalled = true := by rw [i9, hc]
    have hf0 : e0.mixesFinalized = e0.sequencersFinalized := by rw [i12, i13, hf]
    obtain ⟨e1, h1, ⟨b1, e2⟩, h2, h3⟩ := h
    simp only at h3
    -- the steps after the first
    have step : SameInside e0 e' ∧ Finishes e0 e' ∧ (e.timed.takeFirst.1 = [] → b = buffer ∧ AllAccept K (closing e0 e') e0 e') ∧
        (e.timed.takeFirst.1 ≠ [] → ∃ v, TemporalUnitView.create [] [] e.timed.takeFirst.1 = .ok v ∧ WroteUnit K e0 e' v b) := by
      cases hg : e0.generating with
      | true =>
        rw [hg, if_pos rfl, Except.ok.injEq] at h1
        subst h1
        by_cases ho : e.timed.takeFirst.1 = []
        · rw [ho] at h2
          simp only [List.isEmpty_nil, if_true, Except.ok.injEq, Prod.mk.injEq] at h2
          obtain ⟨rfl, rfl⟩ := h2
          rw [hg, if_pos rfl, Except.ok.injEq, Prod.mk.injEq] at h3
          obtain ⟨rfl, rfl⟩ := h3
          obtain ⟨g1, g2⟩ := going_parts (e := e0) (by unfold ended; rw [hg, Bool.not_true, Bool.and_false])
          exact ⟨.refl _, g1, fun _ => ⟨rfl, by rw [g2]; exact .same rfl rfl⟩, fun h => absurd ho h⟩
        · rw [if_neg (by simpa using ho)] at h2
          obtain ⟨p1, p2, p3, p4, p5, v, p6, p7⟩ := pushToSequencers_parts h2
          simp only at p1 p2 p3 p4 p5 p7
          rw [p1.generating, hg, if_pos rfl, Except.ok.injEq, Prod.mk.injEq] at h3
          obtain ⟨rfl, rfl⟩ := h3
          obtain ⟨g1, g2⟩ := going_parts (e := e2) (by unfold ended; rw [p1.generating, hg, Bool.not_true, Bool.and_false])
          exact ⟨p1, .of p2 p3 p4 g1, fun h => absurd h ho, fun _ => ⟨v, p6, write_then_end p7 p5 p4 (by rw [g2]; exact .same rfl rfl)⟩⟩
      | false =>
        rw [hg, if_neg (by decide)] at h1
        obtain ⟨a1, a2, a3, a4, a5, a6, a7⟩ := finalizeDescriptors_parts h1
        by_cases ho : e.timed.takeFirst.1 = []
        · rw [ho] at h2
          simp only [List.isEmpty_nil, if_true, Except.ok.injEq, Prod.mk.injEq] at h2
          obtain ⟨rfl, rfl⟩ := h2
          rw [a1.generating, hg, if_neg (by decide)] at h3
          simp only [except_ok, Except.ok.injEq, Prod.mk.injEq] at h3
          obtain ⟨e5, h5, rfl, rfl⟩ := h3
          obtain ⟨k1, k2, k3⟩ := end_parts hc0 hg hf0 h1 h5
          exact ⟨k1, k2, fun _ => ⟨rfl, k3⟩, fun h => absurd ho h⟩
        · rw [if_neg (by simpa using ho)] at h2
          obtain ⟨p1, p2, p3, p4, p5, v, p6, p7⟩ := pushToSequencers_parts h2
          simp only at p1 p2 p3 p4 p5 p7
          rw [p1.generating, a1.generating, hg, if_neg (by decide)] at h3
          simp only [except_ok, Except.ok.injEq, Prod.mk.injEq] at h3
          obtain ⟨e5, h5, rfl, rfl⟩ := h3
          obtain ⟨b1, b2, b3, b4, b5, b6⟩ := finalizeSequencers_parts h5
          have hs := (a1.trans p1).trans b1
          have hend : ended e5 = true := by unfold ended; rw [hs.finalizeCalled, hs.generating, hc0, hg]; rfl
          have hc1 : AllAccept K (closing e2 e5) e2 e5 := by
            unfold closing
            cases he : e2.sequencersFinalized with
            | true => rw [b5 he]; simp only [Bool.not_true, Bool.and_false]; exact .same rfl rfl
            | false => rw [b4, b2]; exact b6 he
          refine ⟨hs, ⟨by rw [hend, b3, p3, a5]; simp, by rw [hend, b4]; simp, fun hr => ?_, fun hr => ?_⟩, fun h => absurd h ho, fun _ => ⟨v, p6, ?_⟩⟩
          · rw [b3, p3, a5] at hr
            obtain ⟨m, m1, m2⟩ := a7 (by simpa using hr)
            exact ⟨m, by rw [hs.finalizer]; exact m1, by rw [b2, p2]; exact m2⟩
          · rw [b3, p3, a5] at hr
            have : e0.mixesFinalized = true := by simpa using hr
            rw [b2, p2, a6 this]
          · have p8 := (AllAccept.same (K := K) a2 a3).append p7
            exact write_then_end p8 p5 (by rw [p4, a4]) hc1
    obtain ⟨s1, s2, s3, s4⟩ := step
    have hcl : closing e e' = closing e0 e' := by unfold closing; rw [i13]
    have haa : ∀ cs, AllAccept K cs e0 e' → AllAccept K cs e e' := by
      intro cs k
      exact (AllAccept.same (K := K) i14 i15).append k
    refine ⟨⟨by rw [s1.blocks, i1], by rw [s1.demixing, i2], by rw [s1.mixGain, i3], by rw [s1.reconGain, i4], by rw [s1.cached, i5], by rw [s1.generator, i6],
      by rw [s1.decoders, i7], by rw [s1.finalizer, i8], by rw [s1.finalizeCalled, i9]⟩, .of i11 i12 i13 s2, by rw [hc, if_pos rfl, s1.timed, i10],
      fun _ ho => ?_, fun hn => ?_⟩
    · obtain ⟨v, v1, v2, q, v3, v4⟩ := s4 ho
      refine ⟨v, v1, ?_, q, by rw [← i15]; exact v3, v4⟩
      rw [hcl]
      exact haa _ v2
    · obtain ⟨k1, k2⟩ := s3 (hn.resolve_left (by rw [hc]; decide))
      exact ⟨k1, by rw [hcl]; exact haa _ k2⟩

/-- The parameter blocks of a temporal unit that starts at `t`. -/
def unitBlocks (t : Int) (mixGain demixing reconGain : List BlockWithData) : List BlockWithData :=
  IamfEncoder.blocksUntil t mixGain ++ IamfEncoder.blocksUntil t demixing ++ IamfEncoder.blocksUntil t reconGain

/-- The generator with another timing module. -/
def withTiming {S : Type} (g : FrameGenerator S) (t : TimingModule) : FrameGenerator S :=
  ⟨g.labels, g.elements, g.order, g.encoders, g.samples, g.data, g.trimming, g.downMixing, g.parameters, t, g.phase, g.delay⟩

/-- A call with frames. -/
structure SomeFrames (K : Sink σ) (e e' : IamfEncoder L P σ) (b : List UInt8) (f : GenFrame × List UInt8) (fs : List (GenFrame × List UInt8))
    (a : P.Frames × P.Decoders) (r : BlockGenerator × TimingModule × List BlockWithData) : Prop where
  analysed : P.analyse e.decoders (f :: fs) = .ok a
  together : ∀ x ∈ fs, x.1.start = f.1.start ∧ x.1.stop = f.1.stop
  made : e.blocks.generateReconGain (P.source a.1) e.generator.timing e.reconGain = .ok r
  pushed : P.push e.finalizer a.1 f.1.start f.1.stop (unitBlocks f.1.start e.mixGain e.demixing r.2.2) = .ok e'.finalizer
  timed : e'.timed = (e.timed.takeAt f.1.start).2
  blocks : e'.blocks = r.1
  mixGain : e'.mixGain = IamfEncoder.blocksAfter f.1.start e.mixGain
  demixing : e'.demixing = IamfEncoder.blocksAfter f.1.start e.demixing
  reconGain : e'.reconGain = IamfEncoder.blocksAfter f.1.start r.2.2
  generator : e'.generator = withTiming e.generator r.2.1
  decoders : e'.decoders = a.2
  cached : e'.cached = e.cached
  finalizeCalled : e'.finalizeCalled = e.finalizeCalled
  ends : Finishes e e'
  wrote : ∃ v, TemporalUnitView.create (unitBlocks f.1.start e.mixGain e.demixing r.2.2)
    ((f :: fs).map (GenFrame.withData (e.sequence.elements.map fun x => (x.1, x.2.body)))) (e.timed.takeAt f.1.start).1 = .ok v ∧ WroteUnit K e e' v b

theorem withFrames_parts {e e' : IamfEncoder L P σ} {b : List UInt8} {f : GenFrame × List UInt8} {fs : List (GenFrame × List UInt8)}
    (h : e.withFrames K f fs = .ok (b, e')) (hf : e.mixesFinalized = e.sequencersFinalized)
    (hg : e.finalizeCalled = false → e.generator.phase = .taking) : ∃ a r, SomeFrames K e e' b f fs a r := by
  unfold IamfEncoder.withFrames at h
  simp only [bind, except_ok] at h
  obtain ⟨a, h1, h⟩ := h
  split at h
  · simp at h
  · rename_i hany
    simp only [except_ok] at h
    obtain ⟨r, h2, fin, h3, h⟩ := h
    obtain ⟨e0, he0⟩ : ∃ x : IamfEncoder L P σ, x = { e with
      timed := (e.timed.takeAt f.1.start).2
      blocks := r.1
      mixGain := IamfEncoder.blocksAfter f.1.start e.mixGain
      demixing := IamfEncoder.blocksAfter f.1.start e.demixing
      reconGain := IamfEncoder.blocksAfter f.1.start r.2.2
      generator := withTiming e.generator r.2.1
      decoders := a.2
      finalizer := fin } := ⟨_, rfl⟩
    unfold withTiming at he0
    rw [← he0] at h
    have i0 : e0.blocks = r.1 ∧ e0.mixGain = IamfEncoder.blocksAfter f.1.start e.mixGain ∧
        e0.demixing = IamfEncoder.blocksAfter f.1.start e.demixing ∧ e0.reconGain = IamfEncoder.blocksAfter f.1.start r.2.2 ∧ e0.cached = e.cached ∧
        e0.generator = withTiming e.generator r.2.1 ∧ e0.decoders = a.2 ∧ e0.finalizer = fin ∧ e0.finalizeCalled = e.finalizeCalled ∧
        e0.timed = (e.timed.takeAt f.1.start).2 ∧ e0.sequence = e.sequence ∧ e0.mixesFinalized = e.mixesFinalized ∧
        e0.sequencersFinalized = e.sequencersFinalized ∧ e0.others = e.others ∧ e0.streaming = e.streaming := by
      subst he0; exact ⟨rfl, rfl, rfl, rfl, rfl, rfl, rfl, rfl, rfl, rfl, rfl, rfl, rfl, rfl, rfl⟩
    clear he0
    obtain ⟨i1, i2, i3, i4, i5, i6, i7, i8, i9, i10, i11, i12, i13, i14, i15⟩ := i0
    have hf0 : e0.mixesFinalized = e0.sequencersFinalized := by rw [i12, i13, hf]
    obtain ⟨⟨b1, e2⟩, h4, h5⟩ := h
    obtain ⟨p1, p2, p3, p4, p5, v, p6, p7⟩ := pushToSequencers_parts h4
    simp only at p1 p2 p3 p4 p5 p7 h5
    have step : SameInside e2 e' ∧ Finishes e2 e' ∧ AllAccept K (closing e2 e') e2 e' ∧ b = b1 := by
      cases hgen : e2.generating with
      | true =>
        rw [hgen, if_pos rfl, Except.ok.injEq, Prod.mk.injEq] at h5
        obtain ⟨rfl, rfl⟩ := h5
        obtain ⟨g1, g2⟩ := going_parts (e := e2) (by unfold ended; rw [hgen, Bool.not_true, Bool.and_false])
        exact ⟨.refl _, g1, by rw [g2]; exact .same rfl rfl, rfl⟩
      | false =>
        rw [hgen, if_neg (by decide)] at h5
        simp only [except_ok, Except.ok.injEq, Prod.mk.injEq] at h5
        obtain ⟨e3, h6, e4, h7, rfl, rfl⟩ := h5
        have hc : e2.finalizeCalled = true := by
          cases hc : e2.finalizeCalled with
          | true => rfl
          | false =>
            rw [p1.finalizeCalled, i9] at hc
            have := hg hc
            unfold IamfEncoder.generating at hgen
            rw [p1.generator, i6] at hgen
            simp only [withTiming, FrameGenerator.takingSamples, this, decide_true, Bool.true_or] at hgen
            cases hgen
        obtain ⟨k1, k2, k3⟩ := end_parts hc hgen (by rw [p3, p4, hf0]) h6 h7
        exact ⟨k1, k2, k3, rfl⟩
    obtain ⟨s1, s2, s3, rfl⟩ := step
    have s := p1.trans s1
    refine ⟨a, r, h1, fun x hx => ?_, h2, by rw [s.finalizer, i8]; exact h3, by rw [s.timed, i10], by rw [s.blocks, i1], by rw [s.mixGain, i2], by rw [s.demixing, i3],
      by rw [s.reconGain, i4], by rw [s.generator, i6], by rw [s.decoders, i7], by rw [s.cached, i5], by rw [s.finalizeCalled, i9],
      .of (by rw [p2, i11]) (by rw [p3, i12]) (by rw [p4, i13]) s2, v, p6, ?_⟩
    · have := fun h => hany (List.any_eq_true.mpr ⟨x, hx, h⟩)
      simpa using this
    · have p8 := (AllAccept.same (K := K) i14 i15).append p7
      exact write_then_end p8 p5 (by rw [p4, i13]) s3

/-- The first part of a call. -/
structure MadeFrames (linear : Int16 → Rat) (e e' : IamfEncoder L P σ) (rank : UInt32 × Label → Nat) (fs : List (GenFrame × List UInt8))
    (d m : BlockGenerator × TimingModule × List BlockWithData) (g : FrameGenerator L.State) : Prop where
  demixed : e.blocks.generateDemixing e.generator.timing e.demixing = .ok d
  mixed : d.1.generateMixGain d.2.1 e.mixGain = .ok m
  fed : IamfEncoder.addCached linear (sortBy (fun a b => decide (rank a.1 ≤ rank b.1)) e.cached)
    (IamfEncoder.addDemixingBlocks d.2.2 (withTiming e.generator m.2.1)) = .ok g
  output : (if e.finalizeCalled then g.finalize else g).outputFrames L linear = .ok (fs, e'.generator)
  blocks : e'.blocks = m.1
  demixing : e'.demixing = d.2.2
  mixGain : e'.mixGain = m.2.2
  cached : e'.cached = []
  rest : e'.sequence = e.sequence ∧ e'.timed = e.timed ∧ e'.reconGain = e.reconGain ∧ e'.decoders = e.decoders ∧ e'.finalizer = e.finalizer ∧
    e'.others = e.others ∧ e'.streaming = e.streaming ∧ e'.finalizeCalled = e.finalizeCalled ∧ e'.mixesFinalized = e.mixesFinalized ∧
    e'.sequencersFinalized = e.sequencersFinalized

theorem makeFrames_parts {e : IamfEncoder L P σ} {rank : UInt32 × Label → Nat} {y : List (GenFrame × List UInt8) × IamfEncoder L P σ}
    (h : e.makeFrames linear rank = .ok y) : ∃ d m g, MadeFrames linear e y.2 rank y.1 d m g := by
  unfold IamfEncoder.makeFrames at h
  simp only [bind, except_ok, Except.ok.injEq] at h
  obtain ⟨d, h1, m, h2, g, h3, r, h4, rfl⟩ := h
  exact ⟨d, m, g, h1, h2, h3, h4, rfl, rfl, rfl, rfl, rfl, rfl, rfl, rfl, rfl, rfl, rfl, rfl, rfl, rfl⟩

theorem outputUnit_parts {e e' : IamfEncoder L P σ} {rank : UInt32 × Label → Nat} {buffer b : List UInt8}
    (h : e.outputUnit K linear rank buffer = .ok (b, e')) :
    ∃ e1 fs d m g, MadeFrames linear e e1 rank fs d m g ∧
      ((fs = [] ∧ e1.withoutFrames K buffer = .ok (b, e')) ∨ ∃ f l, fs = f :: l ∧ e1.withFrames K f l = .ok (b, e')) := by
  unfold IamfEncoder.outputUnit at h
  simp only [bind, except_ok] at h
  obtain ⟨⟨fs, e1⟩, h1, h2⟩ := h
  obtain ⟨d, m, g, hm⟩ := makeFrames_parts h1
  refine ⟨e1, fs, d, m, g, hm, ?_⟩
  cases fs with
  | nil => exact .inl ⟨rfl, h2⟩
  | cons f l => exact .inr ⟨f, l, rfl, h2⟩

end Iamf.Props
