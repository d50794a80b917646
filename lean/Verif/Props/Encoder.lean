import Verif.Props.EncoderLife
/-
  C46 and C47: the encoder.
-/
namespace Iamf.Props
open Iamf

variable {L : EncoderLib} {P : EncoderParts} {σ : Type} {K : Sink σ} {linear : Int16 → Rat}

/-! ### A new encoder -/

theorem insertParam_keyed {t t' : List (UInt32 × ParamEntry)} {p : ParamEntry} (ht : Keyed t) (h : insertParam t p = .ok t') : Keyed t' := by
  unfold insertParam at h
  cases hl : t.lookup p.1.base.id with
  | some q =>
    rw [hl] at h
    simp only at h
    by_cases hq : p = q
    · rw [if_pos hq, Except.ok.injEq] at h; subst h; exact ht
    · rw [if_neg hq] at h; cases h
  | none =>
    rw [hl] at h
    simp only [Except.ok.injEq] at h
    subst h
    intro id d hd
    rw [List.lookup_append] at hd
    cases ho : t.lookup id with
    | some x =>
      rw [ho, Option.some_or, Option.some.injEq] at hd
      subst hd
      exact ht id x ho
    | none =>
      rw [ho, Option.none_or] at hd
      simp only [List.lookup] at hd
      cases hk : id == p.1.base.id with
      | false => rw [hk] at hd; cases hd
      | true =>
        rw [hk] at hd
        simp only [Option.some.injEq] at hd
        subst hd
        exact (beq_iff_eq.mp hk).symm

theorem definitions_keyed {d : Descriptors} {t : List (UInt32 × ParamEntry)} (h : collectParamDefinitions d = .ok t) : Keyed t := by
  unfold collectParamDefinitions at h
  simp only [bind, except_ok] at h
  obtain ⟨t1, h1, h2⟩ := h
  have key : ∀ {α : Type} (f : List (UInt32 × ParamEntry) → α → Except Err (List (UInt32 × ParamEntry))),
      (∀ t x t', Keyed t → f t x = .ok t' → Keyed t') → ∀ (l : List α) t t', Keyed t → l.foldlM f t = .ok t' → Keyed t' := by
    intro α f hf l
    induction l with
    | nil => intro t t' ht hl; simp only [List.foldlM_nil, pure, Except.pure, Except.ok.injEq] at hl; subst hl; exact ht
    | cons a l ih =>
      intro t t' ht hl
      simp only [List.foldlM_cons, bind, except_ok] at hl
      obtain ⟨t2, h3, h4⟩ := hl
      exact ih t2 t' (hf t a t2 ht h3) h4
  refine key _ (fun t x t' ht hx => insertParam_keyed ht hx) _ t1 t (key _ (fun t x t' ht hx => ?_) _ [] t1 (fun id d hd => (by cases hd)) h1) h2
  unfold collectElementParam at hx
  split at hx
  · split at hx
    · exact insertParam_keyed ht hx
    · cases hx
  · split at hx
    · split at hx
      · simp only [bind, except_ok] at hx
        obtain ⟨aux, -, h5⟩ := hx
        exact insertParam_keyed ht h5
      · cases hx
    · simp only [Except.ok.injEq] at hx; subst hx; exact ht

theorem initTiming_zero : ∀ (l : List (UInt32 × UInt32)) (m m' : List (UInt32 × TimingData)), (∀ id x, m.lookup id = some x → x.timestamp = 0) →
    initTiming l m = .ok m' → ∀ id x, m'.lookup id = some x → x.timestamp = 0 := by
  intro l
  induction l with
  | nil => intro m m' hm h; simp only [initTiming, Except.ok.injEq] at h; subst h; exact hm
  | cons p l ih =>
    intro m m' hm h
    obtain ⟨i, rate⟩ := p
    rw [initTiming] at h
    split at h
    · cases h
    · split at h
      · cases h
      · refine ih _ _ (fun id x hx => ?_) h
        rw [List.lookup_append] at hx
        cases ho : m.lookup id with
        | some y =>
          rw [ho, Option.some_or, Option.some.injEq] at hx
          subst hx
          exact hm id y ho
        | none =>
          rw [ho, Option.none_or] at hx
          simp only [List.lookup] at hx
          cases hk : id == i with
          | false => rw [hk] at hx; cases hx
          | true => rw [hk] at hx; simp only [Option.some.injEq] at hx; subst hx; rfl

theorem created_blocks {elements : List TimedElement} {params : List (UInt32 × UInt32)} {t : TimingModule}
    (h : TimingModule.create elements params = some t) : TimedBlocks t [] := by
  unfold TimingModule.create at h
  split at h
  · cases h
  · split at h
    · cases h
    · rename_i bs hb
      simp only [Option.some.injEq] at h
      subst h
      intro id
      exact ⟨trivial, fun x hx => initTiming_zero _ _ _ (fun _ _ h => (by cases h)) hb id x hx⟩

theorem initial_inner {s : EncoderSetup L P σ} {e : IamfEncoder L P σ} (h : s.create K = .ok e) :
    ∃ definitions generator, s.definitions = .ok definitions ∧ s.generator definitions = .ok generator ∧ Keyed definitions ∧
      Inner K linear s definitions generator [] [] e := by
  unfold EncoderSetup.create IamfEncoder.create at h
  simp only [bind, except_ok] at h
  obtain ⟨definitions, h1, h⟩ := h
  have hd : s.definitions = .ok definitions := h1
  cases ht : TimingModule.create ((s.sequence.elements.map fun e => (e.1, e.2.body)).map fun e => e.2.timed) (definitions.map fun p => (p.1, p.2.1.base.rate)) with
  | none => rw [ht] at h; cases h
  | some t =>
    rw [ht] at h
    simp only [except_ok] at h
    obtain ⟨blocks, h2, m, h3, g, h4, qs, h5, h⟩ := h
    have hg : s.generator definitions = .ok g := by
      unfold EncoderSetup.generator EncoderSetup.elements
      rw [ht]
      simp only [bind, except_ok]
      exact ⟨m, h3, h4⟩
    have harr : (⟨s.sequence.sequenceHeader, s.sequence.metadata, s.sequence.codecs, s.sequence.elements, s.sequence.mixes,
        (arrangeArbitrary s.sequence.arbitrary [] []).1⟩ : SequenceObus) = s.descriptors := by
      rw [arranged_descriptors]; rfl
    rw [harr] at h5 h
    obtain ⟨⟨r, q⟩, hr⟩ : ∃ x, (streamingSequencer s.lebs s.delimiters).pushDescriptors streamingSink s.descriptors = x := ⟨_, rfl⟩
    rw [hr] at h
    cases r with
    | error x => cases h
    | ok u =>
      simp only [Except.ok.injEq] at h
      subst h
      have hb : blocks = ⟨s.override, definitions, [], [], []⟩ := by
        unfold BlockGenerator.create at h2
        split at h2
        · cases h2
        · simp only [Except.ok.injEq] at h2; exact h2.symm
      subst hb
      have htime : g.timing = t ∧ (g.phase = .taking ∨ g.order = []) := by
        unfold FrameGenerator.create at h4
        split at h4
        · simp only [Except.ok.injEq] at h4; subst h4; exact ⟨rfl, .inr rfl⟩
        · simp only [bind, except_ok] at h4
          obtain ⟨⟨encoders, order⟩, -, ⟨labels, data, trimming⟩, -, h6⟩ := h4
          simp only [Except.ok.injEq] at h6
          subst h6
          refine ⟨rfl, ?_⟩
          simp only
          cases order with
          | nil => exact .inr rfl
          | cons a b => exact .inl rfl
      refine ⟨definitions, g, hd, hg, definitions_keyed h1, ⟨fun before ev after h => ?_, rfl, rfl, rfl, fun _ => htime.2, arranged_timed s, List.nodup_nil, latest_nil,
        fun b hb => (by cases hb), ⟨rfl, rfl, ⟨[], ?_, fun k => ?_⟩, fun k => ⟨[], ?_, ?_⟩⟩, ⟨[], [], rfl, rfl, fun x hx => (by cases hx), ?_⟩,
        ⟨[], g, rfl, ?_, rfl⟩, .nil, rfl, rfl, ⟨[], .nil, ?_, ?_⟩, ?_⟩⟩
      · cases before <;> cases h
      · rw [htime.1]; exact created_blocks ht
      · cases k <;> rfl
      · cases k <;> rfl
      · cases k <;> exact .nil
      · exact .nil
      · cases g; rfl
      · exact pushDescriptorsToAll_accepts _ _ _ h5
      · exact accepts_one hr
      · exact Streams.initial hr

/-! ### Runs -/

theorem run_inner {s : EncoderSetup L P σ} {definitions : List (UInt32 × ParamEntry)} {generator : FrameGenerator L.State} (hk : Keyed definitions)
    (hp : s.override = false → ∀ id d, definitions.lookup id = some d → OnePerPlace d) (cs : List IamfEncoderCall) :
    ∀ {evs : List EncoderEvent} {heard : List (UnitParts × P.Frames)} {e e' : IamfEncoder L P σ} {answers : List IamfEncoderAnswer},
      Inner K linear s definitions generator evs heard e → (∀ u, .encode u ∈ cs → ∀ b ∈ u.blocks, ProperMetadata b) →
      e.calls K linear cs = .ok (answers, e') →
      ∃ more l, more.map (·.call) = cs ∧ more.map (·.answer) = answers ∧ Inner K linear s definitions generator (evs ++ more) (heard ++ l) e' := by
  induction cs with
  | nil =>
    intro evs heard e e' answers h _ hc
    simp only [IamfEncoder.calls, Except.ok.injEq, Prod.mk.injEq] at hc
    obtain ⟨rfl, rfl⟩ := hc
    exact ⟨[], [], rfl, rfl, by simpa using h⟩
  | cons c cs ih =>
    intro evs heard e e' answers h hu hc
    simp only [IamfEncoder.calls, bind, except_ok, Except.ok.injEq, Prod.mk.injEq] at hc
    obtain ⟨⟨a, e1⟩, h1, ⟨as, e2⟩, h2, rfl, rfl⟩ := hc
    have step : ∃ ev l, ev.call = c ∧ ev.answer = a ∧ Inner K linear s definitions generator (evs ++ [ev]) (heard ++ l) e1 := by
      cases c with
      | encode u =>
        obtain ⟨answer, h3, h4⟩ := step_encode h u (hu u List.mem_cons_self)
        rw [h1, Except.ok.injEq, Prod.mk.injEq] at h3
        obtain ⟨rfl, rfl⟩ := h3
        exact ⟨_, [], rfl, rfl, by simpa using h4⟩
      | finalizeEncode => exact ⟨_, [], rfl, rfl, by simpa using step_finalize h h1⟩
      | output rank buffer =>
        simp only [IamfEncoder.call, bind, except_ok, Except.ok.injEq, Prod.mk.injEq] at h1
        obtain ⟨⟨b, e3⟩, h3, rfl, rfl⟩ := h1
        exact step_output hk hp h h3
    obtain ⟨ev, l, s1, s2, s3⟩ := step
    obtain ⟨more, l', m1, m2, m3⟩ := ih s3 (fun u hu' => hu u (List.mem_cons_of_mem _ hu')) h2
    refine ⟨ev :: more, l ++ l', by rw [List.map_cons, s1, m1], by rw [List.map_cons, s2, m2], ?_⟩
    simpa using m3

theorem Inner.history {s : EncoderSetup L P σ} {definitions : List (UInt32 × ParamEntry)} {generator : FrameGenerator L.State} {evs : List EncoderEvent}
    {heard : List (UnitParts × P.Frames)} {e : IamfEncoder L P σ} (h : Inner K linear s definitions generator evs heard e) :
    EncoderHistory K linear s definitions generator evs heard e := by
  have hend : (finalizedIn evs = true ∧ e.generating = false) ↔ ended e = true := by rw [ended_iff, h.called]
  refine ⟨h.events, ?_, ?_, h.once, ⟨h.sounds, h.heards⟩, ?_, ?_⟩
  · obtain ⟨fss, g, g1, g2, g3⟩ := h.frames
    refine ⟨fss, g, g1, g3, ?_, ?_⟩
    · unfold IamfEncoder.generating
      have ht : (!e.timed.isEmpty) = true ↔ ∃ t ∈ s.ticks, t ∉ ticksIn evs := by
        constructor
        · intro hn
          cases hm : e.timed with
          | nil => rw [hm] at hn; cases hn
          | cons x m => exact ⟨x.1, (h.timed.keys x.1).mp (by rw [hm]; simp)⟩
        · rintro ⟨t, h1, h2⟩
          have := (h.timed.keys t).mpr ⟨h1, h2⟩
          cases hm : e.timed with
          | nil => rw [hm] at this; cases this
          | cons x m => rfl
      have hs : e.generator.takingSamples = g.takingSamples := by rw [g2]; rfl
      have hf : e.generator.generatingFrames = g.generatingFrames := by rw [g2]; rfl
      rw [Bool.or_eq_true, Bool.or_eq_true, ht, hs, hf, or_assoc]
    · unfold IamfEncoder.encoderDelay
      rw [g2]; rfl
  · obtain ⟨all, h1, h2⟩ := h.blocks.order
    exact ⟨all, fun id => (h1 id).1, fun k => ⟨waitingBlocks e k, h2 k⟩⟩
  · obtain ⟨views, w1, w2, w3⟩ := h.written
    refine ⟨views, _, w1, w2, w3, ?_⟩
    have hs := h.sequence
    by_cases he : ended e = true
    · rw [if_pos (hend.mpr he)]
      rw [he] at hs
      obtain ⟨m, m1, m2⟩ := hs
      exact ⟨m, m1, by rw [he, m2]; rfl⟩
    · rw [if_neg (fun hc => he (hend.mp hc)), if_neg he]
  · refine ⟨e.streaming.sink.descriptors, ?_, ?_⟩
    · unfold IamfEncoder.descriptorObus
      rw [h.closed]
      unfold ended
      rw [h.called]; rfl
    · have hs := h.streams
      have hq := h.sequence
      by_cases he : ended e = true
      · rw [if_pos (hend.mpr he)]
        rw [he] at hs hq
        obtain ⟨m, m1, m2⟩ := hq
        refine ⟨m, m1, ?_⟩
        rw [← m2]; exact hs
      · rw [if_neg (fun hc => he (hend.mp hc))]
        rw [if_neg he] at hs hq
        have := hs.bytes
        rw [hq] at this
        exact this

/-- **C47.** Whatever calls a user makes of a new encoder: if none fails fatally, they are a history as specified. -/
theorem C47_runs_are_histories (K : Sink σ) (linear : Int16 → Rat) (s : EncoderSetup L P σ) {e e' : IamfEncoder L P σ} (hs : s.create K = .ok e)
    (cs : List IamfEncoderCall) {answers : List IamfEncoderAnswer} (hc : e.calls K linear cs = .ok (answers, e'))
    (hm : ∀ u, .encode u ∈ cs → ∀ b ∈ u.blocks, ProperMetadata b)
    (ho : s.override = false → ∀ definitions, s.definitions = .ok definitions → ∀ id d, definitions.lookup id = some d → OnePerPlace d) :
    ∃ definitions generator evs heard, s.definitions = .ok definitions ∧ s.generator definitions = .ok generator ∧ evs.map (·.call) = cs ∧
      evs.map (·.answer) = answers ∧ EncoderHistory K linear s definitions generator evs heard e' := by
  obtain ⟨definitions, generator, h1, h2, hk, h3⟩ := initial_inner (linear := linear) hs
  obtain ⟨more, l, m1, m2, m3⟩ := run_inner hk (fun hov => ho hov definitions h1) cs h3 hm hc
  exact ⟨definitions, generator, more, l, h1, h2, m1, m2, by simpa using m3.history⟩

/-! ### The life cycle -/

/-- An encoder after calls that did not fail fatally. -/
def Ran (K : Sink σ) (linear : Int16 → Rat) (s : EncoderSetup L P σ) (cs : List IamfEncoderCall) (e : IamfEncoder L P σ) : Prop :=
  ∃ e0 answers, s.create K = .ok e0 ∧ e0.calls K linear cs = .ok (answers, e)

private theorem calls_sane (cs : List IamfEncoderCall) : ∀ {e e' : IamfEncoder L P σ} {answers : List IamfEncoderAnswer}, Settled e →
    e.calls K linear cs = .ok (answers, e') →
    Settled e' ∧ e'.finalizeCalled = (e.finalizeCalled || cs.any IamfEncoderCall.isFinal) ∧ (e.generating = false → e'.generating = false) ∧
    (cs.any IamfEncoderCall.isFinal = false → e.finalizeCalled = false → e.generator.phase = .taking → e'.generator.phase = .taking) ∧
    (ended e = true → e'.others = e.others ∧ e'.streaming = e.streaming ∧ e'.sequence = e.sequence ∧
      List.Forall₂ (fun c a => ∀ rank buffer, c = .output rank buffer → a = .unit buffer) cs answers) := by
  induction cs with
  | nil =>
    intro e e' answers h hc
    simp only [IamfEncoder.calls, Except.ok.injEq, Prod.mk.injEq] at hc
    obtain ⟨rfl, rfl⟩ := hc
    exact ⟨h, by simp, fun h => h, fun _ _ h => h, fun _ => ⟨rfl, rfl, rfl, .nil⟩⟩
  | cons c cs ih =>
    intro e e' answers h hc
    simp only [IamfEncoder.calls, bind, except_ok, Except.ok.injEq, Prod.mk.injEq] at hc
    obtain ⟨⟨a, e1⟩, h1, ⟨as, e2⟩, h2, rfl, rfl⟩ := hc
    obtain ⟨s1, m1⟩ := call_sane h h1
    obtain ⟨i1, i2, i3, i4, i5⟩ := ih s1 h2
    refine ⟨i1, ?_, fun hg => i3 (m1.stops hg), fun hn hf hp => ?_, fun he => ?_⟩
    · rw [i2, m1.called, List.any_cons, Bool.or_assoc]
    · rw [List.any_cons, Bool.or_eq_false_iff] at hn
      exact i4 hn.2 (by rw [m1.called, hf, hn.1]; rfl) (m1.taking hf hp)
    · obtain ⟨a1, a2, a3, a4⟩ := m1.after he
      have he1 : ended e1 = true := by
        rw [ended_iff] at he ⊢
        exact ⟨by rw [m1.called, he.1]; rfl, m1.stops he.2⟩
      obtain ⟨b1, b2, b3, b4⟩ := i5 he1
      exact ⟨b1.trans a1, b2.trans a2, b3.trans a3, .cons a4 b4⟩

private theorem created_sane {s : EncoderSetup L P σ} {e : IamfEncoder L P σ} (h : s.create K = .ok e) : Settled e ∧ e.finalizeCalled = false := by
  obtain ⟨definitions, generator, -, -, -, h3⟩ := initial_inner (linear := fun _ => 0) h
  exact ⟨⟨h3.mixes, h3.closed, h3.phase⟩, h3.called⟩

private theorem any_final (cs : List IamfEncoderCall) : cs.any IamfEncoderCall.isFinal = true ↔ .finalizeEncode ∈ cs := by
  rw [List.any_eq_true]
  constructor
  · rintro ⟨c, h1, h2⟩
    cases c <;> first | exact h1 | cases h2
  · intro h
    exact ⟨_, h, rfl⟩

private theorem ran_sane {s : EncoderSetup L P σ} {cs : List IamfEncoderCall} {e : IamfEncoder L P σ} (h : Ran K linear s cs e) :
    Settled e ∧ (e.finalizeCalled = true ↔ .finalizeEncode ∈ cs) := by
  obtain ⟨e0, answers, h1, h2⟩ := h
  obtain ⟨s1, s2⟩ := created_sane h1
  obtain ⟨i1, i2, -⟩ := calls_sane cs s1 h2
  refine ⟨i1, ?_⟩
  rw [i2, s2, Bool.false_or, any_final]

/-- **C46.** A second `FinalizeEncode` does nothing, whatever was called in between. -/
theorem C46_finalizing_again_does_nothing (s : EncoderSetup L P σ) {cs : List IamfEncoderCall} {e : IamfEncoder L P σ} (h : Ran K linear s cs e)
    (hf : .finalizeEncode ∈ cs) : e.call K linear .finalizeEncode = .ok (.done, e) := by
  have hc := (ran_sane h).2.mpr hf
  simp only [IamfEncoder.call, IamfEncoder.finalizeEncode, bind, if_pos hc, Except.bind]

/-- **C46.** After `FinalizeEncode`, samples given to `Encode` make no difference. -/
theorem C46_samples_after_finalizing_are_ignored (s : EncoderSetup L P σ) {cs : List IamfEncoderCall} {e : IamfEncoder L P σ} (h : Ran K linear s cs e)
    (hf : .finalizeEncode ∈ cs) (blocks : List (BlockMetadata ObuHeader)) (x y : List ((UInt32 × Label) × Samples)) :
    e.call K linear (.encode ⟨blocks, x⟩) = e.call K linear (.encode ⟨blocks, y⟩) := by
  have hc := (ran_sane h).2.mpr hf
  simp only [IamfEncoder.call]
  have : e.encode ⟨blocks, x⟩ = e.encode ⟨blocks, y⟩ := by
    unfold IamfEncoder.encode
    simp only [hc, if_true]
  rw [this]

/-- **C46.** Once `GeneratingTemporalUnits` is false it stays so. -/
theorem C46_generating_does_not_resume (s : EncoderSetup L P σ) {cs : List IamfEncoderCall} {e : IamfEncoder L P σ} (h : Ran K linear s cs e)
    (hg : e.generating = false) (more : List IamfEncoderCall) {answers : List IamfEncoderAnswer} {e' : IamfEncoder L P σ}
    (hc : e.calls K linear more = .ok (answers, e')) : e'.generating = false :=
  (calls_sane more (ran_sane h).1 hc).2.2.1 hg

/-- **C46.** As long as a user may give samples, `GeneratingTemporalUnits` is true. -/
theorem C46_generating_until_finalized (s : EncoderSetup L P σ) {e0 e : IamfEncoder L P σ} {cs : List IamfEncoderCall} {answers : List IamfEncoderAnswer}
    (h0 : s.create K = .ok e0) (ht : e0.generator.takingSamples = true) (hc : e0.calls K linear cs = .ok (answers, e)) (hf : .finalizeEncode ∉ cs) :
    e.generating = true := by
  obtain ⟨s1, s2⟩ := created_sane h0
  have hany : cs.any IamfEncoderCall.isFinal = false := Bool.eq_false_iff.mpr fun h => hf ((any_final cs).mp h)
  have := (calls_sane cs s1 hc).2.2.2.1 hany s2 (by unfold FrameGenerator.takingSamples at ht; simpa using ht)
  unfold IamfEncoder.generating FrameGenerator.takingSamples
  simp [this]

/-- **C46.** `GetDescriptorObus` says that the descriptors are final when, and only when, `FinalizeEncode` was called and no temporal unit is to come. -/
theorem C46_when_descriptors_are_final (s : EncoderSetup L P σ) {cs : List IamfEncoderCall} {e : IamfEncoder L P σ} (h : Ran K linear s cs e) :
    ∃ bytes final, e.descriptorObus false = .ok (bytes, final) ∧ (final = true ↔ .finalizeEncode ∈ cs ∧ e.generating = false) := by
  obtain ⟨h1, h2⟩ := ran_sane h
  refine ⟨_, _, rfl, ?_⟩
  rw [h1.sequencers, ended_iff, h2]

/-- **C46.** Redundant copies of the descriptors are not supported, at any time. -/
theorem C46_no_redundant_descriptors (e : IamfEncoder L P σ) : e.descriptorObus true = .error .unimplemented := rfl

/-- **C46.** When the descriptors are final nothing changes any more: not the descriptors, nor anything that was written; `OutputTemporalUnit` leaves
the given buffer as it is. -/
theorem C46_nothing_after_the_end (s : EncoderSetup L P σ) {cs : List IamfEncoderCall} {e : IamfEncoder L P σ} (h : Ran K linear s cs e)
    (hf : .finalizeEncode ∈ cs) (hg : e.generating = false) (more : List IamfEncoderCall) {answers : List IamfEncoderAnswer} {e' : IamfEncoder L P σ}
    (hc : e.calls K linear more = .ok (answers, e')) :
    e'.others = e.others ∧ e'.descriptorObus false = e.descriptorObus false ∧
    List.Forall₂ (fun c a => ∀ rank buffer, c = .output rank buffer → a = .unit buffer) more answers := by
  obtain ⟨h1, h2⟩ := ran_sane h
  have he : ended e = true := by rw [ended_iff]; exact ⟨h2.mpr hf, hg⟩
  obtain ⟨i1, i2, i3, i4, i5⟩ := calls_sane more h1 hc
  obtain ⟨a1, a2, a3, a4⟩ := i5 he
  refine ⟨a1, ?_, a4⟩
  have hs : e'.sequencersFinalized = e.sequencersFinalized := by
    rw [i1.sequencers, h1.sequencers, he, ended_iff]
    exact ⟨by rw [i2, h2.mpr hf]; rfl, i3 hg⟩
  unfold IamfEncoder.descriptorObus
  rw [a2, hs]

/-! ### The file -/

private theorem written_once {g : LebGen} {obus : List (Wr Unit)} {a b : List UInt8} (ha : WrittenInOrder g obus a) (hb : WrittenInOrder g obus b) : a = b := by
  obtain ⟨p, rfl, hp⟩ := ha
  obtain ⟨q, rfl, hq⟩ := hb
  have : p = q := by
    clear * - hp hq
    induction hp generalizing q with
    | nil => cases hq; rfl
    | cons h _ ih =>
      cases hq with
      | cons h' hq' =>
        obtain ⟨w, w1, w2, -⟩ := h
        obtain ⟨w', w1', w2', -⟩ := h'
        rw [w1, Prod.mk.injEq] at w1'
        rw [ih _ hq', ← w2, ← w2', w1'.2]
  rw [this]

private theorem sorted_once {β : Type} {l l' m : List (UInt32 × β)} (h : l.Perm m) (h' : l'.Perm m) (hn : (m.map Prod.fst).Nodup)
    (h1 : l.Pairwise (fun a b => a.1 ≤ b.1)) (h2 : l'.Pairwise (fun a b => a.1 ≤ b.1)) : l = l' :=
  List.Perm.eq_of_pairwise (le := fun a b => a.1 ≤ b.1)
    (fun _ _ ha hb hab hba => eq_of_nodup_map hn (h.mem_iff.mp ha) (h'.mem_iff.mp hb) (UInt32.le_antisymm hab hba)) h1 h2 (h.trans h'.symm)

private theorem descriptors_once {g : LebGen} {d : SequenceObus} (hc : (d.codecs.map Prod.fst).Nodup) (he : (d.elements.map Prod.fst).Nodup)
    {a b : List UInt8} (ha : DescriptorBytes g d a) (hb : DescriptorBytes g d b) : a = b := by
  obtain ⟨c1, e1, a1, a2, a3, a4, a5⟩ := ha
  obtain ⟨c2, e2, b1, b2, b3, b4, b5⟩ := hb
  rw [sorted_once a1 b1 hc a2 b2, sorted_once a3 b3 he a4 b4] at a5
  exact written_once a5 b5

/-- The temporal units as `OutputTemporalUnit` returned them. -/
def returnedIn (evs : List EncoderEvent) : List (List UInt8) := evs.filterMap fun ev => match ev.unit, ev.answer with
  | some _, .unit b => some b
  | _, _ => none

private theorem returned_units {s : EncoderSetup L P σ} {definitions : List (UInt32 × ParamEntry)} {heard : List (UnitParts × P.Frames)} (evs : List EncoderEvent)
    (h : ∀ before ev after, evs = before ++ ev :: after → EventOk s definitions heard before ev) {views : List TemporalUnitView}
    (hv : List.Forall₂ (UnitParts.Gives s) (unitsIn evs) views) : List.Forall₂ (UnitBytes s.lebs s.delimiters) views (returnedIn evs) := by
  have key : ∀ ev ∈ evs, ∀ p, ev.unit = some p → ∃ v b, p.Gives s v ∧ UnitBytes s.lebs s.delimiters v b ∧ ev.answer = .unit b := by
    intro ev hev p hp
    obtain ⟨before, after, he⟩ := List.append_of_mem hev
    have := h before ev after he
    unfold EventOk at this
    cases hc : ev.call with
    | encode u => rw [hc] at this; rw [this.1] at hp; cases hp
    | finalizeEncode => rw [hc] at this; rw [this.1] at hp; cases hp
    | output rank buffer =>
      rw [hc] at this
      exact (this.2.2.2.1 p hp).2
  clear h
  induction evs generalizing views with
  | nil => cases hv; exact .nil
  | cons ev evs ih =>
    unfold unitsIn at hv
    unfold returnedIn
    rw [List.filterMap_cons] at hv ⊢
    cases hu : ev.unit with
    | none =>
      rw [hu] at hv
      exact ih hv fun e he => key e (List.mem_cons_of_mem _ he)
    | some p =>
      rw [hu] at hv
      obtain ⟨v, b, k1, k2, k3⟩ := key ev List.mem_cons_self p hu
      rw [k3]
      cases hv with
      | cons g1 g2 =>
        unfold UnitParts.Gives at g1 k1
        rw [k1, Except.ok.injEq] at g1
        subst g1
        exact .cons k2 (ih g2 fun e he => key e (List.mem_cons_of_mem _ he))

/-- **C47.** When a user lets the encoder write a file, the file holds at any time the descriptors as `GetDescriptorObus` returns them, followed by all
temporal units as they were returned.  (The ids of codec configs and of audio elements are distinct: they are keys of maps.) -/
theorem C47_the_file_is_what_was_returned (linear : Int16 → Rat) (s : EncoderSetup L P FileOutput) (f : FileOutput) (hn : f.named = true) (hp : f.position = none)
    (ho : s.others = [fileSequencer s.lebs s.delimiters f]) (h1 : (s.sequence.codecs.map Prod.fst).Nodup) (h2 : (s.sequence.elements.map Prod.fst).Nodup)
    {definitions : List (UInt32 × ParamEntry)} {generator : FrameGenerator L.State} {evs : List EncoderEvent} {heard : List (UnitParts × P.Frames)}
    {e : IamfEncoder L P FileOutput} (h : EncoderHistory fileSink linear s definitions generator evs heard e) :
    ∃ q bytes final, e.others = [q] ∧ e.descriptorObus false = .ok (bytes, final) ∧ q.sink.disk = some (bytes ++ (returnedIn evs).flatten) := by
  obtain ⟨views, last, w1, w2, -, w4⟩ := h.written
  obtain ⟨bytes, d1, d2⟩ := h.descriptors
  have hunits := returned_units evs h.events w1
  rw [ho] at w2
  obtain ⟨others, hothers⟩ : ∃ x, e.others = x := ⟨_, rfl⟩
  rw [hothers] at w2
  cases w2 with
  | cons a b =>
    cases b
    rename_i q
    refine ⟨q, bytes, _, hothers, d1, ?_⟩
    obtain ⟨a1, rfl⟩ := a
    have hsame : ∀ {units : List (List UInt8)}, List.Forall₂ (UnitBytes s.lebs s.delimiters) views units → units = returnedIn evs := by
      intro units hu
      clear * - hu hunits
      generalize returnedIn evs = r at hunits
      induction hu generalizing r with
      | nil => cases hunits; rfl
      | cons x _ ih =>
        cases hunits with
        | cons y hr => rw [ih _ hr, written_once x y]
    by_cases he : finalizedIn evs = true ∧ e.generating = false
    · rw [if_pos he] at w4 d2
      obtain ⟨m, m1, rfl⟩ := w4
      obtain ⟨m', m1', m2'⟩ := d2
      rw [m1, Except.ok.injEq] at m1'
      subst m1'
      obtain ⟨old, new, units, -, b2, -, b4, -, b6⟩ := C34_file_of_an_updated_sequence s.lebs s.delimiters f hn hp s.descriptors _ views a1
      have hnew : new = bytes := descriptors_once (d := withMixes s.descriptors m) h1 h2 b2 m2'
      rw [hsame b4, hnew] at b6
      exact b6
    · rw [if_neg he] at w4 d2
      subst w4
      obtain ⟨D, units, b1, b2, b3⟩ := C34_file_of_a_sequence s.lebs s.delimiters f hn hp s.descriptors views [] (.inl rfl) a1
      have hD : D = bytes := descriptors_once (d := s.descriptors) h1 h2 b1 d2
      rw [hsame b2, hD] at b3
      exact b3

end Iamf.Props
