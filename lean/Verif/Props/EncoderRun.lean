import Verif.Props.EncoderStory
/-
  Every run of an encoder is a history as specified: the invariant.
-/
namespace Iamf.Props
open Iamf

variable {L : EncoderLib} {P : EncoderParts} {σ : Type} {K : Sink σ} {linear : Int16 → Rat}

/-- The blocks that are made and not yet written. -/
def waitingBlocks (e : IamfEncoder L P σ) : BlockKind → List BlockWithData
  | .mixGain => e.mixGain
  | .demixing => e.demixing
  | .reconGain => e.reconGain

/-- All blocks that are made. -/
def outOf (evs : List EncoderEvent) (w : BlockKind → List BlockWithData) (k : BlockKind) : List BlockWithData :=
  (unitsIn evs).flatMap (·.ofKind k) ++ w k

/-- What is known about an encoder after a history. -/
structure Inner (K : Sink σ) (linear : Int16 → Rat) (s : EncoderSetup L P σ) (definitions : List (UInt32 × ParamEntry))
    (generator : FrameGenerator L.State) (evs : List EncoderEvent) (heard : List (UnitParts × P.Frames)) (e : IamfEncoder L P σ) : Prop where
  events : ∀ before ev after, evs = before ++ ev :: after → EventOk s definitions heard before ev
  called : e.finalizeCalled = finalizedIn evs
  mixes : e.mixesFinalized = ended e
  closed : e.sequencersFinalized = ended e
  phase : e.finalizeCalled = false → e.generator.phase = .taking ∨ e.generator.order = []
  timed : TimedOk s (ticksIn evs) e.timed
  once : (ticksIn evs).Nodup
  cached : LatestOf (pendingSamples definitions evs) e.cached
  proper : ∀ b ∈ (metadataGiven definitions evs).map Prod.fst, ProperMetadata b
  blocks : BlocksInv s.override definitions (fun _ => True) e.blocks e.generator.timing ((metadataGiven definitions evs).map Prod.fst) (outOf evs (waitingBlocks e))
  recon : ∃ done waiting, givenFor definitions .reconGain evs = done ++ waiting ∧ waiting.map Prod.fst = e.blocks.reconGain ∧
    (∀ x ∈ waiting, x.2 = heard.length) ∧ MadeOf s definitions heard .reconGain done (outOf evs (waitingBlocks e) .reconGain)
  frames : ∃ fss g, FrameGenerator.calls L linear (generatorCallsIn evs) generator = .ok (fss, g) ∧ e.generator = g.retimed e.generator.timing.blocks ∧
    (fss.filter fun fs => !fs.isEmpty) = ((unitsIn evs).map (·.frames)).filter fun fs => !fs.isEmpty
  sounds : Heard s heard e.decoders e.finalizer
  heards : heard.map Prod.fst = framed evs
  sequence : if ended e then ∃ m, P.finish e.finalizer = .ok m ∧ e.sequence = withMixes s.descriptors m else e.sequence = s.descriptors
  written : ∃ views, List.Forall₂ (UnitParts.Gives s) (unitsIn evs) views ∧
    List.Forall₂ (Accepts K (.pushDescriptors s.descriptors :: views.map .pushUnit ++ (if ended e then [.updateAndClose e.sequence] else []))) s.others e.others ∧
    Accepts streamingSink (.pushDescriptors s.descriptors :: views.map .pushUnit ++ (if ended e then [.updateAndClose e.sequence] else []))
      (streamingSequencer s.lebs s.delimiters) e.streaming
  streams : if ended e then DescriptorBytes s.lebs e.sequence e.streaming.sink.descriptors else Streams s.lebs s.delimiters e.streaming e.sequence

/-! ### More sounds -/

theorem MadeOf.mono {s : EncoderSetup L P σ} {definitions : List (UInt32 × ParamEntry)} {heard : List (UnitParts × P.Frames)} {k : BlockKind}
    {given : List (BlockMetadata ObuHeader × Nat)} {blocks : List BlockWithData} (h : MadeOf s definitions heard k given blocks) (l : List (UnitParts × P.Frames)) :
    MadeOf s definitions (heard ++ l) k given blocks := by
  unfold MadeOf at h ⊢
  refine List.Forall₂.imp (fun x o hx => ?_) h
  obtain ⟨source, h1, h2⟩ := hx
  refine ⟨source, fun hk => ?_, h2⟩
  obtain ⟨y, y1, y2⟩ := h1 hk
  refine ⟨y, ?_, y2⟩
  rw [List.getElem?_append_left]
  · exact y1
  · exact (List.getElem?_eq_some_iff.mp y1).1

theorem EventOk.mono {s : EncoderSetup L P σ} {definitions : List (UInt32 × ParamEntry)} {heard : List (UnitParts × P.Frames)} {before : List EncoderEvent}
    {ev : EncoderEvent} (h : EventOk s definitions heard before ev) (l : List (UnitParts × P.Frames)) : EventOk s definitions (heard ++ l) before ev := by
  unfold EventOk at h ⊢
  cases hc : ev.call with
  | encode u => rw [hc] at h; exact h
  | finalizeEncode => rw [hc] at h; exact h
  | output rank buffer =>
    rw [hc] at h
    simp only at h ⊢
    obtain ⟨h1, h2, h3, h4, h5⟩ := h
    refine ⟨h1.mono l, h2, h3, fun p hp => ?_, h5⟩
    obtain ⟨a, b⟩ := h4 p hp
    refine ⟨?_, b⟩
    rcases a with a | ⟨a1, a2⟩
    · exact .inl a
    · refine .inr ⟨a1, a2.together, fun k => ?_, a2.tick⟩
      obtain ⟨w, w1, w2⟩ := a2.blocks k
      exact ⟨w, w1.mono l, w2⟩

/-! ### Parts that do not change -/

theorem split_snoc {α : Type} {as before after : List α} {a x : α} (h : as ++ [a] = before ++ x :: after) :
    (before = as ∧ x = a ∧ after = []) ∨ ∃ t, after = t ++ [a] ∧ as = before ++ x :: t := by
  rcases List.eq_nil_or_concat after with rfl | ⟨t, y, rfl⟩
  · have := List.append_inj' h (by simp)
    left
    simp only [List.cons.injEq, and_true] at this
    exact ⟨this.1.symm, this.2.symm, rfl⟩
  · right
    rw [List.concat_eq_append] at h ⊢
    have h' : as ++ [a] = (before ++ x :: t) ++ [y] := by rw [h]; simp
    obtain ⟨h1, h2⟩ := List.append_inj' h' (by simp)
    simp only [List.cons.injEq, and_true] at h2
    exact ⟨t, by rw [h2], h1⟩

theorem events_snoc {s : EncoderSetup L P σ} {definitions : List (UInt32 × ParamEntry)} {heard l : List (UnitParts × P.Frames)} {evs : List EncoderEvent}
    {ev : EncoderEvent} (h : ∀ before ev after, evs = before ++ ev :: after → EventOk s definitions heard before ev)
    (hev : EventOk s definitions (heard ++ l) evs ev) :
    ∀ before ev' after, evs ++ [ev] = before ++ ev' :: after → EventOk s definitions (heard ++ l) before ev' := by
  intro before ev' after he
  rcases split_snoc he with ⟨rfl, rfl, -⟩ | ⟨t, rfl, h1⟩
  · exact hev
  · exact (h _ _ _ h1).mono l

theorem BlocksInv.retimed {override : Bool} {definitions : List (UInt32 × ParamEntry)} {sources : (UInt32 → ReconSource) → Prop} {g : BlockGenerator}
    {t t' : TimingModule} {added : List (BlockMetadata ObuHeader)} {out : BlockKind → List BlockWithData}
    (h : BlocksInv override definitions sources g t added out) (ht : t'.blocks = t.blocks) : BlocksInv override definitions sources g t' added out := by
  obtain ⟨all, h1, h2⟩ := h.order
  refine ⟨h.sameOverride, h.sameDefinitions, ⟨all, ?_, h2⟩, h.made⟩
  unfold TimedBlocks at h1 ⊢
  rw [ht]
  exact h1

/-! ### Encode -/

theorem addBlocks_spec {override : Bool} {definitions : List (UInt32 × ParamEntry)} {t : TimingModule} {out : BlockKind → List BlockWithData}
    (bs : List (BlockMetadata ObuHeader)) : ∀ {g : BlockGenerator} {added : List (BlockMetadata ObuHeader)},
      BlocksInv override definitions (fun _ => True) g t added out →
      (IamfEncoder.addBlocks bs g).1 = (if bs.all (fun b => (definitions.lookup b.id).isSome) then .ok () else .error .invalidArgument) ∧
      BlocksInv override definitions (fun _ => True) (IamfEncoder.addBlocks bs g).2 t
        (added ++ bs.takeWhile fun b => (definitions.lookup b.id).isSome) out ∧
      (IamfEncoder.addBlocks bs g).2.reconGain = g.reconGain ++
        metadataOf definitions .reconGain (bs.takeWhile fun b => (definitions.lookup b.id).isSome) := by
  induction bs with
  | nil => intro g added h; exact ⟨rfl, by rw [List.takeWhile_nil, List.append_nil]; exact h, by simp [IamfEncoder.addBlocks, metadataOf]⟩
  | cons b bs ih =>
    intro g added h
    simp only [IamfEncoder.addBlocks, List.all_cons, List.takeWhile_cons]
    cases hg : g.addMetadata b with
    | error x =>
      have hx : definitions.lookup b.id = none ∧ x = .invalidArgument := by
        unfold BlockGenerator.addMetadata at hg
        rw [h.sameDefinitions] at hg
        cases hd : definitions.lookup b.id with
        | none => rw [hd] at hg; simp only [Except.error.injEq] at hg; exact ⟨rfl, hg.symm⟩
        | some d =>
          rw [hd] at hg
          simp only at hg
          cases hs : d.1.spec <;> rw [hs] at hg <;> simp at hg
      simp only [hx.1, Option.isSome_none, Bool.false_and, Bool.false_eq_true, if_false, List.append_nil, metadataOf, List.filter_nil, and_true]
      exact ⟨by rw [hx.2], h⟩
    | ok g' =>
      simp only
      have hx : ∃ d, definitions.lookup b.id = some d := by
        unfold BlockGenerator.addMetadata at hg
        rw [h.sameDefinitions] at hg
        cases hd : definitions.lookup b.id with
        | none => rw [hd] at hg; simp at hg
        | some d => exact ⟨d, rfl⟩
      obtain ⟨d, hd⟩ := hx
      obtain ⟨i1, i2, i3⟩ := ih (inv_add h b hg)
      simp only [hd, Option.isSome_some, Bool.true_and, if_true]
      refine ⟨i1, by simpa using i2, ?_⟩
      rw [i3]
      have hr : g'.reconGain = g.reconGain ++ metadataOf definitions .reconGain [b] := by
        unfold BlockGenerator.addMetadata at hg
        rw [h.sameDefinitions, hd] at hg
        simp only at hg
        cases hs : d.1.spec <;> rw [hs] at hg <;> simp only [Except.ok.injEq] at hg <;> subst hg <;>
          simp [metadataOf, hd, hs, kindOf]
      rw [hr, List.append_assoc]
      congr 1
      unfold metadataOf
      rw [← List.filter_append]
      rfl

/-! ### Writing and ending -/

theorem accepts_cons {τ : Type} {K : Sink τ} {c : SequencerCall} {cs : List SequencerCall} {q q' : Sequencer τ} (h : Accepts K (c :: cs) q q') :
    ∃ q1, q.call K c = (.ok (), q1) ∧ Accepts K cs q1 q' := by
  obtain ⟨h1, h2⟩ := h
  have e : Sequencer.calls K (c :: cs) q = ((q.call K c).1 :: (Sequencer.calls K cs (q.call K c).2).1, (Sequencer.calls K cs (q.call K c).2).2) := rfl
  rw [e] at h1 h2
  refine ⟨(q.call K c).2, ?_, fun r hr => h1 r (List.mem_cons_of_mem _ hr), h2⟩
  have := h1 _ List.mem_cons_self
  exact Prod.ext this rfl

theorem accepts_nil {τ : Type} {K : Sink τ} {q q' : Sequencer τ} (h : Accepts K [] q q') : q' = q := h.2.symm

/-- The parts of the invariant that change when something is written, or at the end. -/
theorem end_fields {s : EncoderSetup L P σ} {definitions : List (UInt32 × ParamEntry)} {generator : FrameGenerator L.State} {evs : List EncoderEvent}
    {heard : List (UnitParts × P.Frames)} {e e' : IamfEncoder L P σ} (h : Inner K linear s definitions generator evs heard e) (ev : EncoderEvent)
    (v : Option TemporalUnitView) (hE : Finishes e e') (hmono : ended e = true → ended e' = true ∧ e'.finalizer = e.finalizer ∧ v = none)
    (hA : AllAccept K (v.toList.map .pushUnit ++ closing e e') e e') (hv : List.Forall₂ (UnitParts.Gives s) ev.unit.toList v.toList) :
    e'.mixesFinalized = ended e' ∧ e'.sequencersFinalized = ended e' ∧
    (if ended e' then ∃ m, P.finish e'.finalizer = .ok m ∧ e'.sequence = withMixes s.descriptors m else e'.sequence = s.descriptors) ∧
    (∃ views, List.Forall₂ (UnitParts.Gives s) (unitsIn (evs ++ [ev])) views ∧
      List.Forall₂ (Accepts K (.pushDescriptors s.descriptors :: views.map .pushUnit ++ (if ended e' then [.updateAndClose e'.sequence] else []))) s.others e'.others ∧
      Accepts streamingSink (.pushDescriptors s.descriptors :: views.map .pushUnit ++ (if ended e' then [.updateAndClose e'.sequence] else []))
        (streamingSequencer s.lebs s.delimiters) e'.streaming) ∧
    (if ended e' then DescriptorBytes s.lebs e'.sequence e'.streaming.sink.descriptors else Streams s.lebs s.delimiters e'.streaming e'.sequence) := by
  have f1 : e'.mixesFinalized = ended e' := by
    rw [hE.mixes, h.mixes]
    cases he : ended e with
    | false => rfl
    | true => rw [(hmono he).1]; rfl
  have f2 : e'.sequencersFinalized = ended e' := by
    rw [hE.sequencers, h.closed]
    cases he : ended e with
    | false => rfl
    | true => rw [(hmono he).1]; rfl
  have hclosing : closing e e' = if ended e' && !ended e then [.updateAndClose e'.sequence] else [] := by
    unfold closing; rw [f2, h.closed]
  obtain ⟨views, w1, w2, w3⟩ := h.written
  have hseq := h.sequence
  have hstr := h.streams
  refine ⟨f1, f2, ?_, ?_, ?_⟩
  · cases he : ended e with
    | true =>
      obtain ⟨m1, m2, -⟩ := hmono he
      rw [he] at hseq
      rw [m1, m2]
      rw [hE.same (by rw [f1, h.mixes, m1, he]; rfl)]
      exact hseq
    | false =>
      rw [he] at hseq
      simp only [Bool.false_eq_true, if_false] at hseq
      cases he' : ended e' with
      | true =>
        obtain ⟨m, m1, m2⟩ := hE.replaced (by rw [f1, h.mixes, he, he']; rfl)
        rw [hseq] at m2
        exact ⟨m, m1, m2⟩
      | false =>
        simp only [Bool.false_eq_true, if_false]
        rw [hE.same (by rw [f1, h.mixes, he, he']; rfl), hseq]
  · refine ⟨views ++ v.toList, ?_, ?_⟩
    · rw [unitsIn_snoc]
      exact List.rel_append w1 hv
    · have htrace : .pushDescriptors s.descriptors :: (views ++ v.toList).map SequencerCall.pushUnit ++ (if ended e' then [.updateAndClose e'.sequence] else []) =
          (.pushDescriptors s.descriptors :: views.map .pushUnit ++ (if ended e then [.updateAndClose e.sequence] else [])) ++
            (v.toList.map .pushUnit ++ closing e e') := by
        rw [hclosing]
        cases he : ended e with
        | true =>
          obtain ⟨m1, -, m3⟩ := hmono he
          subst m3
          rw [m1, hE.same (by rw [f1, h.mixes, m1, he]; rfl)]
          simp
        | false => simp
      rw [htrace]
      exact ⟨forall₂_accepts_append w2 hA.1, w3.append hA.2⟩
  · cases he : ended e with
    | true =>
      obtain ⟨m1, -, m3⟩ := hmono he
      subst m3
      rw [he] at hstr
      simp only [if_true] at hstr
      rw [m1]
      simp only [if_true]
      have hs := accepts_nil (by
        have := hA.2
        rw [hclosing, m1, he] at this
        exact this : Accepts streamingSink [] e.streaming e'.streaming)
      rw [hs, hE.same (by rw [f1, h.mixes, m1, he]; rfl)]
      exact hstr
    | false =>
      rw [he] at hstr
      simp only [Bool.false_eq_true, if_false] at hstr
      -- after the temporal unit, if any
      have hu : ∃ q, Streams s.lebs s.delimiters q e.sequence ∧ Accepts streamingSink (closing e e') q e'.streaming := by
        have := hA.2
        cases v with
        | none => exact ⟨_, hstr, this⟩
        | some x =>
          obtain ⟨q1, a1, a2⟩ := accepts_cons this
          exact ⟨q1, (hstr.unit a1).1, a2⟩
      obtain ⟨q, q1, q2⟩ := hu
      rw [hclosing, he] at q2
      cases he' : ended e' with
      | true =>
        rw [he'] at q2
        simp only [if_true]
        obtain ⟨q3, a1, a2⟩ := accepts_cons q2
        rw [accepts_nil a2]
        exact q1.closed a1
      | false =>
        rw [he'] at q2
        simp only [Bool.false_eq_true, if_false]
        rw [accepts_nil q2, hE.same (by rw [f1, h.mixes, he, he']; rfl)]
        exact q1

/-- A call that writes nothing and does not use the frame generator. -/
theorem Inner.quiet {s : EncoderSetup L P σ} {definitions : List (UInt32 × ParamEntry)} {generator : FrameGenerator L.State} {evs : List EncoderEvent}
    {heard : List (UnitParts × P.Frames)} {e e' : IamfEncoder L P σ} (h : Inner K linear s definitions generator evs heard e) (ev : EncoderEvent)
    (hev : EventOk s definitions heard evs ev) (hu : ev.unit = none) (hg : ev.generatorCalls (finalizedIn evs) = [])
    (hcalled : e'.finalizeCalled = (e.finalizeCalled || ev.call.isFinal)) (hpending : LatestOf (pendingSamples definitions (evs ++ [ev])) e'.cached)
    (hsame : e'.timed = e.timed ∧ e'.mixGain = e.mixGain ∧ e'.demixing = e.demixing ∧ e'.reconGain = e.reconGain ∧ e'.generator = e.generator ∧
      e'.decoders = e.decoders ∧ e'.finalizer = e.finalizer)
    (hproper : ∀ b ∈ metadataTaken definitions ev.call, ProperMetadata b)
    (hblocks : BlocksInv s.override definitions (fun _ => True) e'.blocks e.generator.timing
      ((metadataGiven definitions evs).map Prod.fst ++ metadataTaken definitions ev.call) (outOf evs (waitingBlocks e)))
    (hrecon : e'.blocks.reconGain = e.blocks.reconGain ++ metadataOf definitions .reconGain (metadataTaken definitions ev.call))
    (hE : Finishes e e') (hA : AllAccept K (closing e e') e e') : Inner K linear s definitions generator (evs ++ [ev]) heard e' := by
  obtain ⟨t1, t2, t3, t4, t5, t6, t7⟩ := hsame
  have hunits : unitsIn (evs ++ [ev]) = unitsIn evs := by rw [unitsIn_snoc, hu]; simp
  have hticks : ticksIn (evs ++ [ev]) = ticksIn evs := by unfold ticksIn; rw [hunits]
  have hframed : framed (evs ++ [ev]) = framed evs := by unfold framed; rw [hunits]
  have hw : waitingBlocks e' = waitingBlocks e := by funext k; cases k <;> assumption
  have hout : outOf (evs ++ [ev]) (waitingBlocks e') = outOf evs (waitingBlocks e) := by unfold outOf; rw [hunits, hw]
  have hgen : e'.generating = e.generating := by unfold IamfEncoder.generating; rw [t1, t5]
  have hmono : ended e = true → ended e' = true := by
    unfold ended
    rw [hgen, hcalled]
    intro h
    simp only [Bool.and_eq_true] at h ⊢
    exact ⟨by rw [h.1]; rfl, h.2⟩
  obtain ⟨k1, k2, k3, k4, k5⟩ := end_fields h ev none hE (fun he => ⟨hmono he, t7, rfl⟩) hA (by rw [hu]; exact .nil)
  have hgiven : (metadataGiven definitions (evs ++ [ev])).map Prod.fst =
      (metadataGiven definitions evs).map Prod.fst ++ metadataTaken definitions ev.call := by
    rw [metadataGiven_snoc, List.map_append, List.map_map]
    congr 1
    exact List.map_id _
  refine ⟨?_, by rw [hcalled, finalizedIn_snoc, h.called], k1, k2, ?_, by rw [hticks, t1]; exact h.timed, by rw [hticks]; exact h.once, hpending, ?_, ?_, ?_, ?_,
    by rw [t6, t7]; exact h.sounds, by rw [hframed]; exact h.heards, k3, k4, k5⟩
  · have := events_snoc (l := []) h.events (by simpa using hev)
    simpa using this
  · intro hc
    rw [hcalled] at hc
    rw [t5]
    exact h.phase (Bool.or_eq_false_iff.mp hc).1
  · intro b hb
    rw [hgiven] at hb
    rcases List.mem_append.mp hb with hb | hb
    · exact h.proper b hb
    · exact hproper b hb
  · rw [hout, hgiven, t5]; exact hblocks
  · obtain ⟨done, waiting, r1, r2, r3, r4⟩ := h.recon
    refine ⟨done, waiting ++ (metadataOf definitions .reconGain (metadataTaken definitions ev.call)).map fun b => (b, (framed evs).length), ?_, ?_, ?_, ?_⟩
    · rw [givenFor_snoc, r1, List.append_assoc]
    · rw [List.map_append, r2, hrecon, List.map_map]
      congr 1
      exact List.map_id _
    · intro x hx
      rcases List.mem_append.mp hx with hx | hx
      · exact r3 x hx
      · obtain ⟨b, -, rfl⟩ := List.mem_map.mp hx
        rw [← h.heards, List.length_map]
    · rw [hout]; exact r4
  · obtain ⟨fss, g, g1, g2, g3⟩ := h.frames
    refine ⟨fss, g, ?_, by rw [t5]; exact g2, by rw [hunits]; exact g3⟩
    rw [generatorCallsIn_snoc, hg, List.append_nil]
    exact g1

/-! ### Encode and FinalizeEncode -/

theorem step_encode {s : EncoderSetup L P σ} {definitions : List (UInt32 × ParamEntry)} {generator : FrameGenerator L.State} {evs : List EncoderEvent}
    {heard : List (UnitParts × P.Frames)} {e : IamfEncoder L P σ} (h : Inner K linear s definitions generator evs heard e) (u : UnitInput)
    (hu : ∀ b ∈ u.blocks, ProperMetadata b) :
    ∃ answer, e.call K linear (.encode u) = .ok (answer, (e.encode u).2) ∧
      Inner K linear s definitions generator (evs ++ [⟨.encode u, answer, none, [], []⟩]) heard (e.encode u).2 := by
  obtain ⟨b1, b2, b3⟩ := addBlocks_spec u.blocks h.blocks
  -- what the call does
  have hfields : ∃ c, (e.encode u).2 = { e with blocks := (IamfEncoder.addBlocks u.blocks e.blocks).2, cached := c } ∧
      LatestOf (pendingSamples definitions (evs ++ [⟨.encode u, .done, none, [], []⟩])) c ∧
      e.call K linear (.encode u) = .ok (if allKnown definitions u then .done else .rejected .invalidArgument, (e.encode u).2) := by
    unfold allKnown
    simp only [IamfEncoder.call]
    unfold IamfEncoder.encode
    obtain ⟨⟨r, g'⟩, hr⟩ : ∃ x, IamfEncoder.addBlocks u.blocks e.blocks = x := ⟨_, rfl⟩
    rw [hr] at b1 ⊢
    simp only at b1
    have hp := pendingSamples_snoc definitions evs ⟨.encode u, .done, none, [], []⟩
    simp only [pendingStep, allKnown] at hp
    cases ha : u.blocks.all fun b => (definitions.lookup b.id).isSome with
    | false =>
      rw [ha] at b1
      simp only [Bool.false_eq_true, if_false] at b1
      subst b1
      simp only [ha, Bool.not_false, Bool.or_true, if_true] at hp
      exact ⟨e.cached, rfl, by rw [hp]; exact h.cached, rfl⟩
    | true =>
      rw [ha] at b1
      simp only [if_true] at b1
      subst b1
      simp only [ha, Bool.not_true, Bool.or_false, ← h.called] at hp
      cases hc : e.finalizeCalled with
      | true =>
        simp only [hc, if_true] at hp
        refine ⟨e.cached, ?_, by rw [hp]; exact h.cached, ?_⟩
        · simp only [if_true]
        · simp only [if_true]
      | false =>
        simp only [hc, Bool.false_eq_true, if_false] at hp
        refine ⟨IamfEncoder.cacheAll u.samples e.cached, ?_, ?_, ?_⟩
        · simp only [Bool.false_eq_true, if_false]
        · rw [hp]; exact cacheAll_latest u.samples h.cached
        · simp only [Bool.false_eq_true, if_false, if_true]
  obtain ⟨c, f1, f2, f3⟩ := hfields
  refine ⟨_, f3, ?_⟩
  have hf := f1
  obtain ⟨e', he'⟩ : ∃ x, x = (e.encode u).2 := ⟨_, rfl⟩
  rw [← he'] at hf ⊢
  clear he' f3 f1
  have hend : ended e' = ended e := by subst hf; rfl
  have hp : pendingSamples definitions (evs ++ [⟨.encode u, if allKnown definitions u then .done else .rejected .invalidArgument, none, [], []⟩]) =
      pendingSamples definitions (evs ++ [⟨.encode u, .done, none, [], []⟩]) := by
    rw [pendingSamples_snoc, pendingSamples_snoc]; rfl
  refine h.quiet _ ⟨rfl, rfl⟩ rfl rfl ?_ ?_ ?_ (fun b hb => hu b (List.takeWhile_subset _ hb)) ?_ ?_ ?_ ?_
  · subst hf; simp [IamfEncoderCall.isFinal]
  · rw [hp]; subst hf; exact f2
  · subst hf; exact ⟨rfl, rfl, rfl, rfl, rfl, rfl, rfl⟩
  · subst hf; exact b2
  · subst hf; exact b3
  · refine ⟨?_, ?_, fun hr => ?_, fun _ => by subst hf; rfl⟩
    · rw [hend, ← h.mixes]; subst hf; simp
    · rw [hend, ← h.closed]; subst hf; simp
    · subst hf; cases hm : e.mixesFinalized <;> rw [hm] at hr <;> cases hr
  · have : closing e e' = [] := by subst hf; unfold closing; cases e.sequencersFinalized <;> rfl
    rw [this]
    subst hf
    exact .same rfl rfl

theorem step_finalize {s : EncoderSetup L P σ} {definitions : List (UInt32 × ParamEntry)} {generator : FrameGenerator L.State} {evs : List EncoderEvent}
    {heard : List (UnitParts × P.Frames)} {e e' : IamfEncoder L P σ} (h : Inner K linear s definitions generator evs heard e) {answer : IamfEncoderAnswer}
    (hc : e.call K linear .finalizeEncode = .ok (answer, e')) :
    Inner K linear s definitions generator (evs ++ [⟨.finalizeEncode, answer, none, [], []⟩]) heard e' := by
  simp only [IamfEncoder.call, bind, except_ok, Except.ok.injEq, Prod.mk.injEq] at hc
  obtain ⟨e1, h1, rfl, rfl⟩ := hc
  have hp : pendingSamples definitions (evs ++ [⟨.finalizeEncode, .done, none, [], []⟩]) = pendingSamples definitions evs := by
    rw [pendingSamples_snoc]; rfl
  -- what the call does
  have key : (e1.timed = e.timed ∧ e1.mixGain = e.mixGain ∧ e1.demixing = e.demixing ∧ e1.reconGain = e.reconGain ∧ e1.generator = e.generator ∧
      e1.decoders = e.decoders ∧ e1.finalizer = e.finalizer) ∧ e1.blocks = e.blocks ∧ e1.cached = e.cached ∧ e1.finalizeCalled = true ∧ Finishes e e1 ∧
      AllAccept K (closing e e1) e e1 := by
    unfold IamfEncoder.finalizeEncode at h1
    cases hc : e.finalizeCalled with
    | true =>
      rw [if_pos hc, Except.ok.injEq] at h1
      subst h1
      refine ⟨⟨rfl, rfl, rfl, rfl, rfl, rfl, rfl⟩, rfl, rfl, hc, ⟨?_, ?_, fun hr => ?_, fun _ => rfl⟩, ?_⟩
      · rw [← h.mixes]; simp
      · rw [← h.closed]; simp
      · cases hm : e.mixesFinalized <;> rw [hm] at hr <;> cases hr
      · have : closing e e = [] := by unfold closing; cases e.sequencersFinalized <;> rfl
        rw [this]; exact .same rfl rfl
    | false =>
      rw [if_neg (by rw [hc]; decide)] at h1
      simp only at h1
      obtain ⟨e0, he0⟩ : ∃ x : IamfEncoder L P σ, x = { e with finalizeCalled := true } := ⟨_, rfl⟩
      rw [← he0] at h1
      have i0 : e0.blocks = e.blocks ∧ e0.demixing = e.demixing ∧ e0.mixGain = e.mixGain ∧ e0.reconGain = e.reconGain ∧ e0.cached = e.cached ∧
          e0.generator = e.generator ∧ e0.decoders = e.decoders ∧ e0.finalizer = e.finalizer ∧ e0.finalizeCalled = true ∧
          e0.timed = e.timed ∧ e0.sequence = e.sequence ∧ e0.mixesFinalized = e.mixesFinalized ∧
          e0.sequencersFinalized = e.sequencersFinalized ∧ e0.others = e.others ∧ e0.streaming = e.streaming := by
        subst he0; exact ⟨rfl, rfl, rfl, rfl, rfl, rfl, rfl, rfl, rfl, rfl, rfl, rfl, rfl, rfl, rfl⟩
      clear he0
      obtain ⟨i1, i2, i3, i4, i5, i6, i7, i8, i9, i10, i11, i12, i13, i14, i15⟩ := i0
      have step : SameInside e0 e1 ∧ Finishes e0 e1 ∧ AllAccept K (closing e0 e1) e0 e1 := by
        cases hg : e0.generating with
        | true =>
          rw [hg, if_pos rfl, Except.ok.injEq] at h1
          subst h1
          obtain ⟨g1, g2⟩ := going_parts (e := e0) (by unfold ended; rw [hg, Bool.not_true, Bool.and_false])
          exact ⟨.refl _, g1, by rw [g2]; exact .same rfl rfl⟩
        | false =>
          rw [hg, if_neg (by decide)] at h1
          simp only [bind, except_ok] at h1
          obtain ⟨e2, h2, h3⟩ := h1
          exact end_parts i9 hg (by rw [i12, i13, h.mixes, h.closed]) h2 h3
      obtain ⟨s1, s2, s3⟩ := step
      refine ⟨⟨by rw [s1.timed, i10], by rw [s1.mixGain, i3], by rw [s1.demixing, i2], by rw [s1.reconGain, i4], by rw [s1.generator, i6], by rw [s1.decoders, i7],
        by rw [s1.finalizer, i8]⟩, by rw [s1.blocks, i1], by rw [s1.cached, i5], by rw [s1.finalizeCalled, i9], .of i11 i12 i13 s2, ?_⟩
      have : closing e e1 = closing e0 e1 := by unfold closing; rw [i13]
      rw [this]
      exact (AllAccept.same (K := K) i14 i15).append s3
  obtain ⟨k1, k2, k3, k4, k5, k6⟩ := key
  refine h.quiet _ ⟨rfl, rfl⟩ rfl rfl ?_ ?_ k1 (fun b hb => (by cases hb)) ?_ ?_ k5 k6
  · rw [k4]; simp [IamfEncoderCall.isFinal]
  · rw [hp, k3]; exact h.cached
  · rw [k2]
    have : metadataTaken definitions IamfEncoderCall.finalizeEncode = [] := rfl
    rw [this, List.append_nil]
    exact h.blocks
  · rw [k2]
    have : metadataTaken definitions IamfEncoderCall.finalizeEncode = [] := rfl
    rw [this]
    simp [metadataOf]

end Iamf.Props
