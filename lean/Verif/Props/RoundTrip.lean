import Verif.Props.RoundTripCalls
import Verif.Props.RoundTripUnits
/-
  C48: what goes into an encoder comes out of a decoder.
-/
namespace Iamf.Props
open Iamf

variable {P : EncoderParts}

/-! ### Specification -/

/-- An encoder for one audio element, coded as LPCM, of which the channels `labels` are given, and which is not down-mixed.  The first `trimStart` and the
last `trimEnd` samples are to be trimmed.  The encoder writes a file, without arbitrary OBUs in temporal units. -/
structure PlainSetup (s : EncoderSetup lpcmEncoders P FileOutput) (i : UInt32) (o : Obu ElementWithData) (labels : List Label) (trimStart trimEnd : UInt32)
    (includesDelay : Bool) (f : FileOutput) : Prop where
  encoder : s.newEncoder = newLpcmEncoder
  element : s.sequence.elements = [(i, o)]
  metadata : s.metadata = [⟨i, labels, trimStart, trimEnd, false, includesDelay⟩]
  once : labels ≠ [] ∧ labels.Nodup
  downMixing : s.downMixing i = some ⟨[], o.body.data.labels, []⟩
  arbitrary : ∀ a ∈ s.sequence.arbitrary, a.insertionTick = none
  file : s.others = [fileSequencer s.lebs s.delimiters f] ∧ f.named = true ∧ f.position = none

/-- All samples of a channel. -/
def soundIn (turns : List Turn) (last : Option (Label → Samples)) (l : Label) : Samples := (turns.map Turn.block ++ last.toList).flatMap fun b => b l

/-- Blocks of equally many samples for all channels, no fewer than a frame has (`n`), except for the last, which may be of any other number of samples.
If there is no last block, all blocks are as long as a frame. -/
structure WholeBlocks (labels : List Label) (n : Nat) (turns : List Turn) (last : Option (Label → Samples)) : Prop where
  full : ∀ t ∈ turns, ∃ k, n ≤ k ∧ ∀ l ∈ labels, (t.block l).length = k
  rest : ∀ b, last = some b → ∃ k, k ≠ 0 ∧ ∀ l ∈ labels, (b l).length = k
  whole : last = none → ∀ t ∈ turns, ∀ l ∈ labels, (t.block l).length = n
  something : turns ≠ [] ∨ last ≠ none

/-! ### Descriptors -/

private theorem mem_of_lookup {α β : Type} [BEq α] [LawfulBEq α] {a : α} {b : β} : ∀ {l : List (α × β)}, l.lookup a = some b → (a, b) ∈ l
  | (k, v) :: l, h => by
    rw [List.lookup_cons] at h
    by_cases hk : a = k
    · subst hk
      simp only [beq_self_eq_true, Option.some.injEq] at h
      subst h
      exact List.mem_cons_self
    · rw [beq_eq_false_iff_ne.mpr hk] at h
      exact List.mem_cons_of_mem _ (mem_of_lookup h)

private theorem collected_layers {d : Descriptors} {n : Nat} (hd : ∀ x ∈ d.elements, x.2.data.layers.length ≤ n) {t : List (UInt32 × ParamEntry)}
    (h : collectParamDefinitions d = .ok t) {id : UInt32} {p : ParamEntry} (hl : t.lookup id = some p) : (p.2.getD (0, [])).2.length ≤ n := by
  have hins : ∀ (t t' : List (UInt32 × ParamEntry)) (p : ParamEntry), insertParam t p = .ok t' → (p.2.getD (0, [])).2.length ≤ n →
      (∀ x ∈ t, (x.2.2.getD (0, [])).2.length ≤ n) → ∀ x ∈ t', (x.2.2.getD (0, [])).2.length ≤ n := by
    intro t t' p h hp ht x hx
    unfold insertParam at h
    split at h
    · simp only [Except.ok.injEq] at h
      subst h
      rcases List.mem_append.mp hx with hx | hx
      · exact ht x hx
      · rw [List.mem_singleton] at hx
        subst hx
        exact hp
    · split at h
      · simp only [Except.ok.injEq] at h
        subst h
        exact ht x hx
      · cases h
  have hel : ∀ (l : List (ElementWithData × ParamDef)), (∀ x ∈ l, x.1.data.layers.length ≤ n) → ∀ t t' : List (UInt32 × ParamEntry),
      l.foldlM (fun t x => collectElementParam x.1 t x.2) t = .ok t' → (∀ x ∈ t, (x.2.2.getD (0, [])).2.length ≤ n) →
      ∀ x ∈ t', (x.2.2.getD (0, [])).2.length ≤ n := by
    intro l
    induction l with
    | nil => intro _ t t' h; cases h; exact _root_.id
    | cons a l ih =>
      intro hl t t' h ht
      rw [List.foldlM_cons] at h
      obtain ⟨t1, h1, h⟩ := except_ok.mp h
      refine ih (fun x hx => hl x (List.mem_cons_of_mem _ hx)) t1 t' h ?_
      unfold collectElementParam at h1
      split at h1
      · split at h1
        · exact hins _ _ _ h1 (by simp) ht
        · cases h1
      · split at h1
        · split at h1
          · obtain ⟨aux, h2, h1⟩ := except_ok.mp h1
            refine hins _ _ _ h1 ?_ ht
            unfold reconGainAux at h2
            split at h2
            · split at h2
              · cases h2
              · simp only [Except.ok.injEq] at h2
                subst h2
                simp only [Option.getD_some, List.length_take]
                have := hl a List.mem_cons_self
                omega
            · cases h2
          · cases h1
        · cases h1
          exact ht
  have hmix : ∀ (l : List ParamDef) (t t' : List (UInt32 × ParamEntry)), l.foldlM (fun t p => insertParam t (p, none)) t = .ok t' →
      (∀ x ∈ t, (x.2.2.getD (0, [])).2.length ≤ n) → ∀ x ∈ t', (x.2.2.getD (0, [])).2.length ≤ n := by
    intro l
    induction l with
    | nil => intro t t' h; cases h; exact _root_.id
    | cons a l ih =>
      intro t t' h ht
      rw [List.foldlM_cons] at h
      obtain ⟨t1, h1, h⟩ := except_ok.mp h
      exact ih t1 t' h (hins _ _ _ h1 (by simp) ht)
  unfold collectParamDefinitions at h
  obtain ⟨t1, h1, h⟩ := except_ok.mp h
  refine hmix _ _ _ h (hel _ ?_ _ _ h1 (fun x hx => (by cases hx))) (id, p) (mem_of_lookup hl)
  intro x hx
  obtain ⟨e, he, hx⟩ := List.mem_flatMap.mp hx
  obtain ⟨p, -, rfl⟩ := List.mem_map.mp hx
  exact hd e he

/-- What is known about the audio element. -/
structure PlainElement (o : ElementWithData) (c : CodecObu) (pcm : LpcmConfig) (order : List Label) : Prop where
  codec : o.codec = some c
  lpcm : c.config.decoderConfig = .lpcm pcm
  ids : o.data.labels.map Prod.fst = o.obu.substreamIds
  counts : ∀ y ∈ o.data.labels, y.2.length = 1 ∨ y.2.length = 2
  all : ∀ l ∈ order, l ≠ .omitted → ∃ y ∈ o.data.labels, l ∈ y.2
  back : ∀ y ∈ o.data.labels, ∀ l ∈ y.2, l ∈ order ∧ l ≠ .omitted
  layers : o.data.layers.length = 1

theorem plain_element {d : SequenceObus} (h : BuiltSequence d) {i : UInt32} {o : Obu ElementWithData} (ho : d.elements = [(i, o)]) {c : CodecObu}
    {pcm : LpcmConfig} {order : List Label} (hp : PlainPcm (elementBack o.body) c pcm order) : PlainElement o.body c pcm order := by
  obtain ⟨-, -, -, hgen⟩ := h.element (i, o) (by rw [ho]; exact List.mem_singleton.mpr rfl)
  obtain ⟨ht, reserved, layer, hcfg, hord⟩ := hp.channels
  have hcfg' : (carriedElement o.body.obu).config = .scalable ⟨reserved, [layer]⟩ := hcfg
  have ht' : (carriedElement o.body.obu).elementType = 0 := ht
  unfold generateElement at hgen
  rw [if_pos ht', hcfg'] at hgen
  obtain ⟨x, h1, h2⟩ := except_ok.mp hgen
  have hx : x = o.body.data := by
    split at h2
    · cases h2
    · simp only [Except.ok.injEq] at h2
      exact congrArg ElementWithData.data h2
  subst hx
  obtain ⟨k1, k2, -, -, k5, -⟩ := C27_channels _ ⟨reserved, [layer]⟩ o.body.data ⟨by simp, by simp⟩ (fun _ _ _ => rfl) h1
  refine ⟨hp.codec, hp.lpcm, k1, fun y hy => ?_, fun l hl hlo => ?_, fun y hy l hl => ?_, k5⟩
  · have : y.2.length ∈ o.body.data.labels.map (fun y => y.2.length) := List.mem_map.mpr ⟨_, hy, rfl⟩
    rw [k2] at this
    simp only [List.flatMap_cons, List.flatMap_nil, List.append_nil, List.mem_append, List.mem_replicate] at this
    omega
  · have := (C39_no_channel_is_lost _ _ layer rfl o.body.data h1 order hord).mem_iff.mp (List.mem_filter.mpr ⟨hl, by simpa using hlo⟩)
    obtain ⟨y, hy, hly⟩ := List.mem_flatMap.mp this
    exact ⟨y, hy, hly⟩
  · have := (C39_no_channel_is_lost _ _ layer rfl o.body.data h1 order hord).mem_iff.mpr (List.mem_flatMap.mpr ⟨y, hy, hl⟩)
    obtain ⟨a1, a2⟩ := List.mem_filter.mp this
    exact ⟨a1, by simpa using a2⟩

/-! ### Frames -/

private theorem good_turn {labels : List Label} {n : Nat} (hn : 0 < n) {turns : List Turn} {last : Option (Label → Samples)}
    (h : WholeBlocks labels n turns last) : (∀ t ∈ turns, GoodBlock labels t.block) ∧ ∀ b, last = some b → GoodBlock labels b := by
  have key : ∀ (b : Label → Samples) (k : Nat), k ≠ 0 → (∀ l ∈ labels, (b l).length = k) → GoodBlock labels b := by
    intro b k hk h
    refine ⟨fun l hl l' hl' => by rw [h l hl, h l' hl'], fun l hl he => hk ?_⟩
    rw [← h l hl, he, List.length_nil]
  refine ⟨fun t ht => ?_, fun b hb => ?_⟩
  · obtain ⟨k, h1, h2⟩ := h.full t ht
    exact key _ k (by omega) h2
  · obtain ⟨k, h1, h2⟩ := h.rest b hb
    exact key _ k h1 h2

/-- What the encoder made. -/
private structure PlainRun (linear : Int16 → Rat) (elements : List (UInt32 × ElementWithData)) (i : UInt32) (o : ElementWithData) (c : CodecObu) (pcm : LpcmConfig)
    (labels : List Label) (trimStart trimEnd : UInt32) (given : List (Label → Samples)) (units : List UnitParts) (announced : Bool) (over : UInt32 → Bool)
    (R F : List Round) : Prop where
  frames : ElementFrames (lpcmSpec elements) (spotOf linear (fun _ => 0) 0 (i, o) c []) trimStart.toNat trimEnd.toNat true [] labels o.data.labels
    given announced (fun _ => 0) over (fun j => ofSubstream j (units.map UnitParts.frames).flatten) R F
  over : ∀ z ∈ o.data.labels, over z.1 = true
  perm : ∀ p ∈ units, (p.frames.map fun f => f.1.substream).Perm (o.data.labels.map Prod.fst)
  alone : ∀ p ∈ units, p.blocks = [] ∧ p.tick = none
  decode : ∀ z ∈ o.data.labels, ∀ f ∈ ofSubstream z.1 (units.map UnitParts.frames).flatten, f.1.samples.length = z.2.length ∧
    ∃ d, LpcmDecoder.create pcm z.2.length c.config.numSamplesPerFrame = .ok d ∧
      d.decode f.2 = .ok (f.1.samples.map fun k => k.map fun s => kept pcm.sampleSize (normalizedToInt32 s))

private theorem plain_units {K : Sink FileOutput} {linear : Int16 → Rat} {s : EncoderSetup lpcmEncoders P FileOutput} (harb : s.ticks = [])
    {definitions : List (UInt32 × ParamEntry)} {generator : FrameGenerator lpcmEncoders.State} {evs : List EncoderEvent} {heard : List (UnitParts × P.Frames)}
    {e : IamfEncoder lpcmEncoders P FileOutput} (h : EncoderHistory K linear s definitions generator evs heard e)
    (hb : ∀ ev ∈ evs, ∀ u, ev.call = .encode u → u.blocks = []) :
    ∀ p ∈ unitsIn evs, p.frames ≠ [] ∧ p.blocks = [] ∧ p.tick = none := by
  have hgiven : ∀ l : List EncoderEvent, (∀ ev ∈ l, ev ∈ evs) → ∀ st : Nat × List (BlockMetadata ObuHeader × Nat), st.2 = [] →
      (l.foldl (givenStep definitions) st).2 = [] := by
    intro l
    induction l with
    | nil => intro _ st h; exact h
    | cons ev l ih =>
      intro hl st hst
      rw [List.foldl_cons]
      refine ih (fun ev' he => hl ev' (List.mem_cons_of_mem _ he)) _ ?_
      have : metadataTaken definitions ev.call = [] := by
        obtain ⟨ca, hca⟩ : ∃ x, ev.call = x := ⟨_, rfl⟩
        rw [hca]
        cases ca with
        | encode u =>
          simp only [metadataTaken]
          rw [hb ev (hl ev List.mem_cons_self) u hca]
          rfl
        | finalizeEncode => rfl
        | output r b => rfl
      unfold givenStep
      simp only [this, hst, List.map_nil, List.append_nil]
  intro p hp
  obtain ⟨ev, hev, hu⟩ := List.mem_filterMap.mp hp
  obtain ⟨before, after, rfl⟩ := List.append_of_mem hev
  have hok := h.events before ev after rfl
  unfold EventOk at hok
  split at hok
  · rw [hok.1] at hu; cases hu
  · rw [hok.1] at hu; cases hu
  · rcases (hok.2.2.2.1 p hu).1 with ⟨h1, -⟩ | ⟨h1, h2⟩
    · obtain ⟨t, -, ht, -⟩ := h1.tick
      rw [harb] at ht
      cases ht
    · have h0 : ∀ k, givenFor definitions k before = [] := by
        intro k
        unfold givenFor metadataGiven
        rw [hgiven before (fun x hx => List.mem_append_left _ hx) _ rfl]
        rfl
      obtain ⟨t, ht⟩ : ∃ t, p.start = some t := by
        obtain ⟨x, l, hx⟩ := List.exists_cons_of_ne_nil h1
        exact ⟨x.1.start, by unfold UnitParts.start; rw [hx]; rfl⟩
      have hk : ∀ k, p.ofKind k = [] := by
        intro k
        obtain ⟨waiting, w1, w2⟩ := h2.blocks k
        rw [h0] at w1
        unfold MadeOf at w1
        obtain ⟨q, hq⟩ : ∃ q, (unitsIn before).flatMap (·.ofKind k) ++ waiting = q := ⟨_, rfl⟩
        rw [hq] at w1
        cases w1
        rw [w2 t ht, (List.append_eq_nil_iff.mp hq).2]
        rfl
      refine ⟨h1, ?_, ?_⟩
      · have a1 := hk .mixGain
        have a2 := hk .demixing
        have a3 := hk .reconGain
        simp only [UnitParts.ofKind] at a1 a2 a3
        unfold UnitParts.blocks
        rw [a1, a2, a3]
        rfl
      · rw [h2.tick t ht, harb, if_neg (by simp)]

private theorem forall₂_mem_right {α β : Type} {r : α → β → Prop} {l : List α} {l' : List β} (h : List.Forall₂ r l l') {b : β} (hb : b ∈ l') :
    ∃ a ∈ l, r a b := by
  induction h with
  | nil => cases hb
  | cons h1 _ ih =>
    rcases List.mem_cons.mp hb with e | hb'
    · subst e
      exact ⟨_, List.mem_cons_self, h1⟩
    · obtain ⟨a, ha, hr⟩ := ih hb'
      exact ⟨a, List.mem_cons_of_mem _ ha, hr⟩

theorem flatten_nonempty {α : Type} (l : List (List α)) : (l.filter fun x => !x.isEmpty).flatten = l.flatten := by
  induction l with
  | nil => rfl
  | cons a l ih =>
    cases a with
    | nil => simpa using ih
    | cons x a => simp [ih]

/-- If all blocks are as long as a frame, nothing has to be trimmed at the end. -/
private theorem whole_pads (n : Nat) (ts : List Nat) (h : ∀ t ∈ ts, t = n) : padLengths n 0 ts = List.replicate ts.length 0 ∧ restLength n 0 ts = 0 := by
  induction ts with
  | nil => exact ⟨rfl, rfl⟩
  | cons t ts ih =>
    have ht := h t List.mem_cons_self
    subst ht
    obtain ⟨h1, h2⟩ := ih fun x hx => h x (List.mem_cons_of_mem _ hx)
    have h0 : 0 + t + (t - (0 + t)) - t = 0 := by omega
    have h3 : t - (0 + t) = 0 := by omega
    refine ⟨?_, ?_⟩
    · rw [padLengths, h0, h3, h1, List.length_cons, List.replicate_succ]
    · rw [restLength, h0, h2]

/-- The frame generator of the encoder is given what it needs. -/
theorem plain_prepared {s : EncoderSetup lpcmEncoders P FileOutput} {i : UInt32} {o : Obu ElementWithData} {labels : List Label} {trimStart trimEnd : UInt32} {includesDelay : Bool}
    {f : FileOutput} (hs : PlainSetup s i o labels trimStart trimEnd includesDelay f) {c : CodecObu} {pcm : LpcmConfig} {order : List Label} (he : PlainElement o.body c pcm order)
    (hv : ValidLpcm pcm) (hn0 : 0 < c.config.numSamplesPerFrame.toNat) (hsub : o.body.data.labels ≠ []) {definitions : List (UInt32 × ParamEntry)} {tm : TimingModule}
    (htm : TimingModule.create (s.elements.map fun e => e.2.timed) (definitions.map fun p => (p.1, p.2.1.base.rate)) = some tm) {m : ParametersManager}
    (hm : ParametersManager.create (s.elements.map fun e => (e.1, e.2.obu)) = .ok m) :
    AllPcm s.elements ∧ Prepared (lpcmSpec s.elements) newLpcmEncoder (fun _ => 0) s.metadata s.elements s.downMixing m tm := by
  have hel : s.elements = [(i, o.body)] := by unfold EncoderSetup.elements; rw [hs.element]; rfl
  have hpcm : AllPcm s.elements := by
    rw [hel]
    intro x hx
    rw [List.mem_singleton] at hx
    subst hx
    exact ⟨c, pcm, he.codec, he.lpcm, hv, he.counts⟩
  have hstamps := timing_stamps htm
  have hids : idsOf o.body = o.body.obu.substreamIds := he.ids
  have hprep : Prepared (lpcmSpec s.elements) newLpcmEncoder (fun _ => 0) s.metadata s.elements s.downMixing m tm := by
    have hsubs : (s.elements.map fun e => e.2.timed).flatMap TimedElement.substreams = idsOf o.body := by
      rw [hel, hids]
      simp [ElementWithData.timed]
    rw [hsubs] at hstamps
    refine ⟨lpcm_new hpcm, ?_, ?_, ?_, ?_, ?_, ?_, ?_, ?_, hm⟩
    · rw [hs.metadata]; exact nofun
    · rw [hs.metadata]; simp
    · rw [hel, hs.metadata]; simp
    · rw [hs.metadata]
      intro a ha
      rw [List.mem_singleton] at ha
      subst ha
      exact hs.once.1
    · rw [hel]; simp
    · rw [hel]; simpa using hstamps.1
    · rw [hel]
      intro x hx
      rw [List.mem_singleton] at hx
      subst hx
      refine ⟨c, he.codec, hn0, hsub, ⟨_, hs.downMixing, rfl, fun d hd => (by cases hd)⟩, fun a ha => ?_⟩
      have := a.trimStart.toNat_lt
      simp only [UInt32.toNat_zero]
      omega
    · rw [hel]
      intro x hx
      rw [List.mem_singleton] at hx
      subst hx
      exact hstamps.2
  exact ⟨hpcm, hprep⟩

private theorem plain_run {linear : Int16 → Rat} {s : EncoderSetup lpcmEncoders P FileOutput} {i : UInt32} {o : Obu ElementWithData} {labels : List Label}
    {trimStart trimEnd : UInt32} {includesDelay : Bool} {f : FileOutput} (hs : PlainSetup s i o labels trimStart trimEnd includesDelay f) {c : CodecObu}
    {pcm : LpcmConfig} {order : List Label} (he : PlainElement o.body c pcm order) (hv : ValidLpcm pcm) (hsub : o.body.data.labels ≠ [])
    (hn : c.config.numSamplesPerFrame ≠ 0) {turns : List Turn} {last : Option (Label → Samples)} {outs : List ((UInt32 × Label → Nat) × List UInt8)}
    (hw : WholeBlocks labels c.config.numSamplesPerFrame.toNat turns last) (hte : last = none → trimEnd = 0)
    (hroom : trimEnd.toNat + c.config.numSamplesPerFrame.toNat * (labels.length * (turns.length + 1) + 1) < 4294967296) (houts : outs ≠ [])
    {definitions : List (UInt32 × ParamEntry)} {generator : FrameGenerator lpcmEncoders.State} {evs : List EncoderEvent} {heard : List (UnitParts × P.Frames)}
    {e : IamfEncoder lpcmEncoders P FileOutput} (hd : s.generator definitions = .ok generator)
    (h : EncoderHistory fileSink linear s definitions generator evs heard e) (hc : evs.map (·.call) = encoderLoop i labels turns last outs)
    (hgen : e.generating = false) :
    finalizedIn evs = true ∧ ∃ announced over R F,
      PlainRun linear s.elements i o.body c pcm labels trimStart trimEnd (blocksIn labels turns last) (unitsIn evs) announced over R F := by
  have hn0 : 0 < c.config.numSamplesPerFrame.toNat := by
    refine Nat.pos_of_ne_zero fun h0 => hn ?_
    rw [← UInt32.toNat_inj, h0]
    rfl
  obtain ⟨hg, hgl⟩ := good_turn hn0 hw
  obtain ⟨hfin, hblockless, tp, lp, htp, hperm, hlp, hcalls⟩ := loop_calls hs.once.2 hg hgl h.events hc houts
  refine ⟨hfin, ?_⟩
  have hticks : s.ticks = [] := by
    unfold EncoderSetup.ticks
    refine List.filterMap_eq_nil_iff.mpr fun a ha => hs.arbitrary a ha
  have hunits := plain_units hticks h hblockless
  obtain ⟨fss, g, hrun, hframes, hover, -⟩ := h.frames
  have hmore : ∀ l : List ((UInt32 × Label → Nat) × List UInt8), (l.flatMap fun _ => [GeneratorCall.finalize, .output]) =
      (List.replicate l.length [GeneratorCall.finalize, .output]).flatten := by
    intro l
    induction l with
    | nil => rfl
    | cons x l ih => rw [List.flatMap_cons, ih, List.length_cons, List.replicate_succ, List.flatten_cons]
  rw [hmore] at hcalls
  have hloop : generatorCallsIn evs = loopCalls i tp lp (last.getD fun _ => []) ((List.replicate outs.tail.length [GeneratorCall.finalize, .output]).flatten) := hcalls
  rw [hloop] at hrun
  obtain ⟨calls, hcs⟩ : ∃ x, x = loopCalls i tp lp (last.getD fun _ => []) ((List.replicate outs.tail.length [GeneratorCall.finalize, .output]).flatten) := ⟨_, rfl⟩
  rw [← hcs] at hrun
  have hgenF : g.generatingFrames = false := by
    cases hb : g.generatingFrames with
    | false => rfl
    | true =>
      have := hover.mpr (.inr (.inl hb))
      rw [hgen] at this
      cases this
  -- what the frame generator is made of
  have hel : s.elements = [(i, o.body)] := by unfold EncoderSetup.elements; rw [hs.element]; rfl
  unfold EncoderSetup.generator at hd
  obtain ⟨tm, htm⟩ : ∃ x, TimingModule.create (s.elements.map fun e => e.2.timed) (definitions.map fun p => (p.1, p.2.1.base.rate)) = x := ⟨_, rfl⟩
  rw [htm] at hd
  cases tm with
  | none => cases hd
  | some tm =>
    obtain ⟨m, hm, hd⟩ := except_ok.mp hd
    rw [hs.encoder] at hd
    have hgenerate : generate lpcmEncoders linear newLpcmEncoder s.metadata s.elements s.downMixing m tm calls = .ok (generator.delay, fss, g) := by
      unfold generate
      rw [hd]
      show (FrameGenerator.calls lpcmEncoders linear calls generator).bind _ = _
      rw [hrun]
      rfl
    obtain ⟨hpcm, hprep⟩ := plain_prepared hs he hv hn0 hsub htm hm
    obtain ⟨first, hfirst⟩ : ∃ x : FrameMetadata, x = ⟨i, labels, trimStart, trimEnd, false, includesDelay⟩ := ⟨_, rfl⟩
    have hhead : s.metadata.head? = some first := by rw [hs.metadata, hfirst]; rfl
    have hlisted : listedLabels s.metadata i = some labels := by
      rw [hs.metadata]
      simp [listedLabels]
    have hlplen : lp.length ≤ labels.length := by
      rw [hlp.length_eq]
      split <;> simp
    have htplen : tp.length = turns.length := by rw [← htp, List.length_map]
    have hok : ∀ x ∈ calls, CallOk (listedLabels s.metadata) x := by
      rw [hcs]
      exact loop_ok hlisted hperm hlp _
    have hcount : addCount calls ≤ labels.length * (turns.length + 1) := by
      rw [hcs, ← htplen]
      exact loop_addCount hperm hlplen _ _
    have hroom' : ∀ x ∈ s.elements, first.trimEnd.toNat + (frameSizeOf x.2).toNat * (addCount calls + 1) < 4294967296 := by
      rw [hel, hfirst]
      intro x hx
      rw [List.mem_singleton] at hx
      subst hx
      have hfs : frameSizeOf o.body = c.config.numSamplesPerFrame := by unfold frameSizeOf; rw [he.codec]
      simp only [hfs]
      have := Nat.mul_le_mul_left c.config.numSamplesPerFrame.toNat (Nat.add_le_add_right hcount 1)
      omega
    have k1 := C44_frames_hold_the_samples (lpcm_faithful s.elements) hprep linear first hhead calls hok hroom'
    have k2 := C44_one_frame_for_every_substream (lpcm_faithful s.elements) hprep linear first hhead calls hok hroom'
    have k3 := C44_lpcm_frames_decode_to_their_samples hpcm hprep linear first hhead calls hok hroom'
    rw [hgenerate] at k1 k2 k3
    obtain ⟨⟨-, hD⟩, k1⟩ := k1
    have hdelay : generator.delay = 0 := by
      rcases hD with h0 | ⟨_, _, _, _, h0⟩ <;> exact h0
    have hmem : (i, o.body) ∈ s.elements := by rw [hel]; exact List.mem_singleton.mpr rfl
    obtain ⟨R, F, k4, -, k5⟩ := k1 _ hmem c he.codec labels hlisted _ hs.downMixing
    simp only at k4 k5
    replace k5 := k5 hgenF
    have hsubs : (s.elements.flatMap fun x => x.2.data.labels.map Prod.fst) = o.body.data.labels.map Prod.fst := by rw [hel]; simp
    replace k2 : OneFrameEach (s.elements.flatMap fun x => x.2.data.labels.map Prod.fst) fss := k2
    rw [hsubs] at k2
    have hnd : (o.body.data.labels.map Prod.fst).Nodup := by
      have := hprep.ids
      rw [hel] at this
      simpa [idsOf] using this
    have hflat : ((unitsIn evs).map UnitParts.frames).flatten = fss.flatten := by
      rw [← flatten_nonempty fss, hframes, flatten_nonempty]
    have hwhole := whole_units fss hnd k2 (R ++ F).length fun j hj => by
      obtain ⟨z, hz, rfl⟩ := List.mem_map.mp hj
      exact (k5 z hz).2
    have hone := one_at_most fss hnd k2
    have hearly : ∀ j, (ofSubstream j (fss.take (callsBefore calls)).flatten).length ≤ turns.length := by
      intro j
      rw [← htplen, hcs]
      rw [hcs] at hrun
      exact loop_early hrun fun fs hfs => hone fs hfs j
    have hblocks : blocksOf i labels (fun _ => []) calls = blocksIn labels turns last := by
      rw [hcs, ← htp]
      exact loop_blocks hs.once.1 hs.once.2 hperm (fun t ht => hg t.1 (by rw [← htp]; exact List.mem_map_of_mem ht)) hlp hgl _
    rw [hdelay, hblocks] at k4
    have hstart : first.trimStart.toNat + (if first.startIncludesDelay = true then 0 else UInt32.toNat 0) = trimStart.toNat := by
      rw [hfirst]
      split <;> simp
    rw [hstart] at k4
    rw [show first.trimEnd = trimEnd by rw [hfirst], show first.endIncludesPadding = false by rw [hfirst]] at k4
    refine ⟨flushBegun calls, fun j => isOver (g.encoders j), R, F, ⟨?_, fun z hz => (k5 z hz).1, fun p hp => ?_, fun p hp => (hunits p hp).2, fun z hz f hf => ?_⟩⟩
    · rw [hflat]
      refine ⟨k4.rounds, k4.flushed, k4.only_then, k4.even, k4.count, k4.complete, k4.fits, fun y hy j f hj => ?_⟩
      have hfr := k4.frame y hy j f hj
      suffices heq : trimmedAtEnd (spotOf linear (fun _ => 0) 0 (i, o.body) c []) trimEnd.toNat true (isOver (g.encoders y.1)) 0 (R ++ F) j =
          trimmedAtEnd (spotOf linear (fun _ => 0) 0 (i, o.body) c []) trimEnd.toNat true (isOver (g.encoders y.1))
            (ofSubstream y.1 (fss.take (callsBefore calls)).flatten).length (R ++ F) j by
        rw [heq]
        exact hfr
      have hRlen : (blocksIn labels turns last).length = R.length := k4.rounds.length_eq
      cases hlast : last with
      | some b =>
        unfold trimmedAtEnd
        have hle := hearly y.1
        have hRt : turns.length + 1 = R.length := by
          rw [← hRlen, hlast]
          simp [blocksIn]
        have hlen : (R ++ F).length = R.length + F.length := List.length_append
        refine if_congr ?_ rfl rfl
        constructor
        · rintro ⟨a1, -, a3⟩
          exact ⟨a1, by omega, a3⟩
        · rintro ⟨a1, -, a3⟩
          exact ⟨a1, Nat.zero_le _, a3⟩
      | none =>
        -- all frames are full
        obtain ⟨l0, hl0⟩ := List.exists_mem_of_ne_nil _ hs.once.1
        have hRt : ∀ r ∈ R, r.ticks = c.config.numSamplesPerFrame.toNat := by
          have hr := k4.rounds
          intro r hr'
          obtain ⟨b, hb, hm⟩ := forall₂_mem_right hr hr'
          rw [← hm.ticks l0 hl0]
          unfold blocksIn at hb
          rw [hlast] at hb
          simp only [Option.toList_none, List.append_nil, List.map_map, List.mem_map, Function.comp_apply] at hb
          obtain ⟨t, ht, rfl⟩ := hb
          dsimp only
          rw [if_pos hl0]
          exact hw.whole hlast t ht l0 hl0
        obtain ⟨hp, hr0⟩ := whole_pads c.config.numSamplesPerFrame.toNat (R.map Round.ticks) fun x hx => by
          obtain ⟨r, hr, rfl⟩ := List.mem_map.mp hx
          exact hRt r hr
        have hF : F = [] := by
          cases hFe : F with
          | nil => rfl
          | cons r F' =>
            have := k4.flushed
            rw [hFe] at this
            exact absurd hr0 this.2.1
        subst hF
        rw [List.append_nil]
        unfold trimmedAtEnd
        have hpl : padLengths (spotOf linear (fun _ => 0) 0 (i, o.body) c []).n.toNat (spotOf linear (fun _ => 0) 0 (i, o.body) c []).delay (R.map Round.ticks) =
            List.replicate (R.map Round.ticks).length 0 := hp
        have h0 : trimEnd.toNat = 0 := by rw [hte hlast]; rfl
        unfold Spot.pads
        rw [hpl, h0, List.sum_replicate_nat, Nat.mul_zero, if_pos rfl, Nat.add_zero]
        have : (List.replicate (R.map Round.ticks).length 0).getD j 0 = 0 := by
          rw [List.getD_eq_getElem?_getD, List.getElem?_replicate]
          split <;> rfl
        rw [this]
        split <;> split <;> rfl
    · refine hwhole p.frames ?_ (hunits p hp).1
      have : p.frames ∈ ((unitsIn evs).map (·.frames)).filter (fun fs => !fs.isEmpty) :=
        List.mem_filter.mpr ⟨List.mem_map_of_mem hp, by
          obtain ⟨x, l, hx⟩ := List.exists_cons_of_ne_nil (hunits p hp).1
          rw [hx]
          rfl⟩
      rw [← hframes] at this
      exact (List.mem_filter.mp this).1
    · rw [hflat] at hf
      obtain ⟨a1, d, a2, a3⟩ := k3 _ hmem c pcm he.codec he.lpcm _ hs.downMixing z hz f hf
      refine ⟨a1, d, a2, ?_⟩
      rw [a3]
      congr 1
      refine List.ext_getElem (by simp [a1]) fun k hk1 hk2 => ?_
      simp only [List.getElem_map, List.getElem_zip]
      refine List.map_congr_left fun x _ => ?_
      have hg1 : ∀ l, gainOf linear [] l = 1 := fun _ => rfl
      rw [hg1, div_one]

/-! ### Temporal units -/

/-- Temporal units of the encoder: the samples of the frames with their times, and how much of them is trimmed. -/
structure InputUnits (subs : SubstreamLabels) (n : UInt32) (labels order : List Label) (sound : Label → Samples) (trimStart trimEnd : Nat)
    (units : List UnitParts) (input : Nat → Label → Samples) (start stop : Nat → UInt32) : Prop where
  plain : ∀ p ∈ units, p.blocks = [] ∧ p.frames ≠ []
  frames : ∀ (k : Nat) p, units[k]? = some p → (p.frames.map fun f => f.1.substream).Perm (subs.map Prod.fst) ∧
    ∀ f ∈ p.frames, f.1.start = ((k * n.toNat : Nat) : Int) ∧ f.1.stop = (((k + 1) * n.toNat : Nat) : Int) ∧
      ∃ z ∈ subs, z.1 = f.1.substream ∧ f.1.samples = z.2.map (input k) ∧ f.1.trimStart = start k ∧ f.1.trimEnd = stop k
  length : ∀ k < units.length, ∀ l, (input k l).length = n.toNat
  fits : ∀ k < units.length, (start k).toNat + (stop k).toNat ≤ n.toNat
  sound : ∀ l ∈ order, l ≠ .omitted → l ∈ labels ∧ ((List.range units.length).flatMap fun k => ((input k l).drop (start k).toNat).take (n.toNat - (start k).toNat - (stop k).toNat)) =
    ((sound l).take ((sound l).length - trimEnd)).drop trimStart

/-- The temporal units that were written. -/
private structure Sounding (x : Descriptors) (n : UInt32) (pcm : LpcmConfig) (subs : SubstreamLabels) (labels order : List Label) (sound : Label → Samples)
    (trimStart trimEnd : Nat) (vs : List TemporalUnitView) (input : Nat → Label → Samples) (start stop : Nat → UInt32) : Prop where
  notEmpty : vs ≠ []
  unit : ∀ k (hk : k < vs.length), UnitOf x n k vs[k]
  plain : ∀ v ∈ vs, v.blocks = [] ∧ v.arbitrary = []
  length : ∀ k < vs.length, ∀ l, (input k l).length = n.toNat
  coded : ∀ k (hk : k < vs.length), ∀ f ∈ vs[k].frames, ∀ labels, subs.lookup f.frame.substreamId = some labels →
    CodedAs pcm n labels (fun l => (input k l).map normalizedToInt32) f.frame.audioFrame
  trims : ∀ k (hk : k < vs.length), ∀ f ∈ vs[k].frames, f.header.trimStart = start k ∧ f.header.trimEnd = stop k
  fits : ∀ k < vs.length, (start k).toNat + (stop k).toNat ≤ n.toNat
  sound : ∀ l ∈ order, l ≠ .omitted → l ∈ labels ∧ ((List.range vs.length).flatMap fun k => ((input k l).drop (start k).toNat).take (n.toNat - (start k).toNat - (stop k).toNat)) =
    ((sound l).take ((sound l).length - trimEnd)).drop trimStart

private theorem mixed_is_given {labels : List Label} {subs : SubstreamLabels} {given : List (Label → Samples)} {R : List Round}
    (h : List.Forall₂ (MixedTo [] labels subs) given R) {y : UInt32 × List Label} (hy : y ∈ subs) {l : Label} (hl : l ∈ y.2) :
    (R.flatMap fun r => r.block l) = given.flatMap (fun b => b l) ∧ (given ≠ [] → l ∈ labels) := by
  induction h with
  | nil => exact ⟨rfl, fun h => absurd rfl h⟩
  | cons h1 _ ih =>
    obtain ⟨m, hm, hb⟩ := h1.mixed
    cases hm
    have := hb y hy l hl
    simp only at this
    by_cases hin : l ∈ labels
    · rw [if_pos hin, Option.some.injEq] at this
      exact ⟨by rw [List.flatMap_cons, List.flatMap_cons, ← ih.1, this], fun _ => hin⟩
    · rw [if_neg hin] at this
      cases this

private theorem cut_length (n : Nat) (q : Samples) (bs : List Samples) {k : Nat} (hk : k < bs.length) : ((cutFrames n 0 q bs).getD k []).length = n := by
  rw [List.getD_eq_getElem?_getD, cutFrames_get, List.getElem?_eq_getElem hk]
  simp only [Option.map_some, Option.getD_some, List.length_take, padded, List.length_append, List.length_replicate]
  omega

private theorem flatMap_range {α β : Type} (l : List α) (f : α → List β) (g : Nat → List β) (h : ∀ k (hk : k < l.length), f l[k] = g k) :
    l.flatMap f = (List.range l.length).flatMap g := by
  have : l.map f = (List.range l.length).map g := by
    refine List.ext_getElem (by simp) fun k h1 h2 => ?_
    simp only [List.getElem_map, List.getElem_range]
    exact h k (by simpa using h1)
  rw [List.flatMap_def, List.flatMap_def, this]

private theorem sounding {linear : Int16 → Rat} {s : EncoderSetup lpcmEncoders P FileOutput} {i : UInt32} {o : Obu ElementWithData} {labels : List Label}
    {trimStart trimEnd : UInt32} {c : CodecObu} {pcm : LpcmConfig} {order : List Label} (hel : s.elements = [(i, o.body)])
    (he : PlainElement o.body c pcm order) (hnd : (o.body.data.labels.map Prod.fst).Nodup)
    (hn : c.config.numSamplesPerFrame.toNat + c.config.numSamplesPerFrame.toNat < 4294967296) {turns : List Turn} {last : Option (Label → Samples)}
    {units : List UnitParts} {announced : Bool} {over : UInt32 → Bool} {R F : List Round} (hsome : turns ≠ [] ∨ last ≠ none) (hlabels : labels ≠ [])
    (hbig : ∀ t ∈ turns, ∀ l ∈ labels, c.config.numSamplesPerFrame.toNat ≤ (t.block l).length) (hsub : o.body.data.labels ≠ [])
    (h : PlainRun linear s.elements i o.body c pcm labels trimStart trimEnd (blocksIn labels turns last) units announced over R F) {vs : List TemporalUnitView}
    (hvs : List.Forall₂ (UnitParts.Gives s) units vs) {x : Descriptors} (hx : x.elements = [(i, elementBack o.body)]) :
    ∃ input start stop, Sounding x c.config.numSamplesPerFrame pcm o.body.data.labels labels order (soundIn turns last) trimStart.toNat trimEnd.toNat vs input start stop ∧
      ∀ (k : Nat) p, units[k]? = some p → ∀ f ∈ p.frames, f.1.start = ((k * c.config.numSamplesPerFrame.toNat : Nat) : Int) ∧
        f.1.stop = (((k + 1) * c.config.numSamplesPerFrame.toNat : Nat) : Int) ∧
        ∃ z ∈ o.body.data.labels, z.1 = f.1.substream ∧ f.1.samples = z.2.map (input k) ∧ f.1.trimStart = start k ∧ f.1.trimEnd = stop k := by
  obtain ⟨n, hnn⟩ : ∃ n, n = c.config.numSamplesPerFrame := ⟨_, rfl⟩
  obtain ⟨S, hS⟩ : ∃ S, S = spotOf linear (fun _ => 0) 0 (i, o.body) c [] := ⟨_, rfl⟩
  have hfr := h.frames
  rw [← hS] at hfr
  have hSn : S.n = n := by rw [hS, hnn]; rfl
  have hSd : S.delay = 0 := by rw [hS]; rfl
  have hSe : S.element = i := by rw [hS]; rfl
  have hsubne : (o.body.data.labels.map Prod.fst) ≠ [] := by simpa using hsub
  have hkth := kth_frame (units.map UnitParts.frames) hnd (by
    intro fs hfs
    obtain ⟨p, hp, rfl⟩ := List.mem_map.mp hfs
    exact h.perm p hp)
  have hlenU : ∀ z ∈ o.body.data.labels, units.length = (R ++ F).length := by
    intro z hz
    have h1 := (hfr.complete z hz (h.over z hz)).1
    have h2 := (hkth z.1 (List.mem_map_of_mem hz)).1
    rw [List.length_map] at h2
    omega
  have hlenv : units.length = vs.length := hvs.length_eq
  obtain ⟨z0, hz0⟩ := List.exists_mem_of_ne_nil _ hsub
  have hN := hlenU z0 hz0
  have hRlen : (blocksIn labels turns last).length = R.length := hfr.rounds.length_eq
  have hgne : blocksIn labels turns last ≠ [] := by
    unfold blocksIn
    rcases hsome with h1 | h1
    · simp [h1]
    · cases last with
      | none => exact absurd rfl h1
      | some b => simp
  -- each frame
  have hframe : ∀ (k : Nat) (p : UnitParts), units[k]? = some p → ∀ f ∈ p.frames, ∃ z ∈ o.body.data.labels, z.1 = f.1.substream ∧
      (ofSubstream z.1 (units.map UnitParts.frames).flatten)[k]? = some f ∧
      IsFrame (lpcmSpec s.elements) S trimStart.toNat (R ++ F) (trimmedAtEnd S trimEnd.toNat true true 0 (R ++ F) k) z.1 z.2 k f := by
    intro k p hk f hf
    have hmem := (h.perm p (List.mem_of_getElem? hk)).mem_iff.mp (List.mem_map_of_mem (f := fun f : GenFrame × List UInt8 => f.1.substream) hf)
    obtain ⟨z, hz, hzf⟩ := List.mem_map.mp hmem
    have hkf := (hkth z.1 (List.mem_map_of_mem hz)).2 k p.frames (by rw [List.getElem?_map, hk]; rfl) f hf hzf.symm
    have := hfr.frame z hz k f hkf
    rw [h.over z hz] at this
    exact ⟨z, hz, hzf, hkf, this⟩
  obtain ⟨input, hinput⟩ : ∃ input : Nat → Label → Samples, input = fun k l => (cutFrames n.toNat 0 [] ((R ++ F).map fun r => r.block l)).getD k [] := ⟨_, rfl⟩
  obtain ⟨start, hstart⟩ : ∃ start : Nat → UInt32, start = fun k => UInt32.ofNat (min n.toNat (trimStart.toNat - k * n.toNat)) := ⟨_, rfl⟩
  obtain ⟨stop, hstop⟩ : ∃ stop : Nat → UInt32, stop = fun k => UInt32.ofNat (trimmedAtEnd S trimEnd.toNat true true 0 (R ++ F) k) := ⟨_, rfl⟩
  have htr : ∀ {k : Nat} {z : UInt32 × List Label} {f : GenFrame × List UInt8},
      IsFrame (lpcmSpec s.elements) S trimStart.toNat (R ++ F) (trimmedAtEnd S trimEnd.toNat true true 0 (R ++ F) k) z.1 z.2 k f →
      f.1.trimStart = start k ∧ f.1.trimEnd = stop k ∧ f.1.samples = z.2.map (input k) := by
    intro k z f hf
    refine ⟨?_, ?_, ?_⟩
    · rw [hstart]
      have := hf.trimStart
      rw [hSn] at this
      simp only
      rw [← this, UInt32.ofNat_toNat]
    · rw [hstop]
      simp only
      rw [← hf.trimEnd, UInt32.ofNat_toNat]
    · rw [hf.samples, hSn, hSd, hinput]
      rfl
  -- each view
  have hview : ∀ (k : Nat) (hk : k < vs.length), ∃ p, units[k]? = some p ∧ p.Gives s vs[k] := by
    intro k hk
    have := List.forall₂_iff_get.mp hvs
    have hku : k < units.length := by omega
    exact ⟨units[k], List.getElem?_eq_getElem hku, this.2 k hku hk⟩
  have hvf : ∀ (k : Nat) (hk : k < vs.length), ∃ p, units[k]? = some p ∧ p.Gives s vs[k] ∧ vs[k].blocks = [] ∧ vs[k].arbitrary = [] ∧
      vs[k].frames.Perm (p.frames.map (GenFrame.withData s.elements)) := by
    intro k hk
    obtain ⟨p, hp, hg⟩ := hview k hk
    obtain ⟨v1, v2, v3, -⟩ := C20_view_is_sorted_and_complete _ _ _ _ hg
    obtain ⟨a1, a2⟩ := h.alone p (List.mem_of_getElem? hp)
    rw [a1] at v1
    refine ⟨p, hp, hg, v1.eq_nil, ?_, v2⟩
    rw [v3]
    unfold UnitParts.arbitrary
    rw [a2]
    rfl
  have hdata : ∀ f : GenFrame × List UInt8, f.1.element = i → (GenFrame.withData s.elements f).element = some (i, some n) := by
    intro f hf
    simp only [GenFrame.withData, hf, hel, List.lookup_cons, beq_self_eq_true, Option.bind_some, he.codec, Option.map_some, ← hnn]
  have hone : ∀ (k : Nat) (hk : k < vs.length), ∀ f ∈ vs[k].frames, ∃ g z, z ∈ o.body.data.labels ∧ f = GenFrame.withData s.elements g ∧ z.1 = g.1.substream ∧
      g ∈ ofSubstream z.1 (units.map UnitParts.frames).flatten ∧
      IsFrame (lpcmSpec s.elements) S trimStart.toNat (R ++ F) (trimmedAtEnd S trimEnd.toNat true true 0 (R ++ F) k) z.1 z.2 k g := by
    intro k hk f hf
    obtain ⟨p, hp, -, -, -, hv⟩ := hvf k hk
    obtain ⟨g, hg, rfl⟩ := List.mem_map.mp (hv.mem_iff.mp hf)
    obtain ⟨z, z1, z2, z3, z4⟩ := hframe k p hp g hg
    exact ⟨g, z, z1, rfl, z2, List.mem_of_getElem? z3, z4⟩
  refine ⟨input, start, stop, ⟨?_, fun k hk => ?_, fun v hv => ?_, fun k hk l => ?_, fun k hk f hf ls hls => ?_, fun k hk f hf => ?_, fun k hk => ?_,
    fun l hl hlo => ?_⟩, fun k p hk f hf => (by
      obtain ⟨z, z1, z2, -, z4⟩ := hframe k p hk f hf
      obtain ⟨t1, t2, t3⟩ := htr z4
      have b1 := z4.start
      have b2 := z4.stop
      rw [hSn, hnn] at b1 b2
      exact ⟨b1, b2, z, z1, z2, t3, t1, t2⟩)⟩
  · intro h0
    rw [h0] at hlenv
    have hpos := List.length_pos_iff.mpr hgne
    have : (R ++ F).length = R.length + F.length := List.length_append
    simp only [List.length_nil] at hlenv
    omega
  · obtain ⟨p, hp, hg, v1, v2, v3⟩ := hvf k hk
    refine ⟨?_, fun f hf => ?_, ?_, ?_, ?_⟩
    · refine (v3.map _).trans ?_
      rw [List.map_map]
      have h1 := h.perm p (List.mem_of_getElem? hp)
      rw [he.ids] at h1
      have h2 : substreamIds x = o.body.obu.substreamIds := by
        unfold substreamIds
        rw [hx]
        simp [elementBack, carriedElement]
      rw [h2]
      exact h1
    · obtain ⟨g, z, z1, rfl, z2, z3, z4⟩ := hone k hk f hf
      refine ⟨?_, ?_, ⟨?_, ?_⟩, (i, elementBack o.body), ?_, ?_, ?_⟩
      · rfl
      · show g.1.trimFlag = true ∨ (g.1.trimEnd = 0 ∧ g.1.trimStart = 0)
        rw [z4.flag]
        by_cases b1 : g.1.trimEnd = 0
        · by_cases b2 : g.1.trimStart = 0
          · exact .inr ⟨b1, b2⟩
          · exact .inl (by simp [b2])
        · exact .inl (by simp [b1])
      · have := z4.start
        rw [hSn, hnn] at this
        exact this
      · have := z4.stop
        rw [hSn, hnn] at this
        exact this
      · rw [hx]; exact List.mem_singleton.mpr rfl
      · show g.1.substream ∈ o.body.obu.substreamIds
        rw [← he.ids, ← z2]
        exact List.mem_map_of_mem z1
      · rw [← hnn]
        exact hdata g (by rw [z4.element, hSe])
    · rw [v1]; exact List.nodup_nil
    · rw [v1]; intro b hb; cases hb
    · rw [v2]; intro b hb; cases hb
  · obtain ⟨k, hk, rfl⟩ := List.mem_iff_getElem.mp hv
    obtain ⟨p, hp, hg, v1, v2, v3⟩ := hvf k hk
    exact ⟨v1, v2⟩
  · rw [hinput, ← hnn]
    exact cut_length _ _ _ (by rw [List.length_map]; omega)
  · obtain ⟨g, z, z1, rfl, z2, z3, z4⟩ := hone k hk f hf
    have hz : z.2 = ls := by
      have := lookup_of_nodup hnd z1
      rw [z2] at this
      exact Option.some.inj (this.symm.trans hls)
    subst hz
    obtain ⟨a1, d, a2, a3⟩ := h.decode z z1 g z3
    intro d' hd'
    rw [a2, Except.ok.injEq] at hd'
    subst hd'
    show d.decode g.2 = _
    rw [a3, (htr z4).2.2, List.map_map]
    congr 1
    refine List.map_congr_left fun l _ => ?_
    simp only [Function.comp_apply, List.map_map]
    rfl
  · obtain ⟨g, z, z1, rfl, z2, z3, z4⟩ := hone k hk f hf
    exact ⟨(htr z4).1, (htr z4).2.1⟩
  · obtain ⟨p, hp, hg, v1, v2, v3⟩ := hvf k hk
    have hpf : p.frames ≠ [] := by
      intro h0
      have := (h.perm p (List.mem_of_getElem? hp)).length_eq
      rw [h0] at this
      simp only [List.map_nil, List.length_nil, List.length_map] at this
      exact hsub (List.length_eq_zero_iff.mp this.symm)
    obtain ⟨g, gs, hgs⟩ := List.exists_cons_of_ne_nil hpf
    obtain ⟨z, z1, z2, z3, z4⟩ := hframe k p hp g (by rw [hgs]; exact List.mem_cons_self)
    obtain ⟨t1, t2, -⟩ := htr z4
    have hacc := (C20_accepted_iff_consistent p.blocks (GenFrame.withData s.elements g) (gs.map (GenFrame.withData s.elements)) (p.arbitrary s) i n
      (hdata g (by rw [z4.element, hSe]))).mp ⟨vs[k], by
        have : TemporalUnitView.create p.blocks (p.frames.map (GenFrame.withData s.elements)) (p.arbitrary s) = .ok vs[k] := hg
        rw [hgs] at this
        exact this⟩
    have hle : g.1.trimStart + g.1.trimEnd ≤ n := hacc.2
    rw [UInt32.le_iff_toNat_le, UInt32.toNat_add] at hle
    have f1 := hfr.fits z z1 g (List.mem_of_getElem? z3)
    rw [hSn, UInt32.le_iff_toNat_le] at f1
    have f2 : g.1.trimStart.toNat ≤ n.toNat := by
      rw [z4.trimStart, hSn]
      exact Nat.min_le_left _ _
    rw [← t1, ← t2, ← hnn]
    rw [← hnn] at hn
    rwa [Nat.mod_eq_of_lt (by omega)] at hle
  · obtain ⟨z, hz, hlz⟩ := he.all l hl hlo
    obtain ⟨q, hq⟩ := List.getElem?_of_mem hlz
    obtain ⟨m1, m2⟩ := mixed_is_given hfr.rounds hz hlz
    have hin := m2 hgne
    have hsound : ((blocksIn labels turns last).flatMap fun b => b l) = soundIn turns last l := by
      unfold blocksIn soundIn
      rw [List.flatMap_map]
      simp only [if_pos hin]
    have key := C44_trimmed_frames_are_the_samples hfr (by rw [hSd]; exact Nat.zero_le _) hlabels (by
        intro b hb l' hl'
        rw [hSn, hnn]
        unfold blocksIn at hb
        rw [← List.map_dropLast] at hb
        obtain ⟨b', hb', rfl⟩ := List.mem_map.mp hb
        simp only [if_pos hl']
        cases last with
        | none =>
          rw [Option.toList_none, List.append_nil] at hb'
          obtain ⟨t, ht, rfl⟩ := List.mem_map.mp (List.dropLast_subset _ hb')
          exact hbig t ht l' hl'
        | some b0 =>
          rw [Option.toList_some, List.dropLast_concat] at hb'
          obtain ⟨t, ht, rfl⟩ := List.mem_map.mp hb'
          exact hbig t ht l' hl') z hz (h.over z hz) (fun hne => List.length_pos_iff.mpr hne) q l hq
    rw [m1, hsound, hSd, Nat.sub_zero] at key
    rw [← key]
    refine ⟨hin, ?_⟩
    unfold keptSamples
    have hlo' : (ofSubstream z.1 (units.map UnitParts.frames).flatten).length = vs.length := by
      rw [(hkth z.1 (List.mem_map_of_mem hz)).1, List.length_map, hlenv]
    rw [← hlo']
    refine (flatMap_range _ _ _ fun k hk => ?_).symm
    have hfrk := hfr.frame z hz k _ (List.getElem?_eq_getElem hk)
    rw [h.over z hz] at hfrk
    obtain ⟨t1, t2, t3⟩ := htr hfrk
    unfold keptIn
    rw [t1, t2, t3, List.getD_eq_getElem?_getD, List.getElem?_map, hq]
    simp only [Option.map_some, Option.getD_some]
    have hl' : (input k l).length = n.toNat := by
      rw [hinput]
      exact cut_length _ _ _ (by rw [List.length_map]; omega)
    rw [hl', ← hnn, List.drop_take, Nat.sub_right_comm]

/-! ### C48 -/

/-- The file that the encoder writes, and what it is decoded to. -/
theorem encoded_parts (M : GainMath Rat) (hM : M.linear 0 = 1) (E : RenderEnv) (hE : GoodEnv E) (C : Codecs) (linear : Int16 → Rat)
    -- the encoder
    (s : EncoderSetup lpcmEncoders P FileOutput) (i : UInt32) (o : Obu ElementWithData) (labels : List Label) (trimStart trimEnd : UInt32) (includesDelay : Bool)
    (f : FileOutput) (hs : PlainSetup s i o labels trimStart trimEnd includesDelay f)
    -- how it is used
    (turns : List Turn) (last : Option (Label → Samples)) (outs : List ((UInt32 × Label → Nat) × List UInt8)) (houts : outs ≠ [])
    (e0 e : IamfEncoder lpcmEncoders P FileOutput) (answers : List IamfEncoderAnswer) (h0 : s.create fileSink = .ok e0)
    (h1 : e0.calls fileSink linear (encoderLoop i labels turns last outs) = .ok (answers, e)) (hdone : e.generating = false)
    -- the descriptors that are written in the end
    (m : List (Obu MixPresentation)) (hm : P.finish e.finalizer = .ok m) (hbuilt : BuiltSequence (withMixes s.descriptors m)) (x : Descriptors)
    (hx : SameDescriptors (withMixes s.descriptors m) x) (n : UInt32) (hn : n ≠ 0) (hplay : Playable x n) (e' : ElementWithData)
    (he' : x.elements.lookup i = some e') (c : CodecObu) (pcm : LpcmConfig) (order : List Label) (hp : PlainPcm e' c pcm order) (hpcm : ValidLpcm pcm)
    (hmix : ∀ p ∈ x.mixes, ∀ b ∈ p.subMixes, ∃ a, b.elements = [a] ∧ a.id = i ∧ NoGain a.mixGain c.outputRate ∧ NoGain b.outputMixGain c.outputRate)
    -- the samples
    (hw : WholeBlocks labels n.toNat turns last) (hte : last = none → trimEnd = 0)
    (hroom : trimEnd.toNat + n.toNat * (labels.length * (turns.length + 1) + 1) < 4294967296) (total : Nat)
    (htotal : ∀ l ∈ labels, (soundIn turns last l).length = total)
    -- the decoder
    (ds : DecoderSettings) (hst : ds.sampleType = 1 ∨ ds.sampleType = 2)
    (p0 : Processor (standardBackend M E C ⟨true, true⟩)) (hi : initAll ds x = .ok p0) (sys r : UInt8) (hlay : p0.layout = ⟨2, .soundSystem sys r⟩)
    (hfit : Fits order (systemPlaces sys)) :
    ∃ (descriptors : List UInt8) (units : List (List UInt8)) (views : List TemporalUnitView) (xs : List Rendered) (bs : List (List UInt8)),
      (e.others.map fun q => q.sink.disk) = [some (descriptors ++ units.flatten)] ∧
      Transmitted (withMixes s.descriptors m) x n views s.delimiters ∧ DescriptorBytes s.lebs (withMixes s.descriptors m) descriptors ∧
      List.Forall₂ (UnitBytes s.lebs s.delimiters) views units ∧
      Renders (standardBackend M E C ⟨true, true⟩) p0.renderer (unitsBack x n 0 [] views) xs ∧ List.Forall₂ (OutputBytes ds.sampleType) xs bs ∧
      (∀ b ∈ bs, b.length ≤ order.length * n.toNat * (2 * ds.sampleType)) ∧
      (∀ y ∈ xs, y.length = order.length ∧ ∃ ticks ≤ n.toNat, ∀ c ∈ y, c.length = ticks) ∧
      DeliveredUnit pcm.sampleSize ds.sampleType order (fun l => (soundIn turns last l).map normalizedToInt32) trimStart.toNat
        (total - trimEnd.toNat - trimStart.toNat) bs.flatten := by
  -- the element
  have hxe : x.elements = [(i, elementBack o.body)] := by
    have := hx.elements
    rw [show (withMixes s.descriptors m).elements = s.sequence.elements from rfl, hs.element] at this
    exact List.perm_singleton.mp this
  have hee : e' = elementBack o.body := by
    rw [hxe, List.lookup_cons, beq_self_eq_true] at he'
    exact (Option.some.inj he').symm
  subst hee
  have hele := plain_element hbuilt hs.element hp
  have hnc : c.config.numSamplesPerFrame = n := hplay.frameSize _ (by rw [hxe]; exact List.mem_singleton.mpr rfl) c hp.codec
  subst hnc
  have hel : s.elements = [(i, o.body)] := by unfold EncoderSetup.elements; rw [hs.element]; rfl
  have hids : substreamIds x = o.body.obu.substreamIds := by
    unfold substreamIds
    rw [hxe]
    simp [elementBack, carriedElement]
  have hsub : o.body.data.labels ≠ [] := by
    intro h
    have := hplay.streams
    rw [hids, ← hele.ids, h] at this
    exact this rfl
  -- the run of the encoder
  obtain ⟨definitions, generator, evs, heard, g1, g2, g3, g4, hist⟩ := C47_runs_are_histories fileSink linear s h0 _ h1 (by
      intro u hu b hb
      unfold encoderLoop at hu
      rcases List.mem_append.mp hu with hu | hu
      · obtain ⟨t, -, ht⟩ := List.mem_flatMap.mp hu
        rcases List.mem_cons.mp ht with ht | ht
        · cases ht
          cases hb
        · rw [List.mem_singleton] at ht
          cases ht
      · rcases List.mem_append.mp hu with hu | hu
        · obtain ⟨b', -, ht⟩ := List.mem_map.mp hu
          cases ht
          cases hb
        · rcases List.mem_cons.mp hu with hu | hu
          · cases hu
          · obtain ⟨b', -, ht⟩ := List.mem_map.mp hu
            cases ht) (by
      intro _ definitions hd id d hl
      unfold EncoderSetup.definitions at hd
      have := collected_layers (n := 1) (by
        intro y hy
        rw [hel, List.mem_singleton] at hy
        subst hy
        exact Nat.le_of_eq hele.layers) hd hl
      intro j below layer _ hj
      have := (List.getElem?_eq_some_iff.mp hj).1
      omega)
  obtain ⟨hfin, announced, over, R, F, hrun⟩ := plain_run hs hele hpcm hsub hn hw hte hroom houts g2 hist g3 hdone
  obtain ⟨views, lastCalls, w1, w2, -, w4⟩ := hist.written
  rw [if_pos ⟨hfin, hdone⟩] at w4
  obtain ⟨m', hm', rfl⟩ := w4
  rw [hm, Except.ok.injEq] at hm'
  subst hm'
  have hnd : (o.body.data.labels.map Prod.fst).Nodup := by
    unfold EncoderSetup.generator at g2
    obtain ⟨tm, htm⟩ : ∃ x, TimingModule.create (s.elements.map fun e => e.2.timed) (definitions.map fun p => (p.1, p.2.1.base.rate)) = x := ⟨_, rfl⟩
    rw [htm] at g2
    cases tm with
    | none => cases g2
    | some tm =>
      have := (timing_stamps htm).1
      rw [hel] at this
      simp only [ElementWithData.timed, List.map_cons, List.map_nil, List.flatMap_cons, List.flatMap_nil, List.append_nil] at this
      rw [hele.ids]
      exact this
  have hnn : c.config.numSamplesPerFrame.toNat + c.config.numSamplesPerFrame.toNat < 4294967296 := by
    have h1 : 1 ≤ labels.length := List.length_pos_iff.mpr hs.once.1
    have h2 : 1 * 1 ≤ labels.length * (turns.length + 1) := Nat.mul_le_mul h1 (by omega)
    have h3 := Nat.mul_le_mul_left c.config.numSamplesPerFrame.toNat (show 2 ≤ labels.length * (turns.length + 1) + 1 by omega)
    omega
  obtain ⟨input, start, stop, hsnd, -⟩ := sounding hel hele hnd hnn hw.something hs.once.1 (fun t ht l hl => by
    obtain ⟨k, k1, k2⟩ := hw.full t ht
    rw [k2 l hl]
    exact k1) hsub hrun w1 hxe
  -- the file
  obtain ⟨hf1, hf2, hf3⟩ := hs.file
  rw [hf1] at w2
  obtain ⟨others, hothers⟩ : ∃ x, e.others = x := ⟨_, rfl⟩
  rw [hothers] at w2
  cases w2 with
  | cons a b =>
    cases b
    rename_i q
    obtain ⟨a1, rfl⟩ := a
    obtain ⟨old, new, units, -, b2, -, b4, -, b6⟩ := C34_file_of_an_updated_sequence s.lebs s.delimiters f hf2 hf3 s.descriptors _ views a1
    have htr : Transmitted (withMixes s.descriptors m) x c.config.numSamplesPerFrame views s.delimiters := by
      refine ⟨hbuilt, hx, hn, hplay, hsnd.unit, hsnd.notEmpty, .inr fun u hu a ha => ?_⟩
      rw [(hsnd.plain u (List.mem_of_mem_head? hu)).2] at ha
      cases ha
    obtain ⟨xs, bs, lr, lf, l1, l2, l3⟩ := lossless_outputs M hM E hE C ⟨true, true⟩ ds hst _ x _ views s.delimiters htr i _ he' c pcm order hp hpcm hmix p0 hi sys r hlay hfit
      (fun u hu => (hsnd.plain u hu).1) (fun k l => (input k l).map normalizedToInt32) (fun k hk l _ => by rw [List.length_map]; exact hsnd.length k hk l)
      (fun k hk f hf ls hls => hsnd.coded k hk f hf ls hls) start stop (fun k hk f hf _ => hsnd.trims k hk f hf)
      (fun k => c.config.numSamplesPerFrame.toNat - (start k).toNat - (stop k).toNat)
      (fun k hk => by
        have := hsnd.fits k hk
        simp only [if_true]
        omega)
    simp only [if_true] at l2
    have hbs : ∀ b ∈ bs, b.length ≤ order.length * c.config.numSamplesPerFrame.toNat * (2 * ds.sampleType) := by
      intro b hb
      obtain ⟨k, hk, rfl⟩ := List.mem_iff_getElem.mp hb
      rw [(l2 k hk).1]
      exact Nat.mul_le_mul_right _ (Nat.mul_le_mul_left _ (by omega))
    refine ⟨new, units, views, xs, bs, by rw [hothers]; simp only [List.map_cons, List.map_nil, List.cons.injEq, and_true]; exact b6, htr, b2, b4, lr, lf, hbs, l3, ?_⟩
    have hall := delivered_all (start := fun k => (start k).toNat) (ticks := fun k => c.config.numSamplesPerFrame.toNat - (start k).toNat - (stop k).toNat) bs 0
      (by intro k hk; simpa using l2 k hk) (by
        intro k hk l _ _
        have hk' : 0 + k < views.length := by omega
        have := hsnd.fits (0 + k) hk'
        rw [List.length_map, hsnd.length (0 + k) hk' l]
        omega)
    -- what was given
    have hW : ∀ l ∈ order, l ≠ .omitted → l ∈ labels ∧
        ((List.range bs.length).flatMap fun k => (((input (0 + k) l).map normalizedToInt32).drop (start (0 + k)).toNat).take
          (c.config.numSamplesPerFrame.toNat - (start (0 + k)).toNat - (stop (0 + k)).toNat)) =
        (((soundIn turns last l).take ((soundIn turns last l).length - trimEnd.toNat)).drop trimStart.toNat).map normalizedToInt32 := by
      intro l hl hlo
      obtain ⟨s1, s2⟩ := hsnd.sound l hl hlo
      refine ⟨s1, ?_⟩
      rw [← s2, l1, List.map_flatMap]
      simp only [Nat.zero_add, List.map_take, List.map_drop]
    have hticks : ((List.range bs.length).map fun k => c.config.numSamplesPerFrame.toNat - (start (0 + k)).toNat - (stop (0 + k)).toNat).sum =
        total - trimEnd.toNat - trimStart.toNat := by
      obtain ⟨y, hy⟩ := List.exists_mem_of_ne_nil _ hsub
      obtain ⟨l, hl⟩ : ∃ l, l ∈ y.2 := List.exists_mem_of_length_pos (by rcases hele.counts y hy with h | h <;> omega)
      obtain ⟨c1, c2⟩ := hele.back y hy l hl
      obtain ⟨s1, s2⟩ := hW l c1 c2
      have := congrArg List.length s2
      rw [List.length_flatMap, List.length_map, List.length_drop, List.length_take, htotal l s1] at this
      rw [show total - trimEnd.toNat - trimStart.toNat = min (total - trimEnd.toNat) total - trimStart.toNat by omega, ← this]
      congr 1
      refine List.map_congr_left fun k hk => ?_
      rw [List.mem_range] at hk
      have hk' : 0 + k < views.length := by omega
      have := hsnd.fits (0 + k) hk'
      rw [List.length_take, List.length_drop, List.length_map, hsnd.length (0 + k) hk' l]
      omega
    rw [hticks] at hall
    refine delivered_congr hall fun l hl hlo j hj => ?_
    obtain ⟨s1, s2⟩ := hW l hl hlo
    rw [s2, Nat.zero_add, List.getD_eq_getElem?_getD, List.getD_eq_getElem?_getD, List.getElem?_map, List.getElem?_map, List.getElem?_drop, List.getElem?_take_of_lt]
    rw [htotal l s1]
    omega

/-- **C48.** What goes into an encoder comes out of a decoder.  An encoder for one audio element coded as LPCM is used as documented: samples for all
channels are given with `Encode`, temporal units taken with `OutputTemporalUnit`, in turns; at the end `FinalizeEncode` is called, and `OutputTemporalUnit` until
no more temporal units are to come.  If none of this fails, a file was written, and if that file is given to a decoder, in pieces of any sizes, with any calls in
between, then the decoder reports no error, and returns, in any number of pieces, exactly the samples that were given to the encoder, without those that were to be trimmed,
for each channel of the layout; up to the bits that the format of the samples in the file, and the format of the output, do not have. -/
theorem C48_what_goes_in_comes_out (M : GainMath Rat) (hM : M.linear 0 = 1) (E : RenderEnv) (hE : GoodEnv E) (C : Codecs) (linear : Int16 → Rat)
    -- the encoder
    (s : EncoderSetup lpcmEncoders P FileOutput) (i : UInt32) (o : Obu ElementWithData) (labels : List Label) (trimStart trimEnd : UInt32) (includesDelay : Bool)
    (f : FileOutput) (hs : PlainSetup s i o labels trimStart trimEnd includesDelay f)
    -- how it is used
    (turns : List Turn) (last : Option (Label → Samples)) (outs : List ((UInt32 × Label → Nat) × List UInt8)) (houts : outs ≠ [])
    (e0 e : IamfEncoder lpcmEncoders P FileOutput) (answers : List IamfEncoderAnswer) (h0 : s.create fileSink = .ok e0)
    (h1 : e0.calls fileSink linear (encoderLoop i labels turns last outs) = .ok (answers, e)) (hdone : e.generating = false)
    -- the descriptors that are written in the end
    (m : List (Obu MixPresentation)) (hm : P.finish e.finalizer = .ok m) (hbuilt : BuiltSequence (withMixes s.descriptors m)) (x : Descriptors)
    (hx : SameDescriptors (withMixes s.descriptors m) x) (n : UInt32) (hn : n ≠ 0) (hplay : Playable x n) (e' : ElementWithData)
    (he' : x.elements.lookup i = some e') (c : CodecObu) (pcm : LpcmConfig) (order : List Label) (hp : PlainPcm e' c pcm order) (hpcm : ValidLpcm pcm)
    (hmix : ∀ p ∈ x.mixes, ∀ b ∈ p.subMixes, ∃ a, b.elements = [a] ∧ a.id = i ∧ NoGain a.mixGain c.outputRate ∧ NoGain b.outputMixGain c.outputRate)
    -- the samples
    (hw : WholeBlocks labels n.toNat turns last) (hte : last = none → trimEnd = 0)
    (hroom : trimEnd.toNat + n.toNat * (labels.length * (turns.length + 1) + 1) < 4294967296) (total : Nat)
    (htotal : ∀ l ∈ labels, (soundIn turns last l).length = total)
    -- the decoder
    (ds : DecoderSettings) (ha : ds.android = false) (hst : ds.sampleType = 1 ∨ ds.sampleType = 2)
    (p0 : Processor (standardBackend M E C ⟨true, true⟩)) (hi : initAll ds x = .ok p0) (sys r : UInt8) (hlay : p0.layout = ⟨2, .soundSystem sys r⟩)
    (hfit : Fits order (systemPlaces sys)) :
    ∃ file, (e.others.map fun q => q.sink.disk) = [some file] ∧
      (file.length ≤ 4194304 → ∀ (cs : List DecoderCall) (pv : Bool), fedBytes cs = file → EndsLast cs →
        (∀ size, .getOutput size ∈ cs → order.length * n.toNat * (2 * ds.sampleType) ≤ size) →
        ∀ rounds size : Nat, file.length + 2 ≤ rounds → order.length * n.toNat * (2 * ds.sampleType) ≤ size →
        AllOk (decoding (standardBackend M E C ⟨true, true⟩) ds pv (cs ++ finish rounds size)).1 ∧
        DeliveredUnit pcm.sampleSize ds.sampleType order (fun l => (soundIn turns last l).map normalizedToInt32) trimStart.toNat
          (total - trimEnd.toNat - trimStart.toNat)
          (given (decoding (standardBackend M E C ⟨true, true⟩) ds pv (cs ++ finish rounds size)).1).flatten) := by
  obtain ⟨descriptors, units, views, xs, bs, d1, d2, d3, d4, d5, d6, d7, -, d9⟩ := encoded_parts M hM E hE C linear s i o labels trimStart trimEnd includesDelay f hs turns
    last outs houts e0 e answers h0 h1 hdone m hm hbuilt x hx n hn hplay e' he' c pcm order hp hpcm hmix hw hte hroom total htotal ds hst p0 hi sys r hlay hfit
  refine ⟨_, d1, fun hlen cs pv hfed hends hsize rounds size hrounds hsz => ?_⟩
  obtain ⟨r1, r2⟩ := decoded_every_way _ ds ha _ x n views _ d2 s.lebs d3 d4 hlen p0 hi xs d5 bs d6 cs pv hfed hends
    (fun z hz b hb => Nat.le_trans (d7 b hb) (hsize z hz)) rounds size hrounds (fun b hb => Nat.le_trans (d7 b hb) hsz)
  refine ⟨r1, ?_⟩
  rw [r2, flatten_nonempty]
  exact d9

/-- What the encoder makes of the blocks that it is given. -/
theorem encoder_input (linear : Int16 → Rat)
    (s : EncoderSetup lpcmEncoders P FileOutput) (i : UInt32) (o : Obu ElementWithData) (labels : List Label) (trimStart trimEnd : UInt32) (includesDelay : Bool)
    (f : FileOutput) (hs : PlainSetup s i o labels trimStart trimEnd includesDelay f)
    (turns : List Turn) (last : Option (Label → Samples)) (outs : List ((UInt32 × Label → Nat) × List UInt8)) (houts : outs ≠ [])
    (e0 e : IamfEncoder lpcmEncoders P FileOutput) (answers : List IamfEncoderAnswer) (h0 : s.create fileSink = .ok e0)
    (h1 : e0.calls fileSink linear (encoderLoop i labels turns last outs) = .ok (answers, e)) (hdone : e.generating = false)
    (hbuilt : BuiltSequence s.descriptors) (c : CodecObu) (hn : c.config.numSamplesPerFrame ≠ 0) (pcm : LpcmConfig) (order : List Label)
    (hp : PlainPcm (elementBack o.body) c pcm order) (hpcm : ValidLpcm pcm)
    (hw : WholeBlocks labels c.config.numSamplesPerFrame.toNat turns last) (hte : last = none → trimEnd = 0)
    (hroom : trimEnd.toNat + c.config.numSamplesPerFrame.toNat * (labels.length * (turns.length + 1) + 1) < 4294967296) :
    ∃ definitions generator evs heard input start stop, EncoderHistory fileSink linear s definitions generator evs heard e ∧
      evs.map (·.call) = encoderLoop i labels turns last outs ∧ evs.map (·.answer) = answers ∧ finalizedIn evs = true ∧
      InputUnits o.body.data.labels c.config.numSamplesPerFrame labels order (soundIn turns last) trimStart.toNat trimEnd.toNat (unitsIn evs) input start stop := by
  have hele := plain_element hbuilt hs.element hp
  have hel : s.elements = [(i, o.body)] := by unfold EncoderSetup.elements; rw [hs.element]; rfl
  have hsub : o.body.data.labels ≠ [] := by
    obtain ⟨-, reserved, layer, -, hord⟩ := hp.channels
    obtain ⟨l, hl, hlo⟩ := ordered_sound hord
    obtain ⟨y, hy, -⟩ := hele.all l hl hlo
    exact fun h => (by rw [h] at hy; cases hy)
  obtain ⟨definitions, generator, evs, heard, g1, g2, g3, g4, hist⟩ := C47_runs_are_histories fileSink linear s h0 _ h1 (by
      intro u hu b hb
      unfold encoderLoop at hu
      rcases List.mem_append.mp hu with hu | hu
      · obtain ⟨t, -, ht⟩ := List.mem_flatMap.mp hu
        rcases List.mem_cons.mp ht with ht | ht
        · cases ht
          cases hb
        · rw [List.mem_singleton] at ht
          cases ht
      · rcases List.mem_append.mp hu with hu | hu
        · obtain ⟨b', -, ht⟩ := List.mem_map.mp hu
          cases ht
          cases hb
        · rcases List.mem_cons.mp hu with hu | hu
          · cases hu
          · obtain ⟨b', -, ht⟩ := List.mem_map.mp hu
            cases ht) (by
      intro _ definitions hd id d hl
      unfold EncoderSetup.definitions at hd
      have := collected_layers (n := 1) (by
        intro y hy
        rw [hel, List.mem_singleton] at hy
        subst hy
        exact Nat.le_of_eq hele.layers) hd hl
      intro j below layer _ hj
      have := (List.getElem?_eq_some_iff.mp hj).1
      omega)
  obtain ⟨hfin, announced, over, R, F, hrun⟩ := plain_run hs hele hpcm hsub hn hw hte hroom houts g2 hist g3 hdone
  obtain ⟨views, lastCalls, w1, -, -, -⟩ := hist.written
  have hnd : (o.body.data.labels.map Prod.fst).Nodup := by
    unfold EncoderSetup.generator at g2
    obtain ⟨tm, htm⟩ : ∃ x, TimingModule.create (s.elements.map fun e => e.2.timed) (definitions.map fun p => (p.1, p.2.1.base.rate)) = x := ⟨_, rfl⟩
    rw [htm] at g2
    cases tm with
    | none => cases g2
    | some tm =>
      have := (timing_stamps htm).1
      rw [hel] at this
      simp only [ElementWithData.timed, List.map_cons, List.map_nil, List.flatMap_cons, List.flatMap_nil, List.append_nil] at this
      rw [hele.ids]
      exact this
  have hnn : c.config.numSamplesPerFrame.toNat + c.config.numSamplesPerFrame.toNat < 4294967296 := by
    have h1 : 1 ≤ labels.length := List.length_pos_iff.mpr hs.once.1
    have h2 : 1 * 1 ≤ labels.length * (turns.length + 1) := Nat.mul_le_mul h1 (by omega)
    have h3 := Nat.mul_le_mul_left c.config.numSamplesPerFrame.toNat (show 2 ≤ labels.length * (turns.length + 1) + 1 by omega)
    omega
  obtain ⟨input, start, stop, hsnd, hraw⟩ := sounding hel hele hnd hnn hw.something hs.once.1 (fun t ht l hl => by
    obtain ⟨k, k1, k2⟩ := hw.full t ht
    rw [k2 l hl]
    exact k1) hsub hrun w1 (x := ⟨none, [], [(i, elementBack o.body)], []⟩) rfl
  have hlen : (unitsIn evs).length = views.length := w1.length_eq
  refine ⟨definitions, generator, evs, heard, input, start, stop, hist, g3, g4, hfin, ⟨fun p hp' => ⟨(hrun.alone p hp').1, fun h => ?_⟩,
    fun k p hk => ⟨hrun.perm p (List.mem_of_getElem? hk), hraw k p hk⟩, ?_, ?_, ?_⟩⟩
  · have := hrun.perm p hp'
    rw [h] at this
    have := List.Perm.nil_eq this
    exact hsub (List.map_eq_nil_iff.mp this.symm)
  · rw [hlen]; exact hsnd.length
  · rw [hlen]; exact hsnd.fits
  · rw [hlen]; exact hsnd.sound

end Iamf.Props
