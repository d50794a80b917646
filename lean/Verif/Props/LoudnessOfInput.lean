import Verif.Props.RoundTrip
import Verif.Props.Listening
/-
  C55: for the encoders of C48, the loudness in the descriptors is that of the sound which was given to the encoder.
-/
namespace Iamf.Props
open Iamf

variable {M : GainMath Rat} {C : Codecs} {Q : Meters} {S : PostProcessors} {validate : Bool} {recon : HeardFrames → UInt32 → ReconSource}

/-! ### Specification -/

/-- The samples of a channel, frame after frame. -/
def channelIn (ss : List Rendered) (k : Nat) : Samples := ss.flatMap fun s => s.getD k []

/-- Frames that hold the channels `order`, with these sounds; a channel that is left out is silent. -/
structure MeasuredSound (ss : List Rendered) (order : List Label) (sound : Label → Samples) : Prop where
  frames : ∀ s ∈ ss, s.length = order.length ∧ ∃ n, ∀ c ∈ s, c.length = n
  channels : ∀ (k : Nat) l, order[k]? = some l → if l = .omitted then ∀ v ∈ channelIn ss k, v = 0 else channelIn ss k = sound l

/-! ### Proof -/

private theorem bind_ok {α β : Type} {x : Except Err α} {f : α → Except Err β} {b : β} (h : (x >>= f) = .ok b) :
    ∃ a, x = .ok a ∧ f a = .ok b := by
  cases x with
  | error e => cases h
  | ok a => exact ⟨a, rfl, h⟩

/-- The sound of a unit. -/
private def unitSound (order : List Label) (input : Label → Samples) (start ticks : Nat) : Rendered :=
  order.map fun l => if l = .omitted then List.replicate ticks 0 else ((input l).drop start).take ticks

/-- A frame with the samples. -/
private structure FrameWith (order : List Label) (n : Nat) (input : Label → Samples) (start stop : UInt32) (f : RenderFrame) : Prop where
  samples : ∀ l ∈ order, l ≠ .omitted → f.samples l = some (input l)
  length : ∀ l ∈ order, l ≠ .omitted → (input l).length = n
  trims : f.trimStart = start ∧ f.trimEnd = stop

private theorem trimmed_unit {order : List Label} {n : Nat} {input : Label → Samples} {start stop : UInt32} {f : RenderFrame}
    (h : FrameWith order n input start stop f) {ticks : Nat} (hr : Renderable f ⟨true, true⟩ order n ticks) :
    trimmedSamples f ⟨true, true⟩ order ticks = unitSound order input start.toNat (n - start.toNat - stop.toNat) := by
  obtain ⟨m, ⟨⟨l0, hl0, hlo⟩, hm⟩, -, ht⟩ := hr
  obtain ⟨s0, k1, k2⟩ := hm l0 hl0 hlo
  unfold findSamples at k1
  rw [h.samples l0 hl0 hlo] at k1
  cases k1
  rw [h.length l0 hl0 hlo] at k2
  subst k2
  have hs : startOf ⟨true, true⟩ f = start.toNat := by simp [startOf, h.trims.1]
  have he : endOf ⟨true, true⟩ f = stop.toNat := by simp [endOf, h.trims.2]
  rw [hs, he] at ht
  have htk : n - start.toNat - stop.toNat = ticks := by omega
  unfold trimmedSamples unitSound
  rw [htk, hs]
  refine List.map_congr_left fun l hl => ?_
  by_cases ho : l = .omitted
  · rw [if_pos ho]
    refine List.ext_getElem (by simp) fun k h1 h2 => ?_
    simp [sampleOf, ho]
  · rw [if_neg ho]
    have hlen := h.length l hl ho
    refine List.ext_getElem (by simp; omega) fun k h1 h2 => ?_
    simp only [List.length_map, List.length_range] at h1
    have hk : start.toNat + k < (input l).length := by omega
    simp only [List.getElem_map, List.getElem_range, sampleOf, if_neg ho, findSamples, h.samples l hl ho, List.getElem?_eq_getElem hk,
      Option.getD_some, List.getElem_take, List.getElem_drop]

/-- The renderer, after any number of units. -/
private def plainRenderer (i : UInt32) (gain output : ParamDef) (order : List Label) (rate n : UInt32) (last : Rendered) : LayoutRenderer :=
  ⟨[⟨i, gain, .passThrough order, last⟩], output, order.length, rate, n, ⟨true, true⟩⟩

private theorem plain_render (hM : M.linear 0 = 1) {i : UInt32} {gain output : ParamDef} {order : List Label} {rate n : UInt32} {last : Rendered}
    (hne : order ≠ []) (h1 : NoGain gain rate) (h2 : NoGain output rate) {frames : UInt32 → Option RenderFrame} {f : RenderFrame} (hf : frames i = some f)
    {input : Label → Samples} {start stop : UInt32} (hw : FrameWith order n.toNat input start stop f) {s : Rendered} {R : LayoutRenderer}
    (h : (plainRenderer i gain output order rate n last).render M frames (blockById []) = (.ok s, R)) :
    s = unitSound order input start.toNat (n.toNat - start.toNat - stop.toNat) ∧ ∃ last', R = plainRenderer i gain output order rate n last' := by
  have hmix := C40_the_mix M (plainRenderer i gain output order rate n last)
    ⟨List.length_pos_iff.mpr hne, by simp [plainRenderer], by
      intro e he
      simp only [plainRenderer, List.mem_singleton] at he
      subst he
      exact pass_works hne⟩ frames (by
      intro e he
      simp only [plainRenderer, List.mem_singleton] at he
      subst he
      simp [hf]) (blockById []) ⟨fun e _ b hb => (by cases hb), fun b hb => (by cases hb)⟩
  rw [h] at hmix
  obtain ⟨ticks, parts, out, m1, m2, m3⟩ := hmix
  refine ⟨?_, ?_⟩
  · rw [show (plainRenderer i gain output order rate n last).elements = [⟨i, gain, .passThrough order, last⟩] from rfl] at m1
    cases m1 with
    | @cons _ p _ _ k1 k2 =>
      cases k2
      obtain ⟨f', a1, a2, a3, a4⟩ := k1
      simp only at a1 a2 a4
      rw [hf] at a1
      cases a1
      have hpt := C39_pass_through_is_exact order hne n.toNat n.toNat_lt ⟨true, true⟩ f
      change (ElementRenderer.passThrough order).render n.toNat ⟨true, true⟩ f = .ok (p.1, ticks) at a2
      rw [a2] at hpt
      obtain ⟨b1, b2⟩ := hpt
      change mixGainsPerTick M rate (blockById []) gain ticks = .ok p.2 at a4
      rw [no_gains M hM rate gain h1] at a4
      change mixGainsPerTick M rate (blockById []) output ticks = .ok out at m2
      rw [no_gains M hM rate output h2] at m2
      cases m2
      obtain ⟨p1, p2⟩ := p
      simp only [Except.ok.injEq] at a4 b2
      subst a4 b2
      rw [← trimmed_unit hw b1, m3]
      exact mix_of_one order ticks (fun l t => sampleOf f l (startOf ⟨true, true⟩ f + t))
  · unfold LayoutRenderer.render at h
    generalize hg : renderElementMixes M (plainRenderer i gain output order rate n last) frames (blockById [])
      (plainRenderer i gain output order rate n last).elements = w at h
    have hw' : ∃ last', w.2 = [⟨i, gain, .passThrough order, last'⟩] := by
      rw [← hg]
      simp only [plainRenderer, renderElementMixes]
      split
      · exact ⟨_, rfl⟩
      · exact ⟨_, rfl⟩
    obtain ⟨last', hw'⟩ := hw'
    obtain ⟨w1, w2⟩ := w
    simp only at hw'
    subst hw'
    cases w1 with
    | error e => simp at h
    | ok u =>
      simp only [Prod.mk.injEq] at h
      exact ⟨last', h.2.symm⟩

private theorem plain_renderings (hM : M.linear 0 = 1) {i : UInt32} {gain output : ParamDef} {order : List Label} {rate n : UInt32} {last : Rendered}
    (hne : order ≠ []) (h1 : NoGain gain rate) (h2 : NoGain output rate) {us : List UnitToRender} {ss : List Rendered} {R R' : LayoutRenderer}
    (hR : R = plainRenderer i gain output order rate n last) (input : Nat → Label → Samples) (start stop : Nat → UInt32)
    (h : Renderings M R us ss R') : (∀ (k : Nat) u, us[k]? = some u → u.blocks = [] ∧
      ∃ f, u.frames i = some f ∧ FrameWith order n.toNat (input k) (start k) (stop k) f) →
    (∃ last', R' = plainRenderer i gain output order rate n last') ∧
    ss = (List.range us.length).map fun k => unitSound order (input k) (start k).toNat (n.toNat - (start k).toNat - (stop k).toNat) := by
  induction h with
  | nil => exact fun _ => ⟨⟨last, hR⟩, rfl⟩
  | @snoc R' R'' us ss u s _ h3 ih =>
    intro hu
    obtain ⟨⟨last', rfl⟩, hss⟩ := ih fun k v hv => hu k v (by rw [List.getElem?_append_left (List.getElem?_eq_some_iff.mp hv).1]; exact hv)
    obtain ⟨hb, f, hf, hfw⟩ := hu us.length u (by simp)
    rw [hb] at h3
    obtain ⟨k1, k2⟩ := plain_render hM hne h1 h2 hf hfw h3
    refine ⟨k2, ?_⟩
    rw [hss, k1, List.length_append, List.length_singleton, List.range_succ, List.map_append]
    rfl

private theorem unit_measured {order : List Label} {n : Nat} {input : Nat → Label → Samples} {start stop : Nat → UInt32} {count : Nat} {sound : Label → Samples}
    (hl : ∀ k < count, ∀ l, (input k l).length = n)
    (hs : ∀ l ∈ order, l ≠ .omitted → ((List.range count).flatMap fun k => ((input k l).drop (start k).toNat).take (n - (start k).toNat - (stop k).toNat)) = sound l) :
    MeasuredSound ((List.range count).map fun k => unitSound order (input k) (start k).toNat (n - (start k).toNat - (stop k).toNat)) order sound := by
  refine ⟨fun s hm => ?_, fun j l hj => ?_⟩
  · obtain ⟨k, hk, rfl⟩ := List.mem_map.mp hm
    rw [List.mem_range] at hk
    refine ⟨by simp [unitSound], n - (start k).toNat - (stop k).toNat, fun c hc => ?_⟩
    obtain ⟨l, -, rfl⟩ := List.mem_map.mp hc
    split
    · simp
    · rw [List.length_take, List.length_drop, hl k hk]
      omega
  · have hget : ∀ k, (unitSound order (input k) (start k).toNat (n - (start k).toNat - (stop k).toNat)).getD j [] =
        if l = .omitted then List.replicate (n - (start k).toNat - (stop k).toNat) 0
        else ((input k l).drop (start k).toNat).take (n - (start k).toNat - (stop k).toNat) := by
      intro k
      unfold unitSound
      rw [List.getD_eq_getElem?_getD, List.getElem?_map, hj]
      rfl
    have hch : channelIn ((List.range count).map fun k => unitSound order (input k) (start k).toNat (n - (start k).toNat - (stop k).toNat)) j =
        (List.range count).flatMap fun k => if l = .omitted then List.replicate (n - (start k).toNat - (stop k).toNat) 0
        else ((input k l).drop (start k).toNat).take (n - (start k).toNat - (stop k).toNat) := by
      unfold channelIn
      rw [List.flatMap_map]
      exact List.flatMap_congr fun k _ => hget k
    rw [hch]
    split
    · rename_i ho
      intro v hv
      obtain ⟨k, -, hv⟩ := List.mem_flatMap.mp hv
      exact (List.mem_replicate.mp hv).2
    · exact hs l (List.mem_of_getElem? hj) ‹_›

private theorem lookup_of_mem {α : Type} {l : List (UInt32 × α)} (hn : (l.map Prod.fst).Nodup) {i : UInt32} {x : α} (h : (i, x) ∈ l) : l.lookup i = some x := by
  induction l with
  | nil => cases h
  | cons a l ih =>
    obtain ⟨k, v⟩ := a
    rw [List.map_cons, List.nodup_cons] at hn
    rw [List.lookup_cons]
    rcases List.mem_cons.mp h with h | h
    · cases h
      rw [beq_self_eq_true]
    · have : i ≠ k := fun he => hn.1 (he ▸ List.mem_map.mpr ⟨_, h, rfl⟩)
      rw [beq_false_of_ne this]
      exact ih hn.2 h

private theorem mem_of_lookup' {α : Type} {l : List (UInt32 × α)} {i : UInt32} {x : α} (h : l.lookup i = some x) : (i, x) ∈ l := by
  induction l with
  | nil => cases h
  | cons a l ih =>
    obtain ⟨k, v⟩ := a
    rw [List.lookup_cons] at h
    by_cases hk : i = k
    · subst hk
      rw [beq_self_eq_true] at h
      cases h
      exact List.mem_cons_self
    · rw [beq_false_of_ne hk] at h
      exact List.mem_cons_of_mem _ (ih h)

/-- What the finalizer sees of the audio element. -/
private structure SameElement (o : ElementWithData) (order : List Label) : Prop where
  type : o.obu.elementType = 0
  layer : ∃ reserved layer, o.obu.config = .scalable ⟨reserved, [layer]⟩ ∧ layer.orderedLabels = .ok order
  demixers : ∀ labels, elementLabelsToReconstruct o.obu = .ok labels → Iamf.demixers labels o.data.labels = []
  keys : (o.data.labels.map Prod.fst).Nodup

private theorem same_element {d : SequenceObus} (h : BuiltSequence d) {i : UInt32} {o : Obu ElementWithData} (ho : d.elements = [(i, o)]) {c : CodecObu}
    {pcm : LpcmConfig} {order : List Label} (hp : PlainPcm (elementBack o.body) c pcm order) : SameElement o.body order := by
  obtain ⟨-, -, -, hgen⟩ := h.element (i, o) (by rw [ho]; exact List.mem_singleton.mpr rfl)
  obtain ⟨ht, reserved, layer, hcfg, hord⟩ := hp.channels
  have hcfg' : (carriedElement o.body.obu).config = .scalable ⟨reserved, [layer]⟩ := hcfg
  have ht' : (carriedElement o.body.obu).elementType = 0 := ht
  unfold generateElement at hgen
  rw [if_pos ht', hcfg'] at hgen
  obtain ⟨x, h1, h2⟩ := except_ok.mp hgen
  have hx : x = o.body.data := by
    split at h2
    · cases h2
    · simp only [Except.ok.injEq] at h2
      exact congrArg ElementWithData.data h2
  subst hx
  have hlay : ∃ layer', o.body.obu.config = .scalable ⟨reserved, [layer']⟩ ∧ layer = carriedLayer layer' := by
    unfold carriedElement at hcfg'
    simp only at hcfg'
    cases hc : o.body.obu.config with
    | scalable y =>
      rw [hc] at hcfg'
      obtain ⟨r, ls⟩ := y
      simp only [ElementConfig.scalable.injEq, ScalableLayout.mk.injEq] at hcfg'
      obtain ⟨rfl, h3⟩ := hcfg'
      match ls, h3 with
      | [l], h3 => exact ⟨l, rfl, by simpa using h3.symm⟩
      | [], h3 => simp at h3
      | a :: b :: ls, h3 => simp at h3
    | _ => rw [hc] at hcfg'; cases hcfg'
  obtain ⟨layer', hl1, rfl⟩ := hlay
  have hexp : layer'.layout = kLayoutExpanded → (carriedLayer layer').expanded = layer'.expanded := by
    intro hl
    simp only [carriedLayer]
    exact if_pos (show layer'.layout = 15 from hl)
  refine ⟨ht, ⟨reserved, layer', hl1, ?_⟩, fun labels hl => ?_, ?_⟩
  · rw [← hord]
    unfold ChannelLayer.orderedLabels
    rw [show (carriedLayer layer').layout = layer'.layout from rfl]
    split
    · rw [hexp ‹_›]
    · rfl
  · unfold elementLabelsToReconstruct at hl
    rw [if_pos (show o.body.obu.elementType = 0 from ht), hl1] at hl
    refine one_layer_demixers h1 (labels := labels) ?_
    rw [← hl]
    unfold labelsToReconstruct
    simp only [List.getLast?_singleton]
    rw [show (carriedLayer layer').layout = layer'.layout from rfl]
    split
    · rw [hexp ‹_›]
    · rfl
  · rw [(plain_counts h1).1]
    simp only at h1
    unfold finalizeScalable at h1
    refine Decidable.byContradiction fun hcon => ?_
    rw [if_pos hcon] at h1
    cases h1

private theorem unit_frame {o : ElementWithData} {order labels : List Label} (hse : SameElement o order) (hc : ∀ y ∈ o.data.labels, y.2.length = 1 ∨ y.2.length = 2)
    (hall : ∀ l ∈ order, l ≠ .omitted → ∃ y ∈ o.data.labels, l ∈ y.2) {n : UInt32} {sound : Label → Samples} {trimStart trimEnd : Nat} {units : List UnitParts}
    {input : Nat → Label → Samples} {start stop : Nat → UInt32} (h : InputUnits o.data.labels n labels order sound trimStart trimEnd units input start stop)
    {k : Nat} {p : UnitParts} (hk : units[k]? = some p) {x : RenderFrame} (hx : DemixedTo o (p.frames.map beforeEncoding) x) :
    FrameWith order n.toNat (input k) (start k) (stop k) x := by
  have hkl := (List.getElem?_eq_some_iff.mp hk).1
  obtain ⟨hperm, hfr⟩ := h.frames k p hk
  obtain ⟨ls, y, d1, d2, d3, f, d4, -, d5, d6, -⟩ := hx
  rw [hse.demixers ls d1] at d2
  obtain ⟨f0, hf0, rfl⟩ := List.mem_map.mp d4
  obtain ⟨-, -, z0, -, -, -, t1, t2⟩ := hfr f0 hf0
  refine ⟨fun l hl hlo => ?_, fun l _ _ => h.length k hkl l, ⟨d5.trans t1, d6.trans t2⟩⟩
  obtain ⟨y', d7, d8⟩ := bind_ok d2
  have hstore := storeLoop_stores o.data.labels ((k * n.toNat : Nat) : Int) (input k) n.toNat ((p.frames.map beforeEncoding).map DecodedFrame.input) (by
    intro a ha ls hls
    rw [List.map_map] at ha
    obtain ⟨g, hg, rfl⟩ := List.mem_map.mp ha
    obtain ⟨s1, -, z, hz, s2, s3, -⟩ := hfr g hg
    have hls' : o.data.labels.lookup g.1.substream = some ls := hls
    have hz' : o.data.labels.lookup g.1.substream = some z.2 := lookup_of_mem hse.keys (by rw [← s2]; exact hz)
    rw [hz'] at hls'
    cases hls'
    refine ⟨s1, ?_, s3, fun l _ => h.length k hkl l⟩
    intro he
    have := hc z hz
    rw [he] at this
    simp at this) none (.inl rfl) ⟨.empty, ⟨0, 0, 0, 0, 0⟩⟩
  obtain ⟨w, w1, w2, -⟩ := hstore
  have hw : storeSamples o.data.labels ((p.frames.map beforeEncoding).map DecodedFrame.input) ⟨.empty, ⟨0, 0, 0, 0, 0⟩⟩ = .ok w := by
    unfold storeSamples
    cases hfm : (p.frames.map beforeEncoding).map DecodedFrame.input with
    | nil =>
      rw [List.map_eq_nil_iff, List.map_eq_nil_iff] at hfm
      rw [hfm] at hf0
      cases hf0
    | cons b bs =>
      simp only
      have hbm : b ∈ (p.frames.map beforeEncoding).map DecodedFrame.input := by rw [hfm]; exact List.mem_cons_self ..
      rw [List.map_map] at hbm
      obtain ⟨g, hg, rfl⟩ := List.mem_map.mp hbm
      have hst : (Function.comp DecodedFrame.input beforeEncoding g).start = ((k * n.toNat : Nat) : Int) := (hfr g hg).1
      rw [hst, ← w1, hfm]
  rw [hw] at d7
  have hwy : w = y' := Except.ok.inj d7
  subst hwy
  have hy : y = ⟨w.samples, w.params⟩ := by
    split at d8
    · simp only [runDemixers, Bind.bind, Except.bind, Except.ok.injEq, Option.some.injEq] at d8
      exact d8.symm
    · cases d8
  rw [d3, hy]
  obtain ⟨z, hz, hlz⟩ := hall l hl hlo
  have : z.1 ∈ p.frames.map fun f => f.1.substream := hperm.mem_iff.mpr (List.mem_map.mpr ⟨z, hz, rfl⟩)
  obtain ⟨g, hg, hgz⟩ := List.mem_map.mp this
  exact w2 _ (List.mem_map.mpr ⟨_, List.mem_map.mpr ⟨g, hg, rfl⟩, rfl⟩) z.2 (by
    show o.data.labels.lookup g.1.substream = some z.2
    rw [hgz]
    exact lookup_of_mem hse.keys hz) l hlz

/-- **C55 (plain encoders).** The encoder of C48, which codes one audio element as LPCM, writes mix presentations whose loudness is measured on the very
sound it was given, but for what is trimmed at both ends: for each layout of which the loudspeakers are the channels of the audio element, if no gain is
applied.  Nothing else in the mix presentations changes. -/
theorem C55_loudness_of_the_input (hM : M.linear 0 = 1) {E : RenderEnv} {linear : Int16 → Rat}
    -- the encoder
    {s : EncoderSetup lpcmEncoders (standardParts M C Q S validate recon) FileOutput} {i : UInt32} {o : Obu ElementWithData} {labels : List Label}
    {trimStart trimEnd : UInt32} {includesDelay : Bool} {f : FileOutput} (hs : PlainSetup s i o labels trimStart trimEnd includesDelay f)
    (hl : listenTo C s.elements ⟨[], []⟩ = .ok s.decoders)
    (hf : NewFinalizer E ⟨true, true⟩ s.elements s.descriptors.mixes (s.finalizer : Finalizer Q S))
    -- how it is used
    {turns : List Turn} {last : Option (Label → Samples)} {outs : List ((UInt32 × Label → Nat) × List UInt8)} (houts : outs ≠ [])
    {e0 e : IamfEncoder lpcmEncoders (standardParts M C Q S validate recon) FileOutput} {answers : List IamfEncoderAnswer}
    (h0 : s.create fileSink = .ok e0) (h1 : e0.calls fileSink linear (encoderLoop i labels turns last outs) = .ok (answers, e)) (hdone : e.generating = false)
    -- the descriptors
    (hbuilt : BuiltSequence s.descriptors) {c : CodecObu} (hn : c.config.numSamplesPerFrame ≠ 0) {pcm : LpcmConfig} {order : List Label}
    (hp : PlainPcm (elementBack o.body) c pcm order) (hpcm : ValidLpcm pcm)
    -- the samples
    (hw : WholeBlocks labels c.config.numSamplesPerFrame.toNat turns last) (hte : last = none → trimEnd = 0)
    (hroom : trimEnd.toNat + c.config.numSamplesPerFrame.toNat * (labels.length * (turns.length + 1) + 1) < 4294967296) :
    ∃ mixes bytes, e.descriptorObus false = .ok (bytes, true) ∧ DescriptorBytes s.lebs (withMixes s.descriptors mixes) bytes ∧
      List.Forall₂ (fun (m m' : Obu MixPresentation) =>
        m'.header = m.header ∧ m'.footer = m.footer ∧ withoutLoudness m'.body = withoutLoudness m.body ∧
        ∀ a b t x l l' sys r q0, m.body.subMixes[a]? = some t → t.elements = [x] → x.id = i → NoGain x.mixGain c.outputRate →
          NoGain t.outputMixGain c.outputRate → layoutAt m.body a b = some l → layoutAt m'.body a b = some l' →
          l.layout = ⟨2, .soundSystem sys r⟩ → Fits order (systemPlaces sys) → Q.create l c.config.numSamplesPerFrame c.outputRate = some q0 →
          ∃ ss q, Fed Q.accumulate q0 ss q ∧ Q.query q = .ok l'.loudness ∧
            MeasuredSound ss order fun z => ((soundIn turns last z).take ((soundIn turns last z).length - trimEnd.toNat)).drop trimStart.toNat)
        s.descriptors.mixes mixes := by
  obtain ⟨definitions, generator, evs, heard, input, start, stop, hist, -, -, hfin, hin⟩ := encoder_input linear s i o labels trimStart trimEnd includesDelay f hs
    turns last outs houts e0 e answers h0 h1 hdone hbuilt c hn pcm order hp hpcm hw hte hroom
  have hele := plain_element hbuilt hs.element hp
  have hse := same_element hbuilt hs.element hp
  have hel : s.elements = [(i, o.body)] := by unfold EncoderSetup.elements; rw [hs.element]; rfl
  obtain ⟨k1, k2⟩ := hist.sounds
  obtain ⟨-, us, u1, u2⟩ := heard_units hl (by rw [hel]; simp) k1
  rw [k2, List.filter_eq_self.mpr (fun p hp => by
    have := (hin.plain p hp).2
    cases hpf : p.frames with
    | nil => exact absurd hpf this
    | cons a b => rfl)] at u1
  obtain ⟨bytes, b1, b2⟩ := hist.descriptors
  rw [if_pos ⟨hfin, hdone⟩] at b2
  obtain ⟨mixes, m1, m2⟩ := b2
  rw [hfin, hdone] at b1
  refine ⟨mixes, bytes, b1, m2, ?_⟩
  change (match Finalizer.finish (Q := Q) (S := S) e.finalizer with
    | (.error e, _) => Except.error e
    | (.ok (), f) => (f.get validate).1) = .ok mixes at m1
  match hfin : Finalizer.finish (Q := Q) (S := S) e.finalizer with
  | (.error err, f2) => rw [hfin] at m1; cases m1
  | (.ok (), f2) =>
    rw [hfin] at m1
    have hall := (C54_measured_loudness hf u2 hfin validate).1 mixes _ (Prod.ext m1 rfl)
    refine List.Forall₂.imp (fun m m' hmm => ?_) hall
    refine ⟨hmm.same.1, hmm.same.2.1, hmm.same.2.2, ?_⟩
    intro a b t x l l' sys r q0 ha hx hxi g1 g2 hlay hlay' hsys hfit hq
    obtain ⟨y, hy, -, hmeasured⟩ := hmm.loudness a b l l' hlay hlay'
    obtain ⟨t', l2, es, rate, frameSize, depth, p1, p2, p3, p4, p5⟩ := id hy
    rw [ha] at p1
    cases p1
    have hl2 : l2 = l := by
      unfold layoutAt at hlay
      rw [ha] at hlay
      simp only [Option.bind_some] at hlay
      rw [p2] at hlay
      exact Option.some.inj hlay
    subst hl2
    -- the elements
    have hes : es = [(x, o.body)] := by
      have h1 := p3.elements.1
      rw [hx] at h1
      match es, h1, p3 with
      | [z], h1, p3 =>
        have h2 := p3.elements.2 z (by simp)
        obtain ⟨z1, z2⟩ := z
        simp only [List.map_cons, List.map_nil, List.cons.injEq, and_true] at h1
        subst h1
        rw [hel] at h2
        simp only [List.lookup_cons, hxi, beq_self_eq_true, Option.some.injEq] at h2
        rw [h2]
      | [], h1, _ => simp at h1
      | a :: b :: l, h1, _ => simp at h1
    subst hes
    obtain ⟨c', q1, q2, q3⟩ := p3.codecs (x, o.body) (by simp)
    rw [show (x, o.body).2.codec = some c from hele.codec] at q1
    cases q1
    subst q2 q3
    -- the renderer
    obtain ⟨reserved, layer, hcfg, hord⟩ := hse.layer
    obtain ⟨x0, hx0, hx0'⟩ := ordered_sound hord
    have hne : order ≠ [] := fun h => (by rw [h] at hx0; cases hx0)
    obtain ⟨ls, hls⟩ := (C39_pass_through_exactly_for_matching_layers ⟨reserved, [layer]⟩ (.inr rfl) sys r).mpr
      ⟨layer, by simp, order, hord, hfit⟩
    obtain ⟨ls', r1, ⟨l', hl', r2⟩, -, hnum, -⟩ := C39_channels_go_to_their_loudspeakers _ _ _ hls
    simp only [List.mem_singleton] at hl'
    subst hl'
    rw [hord, Except.ok.injEq] at r2
    subst r2
    cases r1
    have hpass : createRenderer E o.body.obu o.body.data.labels x.rendering l2.layout = .ok (some (.passThrough order)) := by
      unfold createRenderer
      rw [hsys, hcfg, if_neg (by rw [hse.type]; decide), if_pos hse.type]
      simp only [show ((2 : UInt8) == 3) = false from rfl, Bool.and_false, Bool.false_eq_true, if_false, hls, Bind.bind, Except.bind]
    rw [← hsys] at hnum
    rcases p5 with ⟨err, p5, -⟩ | ⟨n, p5, p6, p7, -⟩
    · rw [hnum] at p5; cases p5
    rw [hq] at p7
    have hrend : y.renderer = some (plainRenderer i x.mixGain t.outputMixGain order c.outputRate c.config.numSamplesPerFrame []) := by
      unfold createLayoutRenderer at p6
      rw [hnum] at p6
      simp only [createElementMixes, hpass, orNull, Bind.bind, Except.bind, pure, Except.pure, Except.ok.injEq] at p6
      rw [← p6, ← hxi]
      rfl
    obtain ⟨z, q, info, v1, v2, v3, v4, -⟩ := hmeasured (by rw [p7]; simp) ⟨a, b, y, hy, by rw [hrend]; simp⟩
    rcases v1 with ⟨v1, -⟩ | ⟨R, R', ss, w1, w2, w3, w4, -, -⟩
    · rw [hrend] at v1; cases v1
    rw [hrend] at w1
    cases w1
    rw [p7, v2] at w4
    rcases w4 with ⟨w4, -⟩ | ⟨q0', q', w4, w5, w6⟩
    · cases w4
    cases w4
    cases w5
    refine ⟨ss, q, w6, by rw [v3, v4], ?_⟩
    obtain ⟨-, hss⟩ := plain_renderings hM hne g1 g2 rfl input start stop w3 (by
      intro k u hu
      obtain ⟨p, hp1, hp2⟩ : ∃ p, (unitsIn evs)[k]? = some p ∧ OriginalUnit s.elements p u := by
        have hk := (List.getElem?_eq_some_iff.mp hu).1
        have hk' : k < (unitsIn evs).length := by rw [u1.length_eq]; exact hk
        refine ⟨_, List.getElem?_eq_getElem hk', ?_⟩
        have := (List.forall₂_iff_get.mp u1).2 k hk' hk
        rw [List.get_eq_getElem, List.get_eq_getElem, show us[k] = u from (List.getElem?_eq_some_iff.mp hu).2] at this
        exact this
      obtain ⟨s1, s2⟩ := hin.plain p (List.mem_of_getElem? hp1)
      refine ⟨by rw [hp2.blocks]; exact s1, ?_⟩
      obtain ⟨g, hg⟩ := List.exists_mem_of_ne_nil _ s2
      obtain ⟨-, -, z, hz, hz', -⟩ := (hin.frames k p hp1).2 g hg
      obtain ⟨rf, e1, e2⟩ := hp2.sound i o.body (by rw [hel]; simp) ⟨g, hg, by
        rw [keys_lookup, ← hz']; exact List.mem_map.mpr ⟨z, hz, rfl⟩⟩
      exact ⟨rf, e1, unit_frame hse hele.counts hele.all hin hp1 e2⟩)
    rw [hss, ← u1.length_eq]
    exact unit_measured hin.length fun l hl hlo => (hin.sound l hl hlo).2

end Iamf.Props
