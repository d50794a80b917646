import Verif.Cli.MetadataBuilder
import Verif.Props.ElementGenerator
import Verif.Props.LabelsExact
import Mathlib.Tactic.Tauto

/-!
# C66: metadata builders

The builders make metadata for simple elements, one for each input layout.  Whatever elements are asked for, the metadata are accepted, no
substream id is used twice, and the channels of an element are those that the builder for frames names.
-/

namespace Iamf.Props
open Iamf

/-! ### Specification -/

/-- Specification: the channels of an input file, in their usual order. -/
def inputChannels : InputLayout → List Label
  | .mono => [.mono]
  | .stereo => [.l2, .r2]
  | .l51 => [.l5, .r5, .centre, .lfe, .ls5, .rs5]
  | .l512 => [.l5, .r5, .centre, .lfe, .ls5, .rs5, .ltf2, .rtf2]
  | .l514 => [.l5, .r5, .centre, .lfe, .ls5, .rs5, .ltf4, .rtf4, .ltb4, .rtb4]
  | .l71 => [.l7, .r7, .centre, .lfe, .lss7, .rss7, .lrs7, .rrs7]
  | .l714 => [.l7, .r7, .centre, .lfe, .lss7, .rss7, .lrs7, .rrs7, .ltf4, .rtf4, .ltb4, .rtb4]
  | .binaural => [.l2, .r2]
  | .lfe => [.lfe]
  | .ambisonics1 => (List.range 4).map Label.a
  | .ambisonics2 => (List.range 9).map Label.a
  | .ambisonics3 => (List.range 16).map Label.a

/-- Specification: the loudspeaker layout in the bitstream, and the expanded layout if it is 15; none for ambisonics. -/
def inputLoudspeakers : InputLayout → Option (UInt8 × Option UInt8)
  | .mono => some (0, none)
  | .stereo => some (1, none)
  | .l51 => some (2, none)
  | .l512 => some (3, none)
  | .l514 => some (4, none)
  | .l71 => some (5, none)
  | .l714 => some (7, none)
  | .binaural => some (9, none)
  | .lfe => some (15, some 0)
  | _ => none

/-- Specification: the element has the ids that were asked for, the codec of that id and no parameters; its substreams carry one or two channels
each, and all together those of the input. -/
structure BuiltFor (codecs : List (UInt32 × CodecConfigObu)) (r : ElementRequest) (o : GeneratedElement) : Prop where
  id : o.element.obu.elementId = r.id
  codecConfig : o.element.obu.codecConfigId = r.codecConfigId
  codec : ∃ c, codecs.lookup r.codecConfigId = some c ∧ o.element.codec = some ⟨c.config, c.outputRate, c.inputRate, c.bitDepth⟩
  parameters : o.element.obu.params = []
  substreams : o.element.data.labels.map Prod.fst = o.element.obu.substreamIds
  channels : (allLabels o.element.data.labels).Perm (inputChannels r.layout)
  sizes : ∀ s ∈ o.element.data.labels, s.2.length = 1 ∨ s.2.length = 2
  loudspeakers : ∀ x e, inputLoudspeakers r.layout = some (x, e) → ∃ l, o.element.obu.config = .scalable ⟨0, [l]⟩ ∧ l.layout = x ∧ l.expanded = e ∧
    l.outputGainPresent = false ∧ l.reconGainPresent = false
  ambisonics : inputLoudspeakers r.layout = none → o.element.obu.config =
    .ambisonics (.mono ⟨UInt8.ofNat (inputChannels r.layout).length, (List.range (inputChannels r.layout).length).map UInt8.ofNat⟩)

/-! ### Labels -/

private theorem bind_ok {α β : Type} (x : Except Err α) (f : α → Except Err β) (b : β) :
    (x >>= f) = .ok b ↔ ∃ a, x = .ok a ∧ f a = .ok b := by
  cases x with
  | error e => exact ⟨fun h => by simp [bind, Except.bind] at h, fun ⟨a, h, _⟩ => by simp at h⟩
  | ok a => exact ⟨fun h => ⟨a, rfl, h⟩, fun ⟨_, h, h'⟩ => by cases h; exact h'⟩

/-- The layer for a layout. -/
private def layerFor (l : InputLayout) : ChannelLayer :=
  let x := (inputLoudspeakers l).getD (0, none)
  ⟨x.1, false, false, 0, UInt8.ofNat l.numSubstreams, (match l.coupledSubstreams with | .ok c => c.toUInt8 | .error _ => 0), 0, 0, 0, x.2⟩

private theorem push_new {id : UInt32} {ls : List Label} : ∀ {m : SubstreamLabels} (_ : id ∉ m.map Prod.fst), pushLabels id ls m = m ++ [(id, ls)]
  | [], _ => rfl
  | (i, l) :: m, h => by
    simp only [List.map_cons, List.mem_cons, not_or] at h
    rw [pushLabels, if_neg (Ne.symm h.1), push_new h.2]
    rfl

private theorem mono_labels (ids : List UInt32) (hn : ids.Nodup) (hl : ids.length ≤ 25) : ∀ (k j : Nat), j + k = ids.length →
    finalizeMono ids ((List.range' j k).map UInt8.ofNat) j ((ids.take j).zip ((List.range j).map fun n => [Label.a n])) =
      .ok (ids.zip ((List.range ids.length).map fun n => [Label.a n]))
  | 0, j, h => by
    have : j = ids.length := by omega
    subst this
    simp [finalizeMono]
  | k + 1, j, h => by
    have hj : j < ids.length := by omega
    have h255 : UInt8.ofNat j ≠ 255 := by
      intro he
      have := congrArg UInt8.toNat he
      rw [UInt8.toNat_ofNat', Nat.mod_eq_of_lt (by omega)] at this
      simp at this
      omega
    have hto : (UInt8.ofNat j).toNat = j := by rw [UInt8.toNat_ofNat', Nat.mod_eq_of_lt (by omega)]
    have hnew : ids[j] ∉ ((ids.take j).zip ((List.range j).map fun n => [Label.a n])).map Prod.fst := by
      rw [List.map_fst_zip (by simp)]
      intro hm
      obtain ⟨i, hi, he⟩ := List.mem_iff_getElem.mp hm
      rw [List.length_take] at hi
      rw [List.getElem_take] at he
      have := (List.Nodup.getElem_inj_iff hn).mp he
      omega
    have hext : (ids.take j).zip ((List.range j).map fun n => [Label.a n]) ++ [(ids[j], [Label.a j])] =
        (ids.take (j + 1)).zip ((List.range (j + 1)).map fun n => [Label.a n]) := by
      rw [List.range_succ, List.map_append, List.take_succ_eq_append_getElem hj, List.zip_append (by simp; omega)]
      rfl
    rw [List.range'_succ, List.map_cons, finalizeMono, if_neg h255, hto, List.getElem?_eq_getElem hj]
    simp only [ambisonicsLabel, if_pos (show j ≤ 24 by omega), push_new hnew]
    simp only [bind, Except.bind, hext]
    exact mono_labels ids hn hl k (j + 1) (by omega)

private theorem zip_all (ids : List UInt32) (ls : List (List Label)) (h : ls.length = ids.length) : allLabels (ids.zip ls) = ls.flatten := by
  unfold allLabels
  rw [List.flatMap_def, List.map_snd_zip (by omega)]

private theorem zip_sizes (ids : List UInt32) (ls : List (List Label)) (h : ∀ l ∈ ls, l.length = 1 ∨ l.length = 2) :
    ∀ s ∈ ids.zip ls, s.2.length = 1 ∨ s.2.length = 2 := fun s hs => h s.2 (List.of_mem_zip hs).2

private theorem channel_labels (l : InputLayout) (ids : List UInt32) (hn : ids.Nodup) (hl : ids.length = l.numSubstreams) (hx : l.elementType = 1) :
    ∃ d, finalizeScalable ids ⟨0, [layerFor l]⟩ = .ok d ∧ d.labels.map Prod.fst = ids ∧ (allLabels d.labels).Perm (inputChannels l) ∧
      ∀ s ∈ d.labels, s.2.length = 1 ∨ s.2.length = 2 := by
  by_cases he : l = .lfe
  · subst he
    match ids, hl with
    | [s], _ =>
      refine ⟨⟨[(s, [.lfe])], [], [⟨0, 1, 0, 0⟩]⟩, ?_, rfl, List.Perm.refl _, by simp⟩
      simp [finalizeScalable, finalizeLayers, layerGroup, layerFor, inputLoudspeakers, kLayoutExpanded, expandedGroup, addSubstreamLabels,
        addCoupled, addSingle, pushLabels, substreamCountsOk, InputLayout.numSubstreams, InputLayout.coupledSubstreams, ScalableLayout.numLayers,
        bind, Except.bind]
  · have key : ∃ ls : List (List Label), allLayers [layerFor l] = some [(layerFor l, ls)] ∧ ls.length = l.numSubstreams ∧
        ls.flatten.Perm (inputChannels l) ∧ ∀ x ∈ ls, x.length = 1 ∨ x.length = 2 := by
      cases l <;> first
        | exact absurd rfl he
        | exact absurd hx (by decide)
        | exact ⟨_, rfl, rfl, by decide, by decide⟩
    obtain ⟨ls, h1, h2, h3, h4⟩ := key
    have hhead : ∀ x ∈ [layerFor l].head?, x.layout ≠ kLayoutExpanded := by
      intro x hx'
      simp only [List.head?_cons, Option.mem_def, Option.some.injEq] at hx'
      subst hx'
      cases l <;> first
        | exact absurd rfl he
        | decide
    obtain ⟨d, hd⟩ := (C27_accepted_iff ids ⟨0, [layerFor l]⟩ ⟨by simp, by simp⟩ hhead).mpr
      ⟨hn, _, h1, by simp [h2, hl]⟩
    obtain ⟨layers, g1, _, g3, g4, _⟩ := C27_labels_and_gains ids ⟨0, [layerFor l]⟩ d ⟨by simp, by simp⟩ hhead hd
    rw [show allLayers [layerFor l] = some [(layerFor l, ls)] from h1] at g1
    have : layers = [(layerFor l, ls)] := (Option.some.inj g1).symm
    subst this
    simp only [List.flatMap_cons, List.flatMap_nil, List.append_nil] at g3 g4
    refine ⟨d, hd, by rw [g3, List.map_fst_zip (by omega)], by rw [g3, zip_all _ _ g4]; exact h3, by rw [g3]; exact zip_sizes _ _ h4⟩

/-! ### One element -/

private theorem config_for (l : InputLayout) (hx : l.elementType = 1) : ∃ m : LayerConfigMetadata, channelConfigFor l = .ok (.scalable 0 [m]) ∧
    layersFromMetadata [m] = .ok [layerFor l] := by
  cases l <;> first
    | exact absurd hx (by decide)
    | exact ⟨_, rfl, by decide +kernel⟩

private theorem scene_type (l : InputLayout) (hx : l.elementType ≠ 1) : l.elementType = 2 ∧
    (l = .ambisonics1 ∨ l = .ambisonics2 ∨ l = .ambisonics3) := by
  cases l <;> simp [InputLayout.elementType] at hx ⊢

private theorem element_made (codecs : List (UInt32 × CodecConfigObu)) (found : List (UInt32 × GeneratedElement)) (r : ElementRequest)
    (counter : Nat) (hc : counter + r.layout.numSubstreams ≤ 4294967296) (codec : CodecConfigObu) (hk : codecs.lookup r.codecConfigId = some codec)
    (hf : ∀ x ∈ found, x.1 ≠ r.id) : ∃ m o, populateElement counter r.id r.codecConfigId r.layout = .ok (m, counter + r.layout.numSubstreams) ∧
      m.id = r.id ∧ m.substreamIds = (List.range r.layout.numSubstreams).map (fun i => UInt32.ofNat (counter + i)) ∧
      generateElementObu codecs found m = .ok o ∧ BuiltFor codecs r o ∧ o.element.obu.substreamIds = m.substreamIds := by
  have hfound : found.any (fun x => x.1 == r.id) = false := by
    rw [List.any_eq_false]
    intro x hx
    simpa using hf x hx
  have hids : ((List.range r.layout.numSubstreams).map (fun i => UInt32.ofNat (counter + i))).Nodup := by
    refine List.Nodup.map_on (fun x hx y hy he => ?_) List.nodup_range
    rw [List.mem_range] at hx hy
    have := congrArg UInt32.toNat he
    rw [UInt32.toNat_ofNat', UInt32.toNat_ofNat', Nat.mod_eq_of_lt (by omega), Nat.mod_eq_of_lt (by omega)] at this
    omega
  have hlen : ((List.range r.layout.numSubstreams).map (fun i => UInt32.ofNat (counter + i))).length = r.layout.numSubstreams := by simp
  generalize hg : (List.range r.layout.numSubstreams).map (fun i => UInt32.ofNat (counter + i)) = ids at hids hlen ⊢
  have hsmall : r.layout.numSubstreams ≤ 16 := by cases r.layout <;> decide
  by_cases hx : r.layout.elementType = 1
  · obtain ⟨m, hm, hls⟩ := config_for r.layout hx
    obtain ⟨d, hd, hd1, hd2, hd3⟩ := channel_labels r.layout ids hids hlen hx
    have hvalid : (ScalableLayout.mk 0 [layerFor r.layout]).valid (UInt32.ofNat ids.length) = true := by
      rw [hlen]
      cases h : r.layout <;> first
        | (rw [h] at hx; exact absurd hx (by decide))
        | decide +kernel
    have hflags : reconGainDefined codec.config.isLossless [layerFor r.layout] [] = true := by
      simp [reconGainDefined, reconFlagsOk, layerFor]
    refine ⟨⟨r.id, r.layout.elementType, 0, r.codecConfigId, ids, [], .scalable 0 [m], .empty⟩,
      ⟨headerFromMetadata ObuType.audioElement .empty, ⟨⟨r.id, 0, 0, r.codecConfigId, ids, [], .scalable ⟨0, [layerFor r.layout]⟩⟩,
      some codec.forElement, d⟩⟩, by unfold populateElement; rw [if_pos hx, hm, hg]; rfl, rfl, rfl, ?_, ?_, rfl⟩
    · unfold generateElementObu
      rw [hfound, hk]
      simp only [Bool.false_eq_true, if_false, elementFromMetadata, hx, if_true, channelElementFromMetadata, hls, bind, Except.bind,
        AudioElement.createScalable, hids, decide_true, Bool.not_true, hvalid, paramsFromMetadata, hd]
      rw [show ([layerFor r.layout].take (ScalableLayout.mk 0 [layerFor r.layout]).numLayers.toNat) = [layerFor r.layout] from rfl, hflags]
      rfl
    · refine ⟨rfl, rfl, ⟨codec, hk, rfl⟩, rfl, hd1, hd2, hd3, fun x e h => ⟨_, rfl, ?_⟩, fun h => ?_⟩
      · exact ⟨by simp [layerFor, h], by simp [layerFor, h], rfl, rfl⟩
      · exfalso
        revert hx h
        cases r.layout <;> decide
  · obtain ⟨ht, hl⟩ := scene_type r.layout hx
    have hmono : ∃ c : AmbisonicsMono, monoFromMetadata (UInt32.ofNat r.layout.numSubstreams) (UInt32.ofNat r.layout.numSubstreams)
        ((List.range r.layout.numSubstreams).map UInt32.ofNat) = .ok c ∧
        c = ⟨UInt8.ofNat r.layout.numSubstreams, (List.range' 0 r.layout.numSubstreams).map UInt8.ofNat⟩ := by
      rcases hl with h | h | h <;> rw [h] <;> exact ⟨_, rfl, rfl⟩
    obtain ⟨c, hc1, hc2⟩ := hmono
    have hlabels := mono_labels ids hids (by omega) ids.length 0 (by omega)
    simp only [List.take_zero, List.range_zero, List.map_nil, List.zip_nil_left] at hlabels
    refine ⟨⟨r.id, r.layout.elementType, 0, r.codecConfigId, ids, [], sceneConfigFor r.layout, .empty⟩,
      ⟨headerFromMetadata ObuType.audioElement .empty, ⟨⟨r.id, 1, 0, r.codecConfigId, ids, [], .ambisonics (.mono c)⟩,
      some codec.forElement, ⟨ids.zip ((List.range ids.length).map fun n => [Label.a n]), [], []⟩⟩⟩,
      by unfold populateElement; rw [if_neg hx, hg]; rfl, rfl, rfl, ?_, ?_, rfl⟩
    · have hnum : (Ambisonics.mono c).numSubstreams = UInt8.ofNat ids.length := by rw [hc2, hlen]; rfl
      have hfin : ∀ e : AudioElement, e.elementType = 1 → e.substreamIds = ids → e.config = .ambisonics (.mono c) →
          finalizeAmbisonics e = .ok (ids.zip ((List.range ids.length).map fun n => [Label.a n])) := by
        intro e h1 h2 h3
        rw [finalizeAmbisonics, if_neg (by rw [h1]; simp), h3]
        simp only [h2, hc2, ← hlen]
        exact hlabels
      unfold generateElementObu
      rw [hfound, hk]
      simp only [Bool.false_eq_true, if_false, elementFromMetadata, ht, (by decide : ¬ (2 : UInt32) = 1), if_true, sceneElementFromMetadata,
        sceneConfigFor, ambisonicsFromMetadata, hc1, bind, Except.bind, AudioElement.createAmbisonics, hids, decide_true, Bool.not_true, hnum,
        ne_eq, not_true_eq_false, paramsFromMetadata]
      rw [hfin _ rfl rfl rfl]
      rfl
    · refine ⟨rfl, rfl, ⟨codec, hk, rfl⟩, rfl, ?_, ?_, ?_, fun x e h => ?_, fun h => ?_⟩
      · exact List.map_fst_zip (by simp)
      · rw [zip_all _ _ (by simp), hlen]
        rcases hl with h | h | h <;> rw [h] <;> decide
      · refine zip_sizes _ _ (fun l hl' => ?_)
        obtain ⟨n, _, rfl⟩ := List.mem_map.mp hl'
        exact .inl rfl
      · rcases hl with h' | h' | h' <;> rw [h'] at h <;> cases h
      · rw [hc2]
        rcases hl with h' | h' | h' <;> rw [h'] <;> rfl

/-! ### All elements -/

private theorem elements_made (codecs : List (UInt32 × CodecConfigObu)) : ∀ (rs : List ElementRequest) (counter : Nat)
    (found : List (UInt32 × GeneratedElement)) (_ : (rs.map (·.id)).Nodup) (_ : ∀ r ∈ rs, ∀ x ∈ found, x.1 ≠ r.id)
    (_ : ∀ r ∈ rs, (codecs.lookup r.codecConfigId).isSome) (_ : counter + (rs.map fun r => r.layout.numSubstreams).sum ≤ 4294967296),
    ∃ ms es, populateElements counter rs = .ok ms ∧ generateElementObus codecs ms found = .ok (found ++ es) ∧ es.map Prod.fst = rs.map (·.id) ∧
      List.Forall₂ (fun r x => BuiltFor codecs r x.2) rs es ∧
      es.flatMap (fun x => x.2.element.obu.substreamIds) =
        (List.range (rs.map fun r => r.layout.numSubstreams).sum).map (fun i => UInt32.ofNat (counter + i))
  | [], counter, found, _, _, _, _ => ⟨[], [], rfl, by simp [generateElementObus], rfl, .nil, rfl⟩
  | r :: rs, counter, found, hn, hf, hc, hs => by
    simp only [List.map_cons, List.nodup_cons] at hn
    simp only [List.map_cons, List.sum_cons] at hs
    obtain ⟨codec, hk⟩ := Option.isSome_iff_exists.mp (hc r List.mem_cons_self)
    obtain ⟨m, o, h1, h2, h3, h4, h5, h6⟩ := element_made codecs found r counter (by omega) codec hk (hf r List.mem_cons_self)
    obtain ⟨ms, es, g1, g2, g3, g4, g5⟩ := elements_made codecs rs (counter + r.layout.numSubstreams) (found ++ [(r.id, o)]) hn.2
      (fun r' hr' x hx => by
        rw [List.mem_append, List.mem_singleton] at hx
        rcases hx with hx | rfl
        · exact hf r' (List.mem_cons_of_mem _ hr') x hx
        · intro he
          exact hn.1 (List.mem_map.mpr ⟨r', hr', he.symm⟩))
      (fun r' hr' => hc r' (List.mem_cons_of_mem _ hr')) (by omega)
    refine ⟨m :: ms, (r.id, o) :: es, by simp only [populateElements, h1, bind, Except.bind, g1], ?_, by simp [g3], .cons h5 g4, ?_⟩
    · simp only [generateElementObus, h4, bind, Except.bind, h2, g2]
      simp
    · rw [List.flatMap_cons, h6, h3, g5, List.map_cons, List.sum_cons, List.range_add, List.map_append, List.map_map]
      congr 1
      refine List.map_congr_left (fun i _ => ?_)
      simp [Nat.add_assoc]

/-- **C66 (elements are accepted).** Whatever elements one builder is asked for, with different ids, codec configs that there are and no more
than 2³² substreams, metadata are made for all of them, audio elements are made from these, in the same order, each is what was asked for,
and no substream id is used twice: they are the numbers from 0 on. -/
theorem C66_elements_are_made (codecs : List (UInt32 × CodecConfigObu)) (rs : List ElementRequest) (hn : (rs.map (·.id)).Nodup)
    (hc : ∀ r ∈ rs, (codecs.lookup r.codecConfigId).isSome) (hs : (rs.map fun r => r.layout.numSubstreams).sum ≤ 4294967296) :
    ∃ ms es, populateElements 0 rs = .ok ms ∧ generateElementObus codecs ms [] = .ok es ∧ es.map Prod.fst = rs.map (·.id) ∧
      List.Forall₂ (fun r x => BuiltFor codecs r x.2) rs es ∧
      (es.flatMap fun x => x.2.element.obu.substreamIds).Nodup ∧
      (es.flatMap fun x => x.2.element.obu.substreamIds).map UInt32.toNat = List.range (rs.map fun r => r.layout.numSubstreams).sum := by
  obtain ⟨ms, es, h1, h2, h3, h4, h5⟩ := elements_made codecs rs 0 [] hn (fun _ _ _ hx => (by cases hx)) hc (by omega)
  rw [List.nil_append] at h2
  have hnat : (es.flatMap fun x => x.2.element.obu.substreamIds).map UInt32.toNat = List.range (rs.map fun r => r.layout.numSubstreams).sum := by
    rw [h5, List.map_map]
    conv_rhs => rw [← List.map_id (List.range _)]
    refine List.map_congr_left (fun i hi => ?_)
    rw [List.mem_range] at hi
    rw [Function.comp, UInt32.toNat_ofNat', Nat.mod_eq_of_lt (by omega)]
    simp
  refine ⟨ms, es, h1, h2, h3, h4, ?_, hnat⟩
  refine List.Nodup.of_map UInt32.toNat ?_
  rw [hnat]
  exact List.nodup_range

private theorem populated (codecs : List (UInt32 × CodecConfigObu))
    (hframes : ∀ k c, codecs.lookup k = some c → c.config.numSamplesPerFrame ≠ 0) : ∀ (rs : List ElementRequest) (counter : Nat)
    (ms : List ElementMetadata) (_ : populateElements counter rs = .ok ms), ∀ m ∈ ms, PlausibleElement codecs m ∧ m.header = .empty
  | [], counter, ms, h => by
    cases h
    simp
  | r :: rs, counter, ms, h => by
    rw [populateElements, bind_ok] at h
    obtain ⟨x, hx, h⟩ := h
    rw [bind_ok] at h
    obtain ⟨ms', hm, h⟩ := h
    cases h
    intro m hm'
    rw [List.mem_cons] at hm'
    rcases hm' with rfl | hm'
    · unfold populateElement at hx
      rw [bind_ok] at hx
      obtain ⟨config, hc, hx⟩ := hx
      cases hx
      refine ⟨⟨fun c hc => hframes _ c hc, fun r' ls hl => ?_, ?_, fun p hp => (by cases hp)⟩, rfl⟩
      · simp only at hl
        subst hl
        by_cases ht : r.layout.elementType = 1
        · rw [if_pos ht] at hc
          obtain ⟨m, hm, _⟩ := config_for r.layout ht
          rw [hm] at hc
          cases hc
          simp
        · rw [if_neg ht] at hc
          cases hc
      · simp only [List.length_map, List.length_range]
        cases r.layout <;> decide
    · exact populated codecs hframes rs _ ms' hm m hm'

/-- **C66 (written elements).** What is written for an element from the builder is read as that element. -/
theorem C66_written_elements_are_read (codecs : List (UInt32 × CodecConfigObu))
    (hframes : ∀ k c, codecs.lookup k = some c → c.config.numSamplesPerFrame ≠ 0) (rs : List ElementRequest) (ms : List ElementMetadata)
    (hp : populateElements 0 rs = .ok ms) (es : List (UInt32 × GeneratedElement)) (hg : generateElementObus codecs ms [] = .ok es)
    (x : UInt32 × GeneratedElement) (hx : x ∈ es) (g : LebGen) (footer bytes : List UInt8)
    (hw : Writes g (wObu x.2.header x.2.element.obu.write footer) bytes) :
    ReadsBack (rObu fun _ => AudioElement.read) bytes (x.2.header, carriedElement x.2.element.obu, footer) := by
  have hm := populated codecs hframes rs 0 ms hp
  obtain ⟨_, hall⟩ := (C62_elements codecs ms (fun m h => (hm m h).1) es).mp hg
  obtain ⟨i, hi, he⟩ := List.mem_iff_getElem.mp hx
  have hi' : i < ms.length := by rw [hall.length_eq]; exact hi
  obtain ⟨_, hs⟩ := (List.forall₂_iff_get.mp hall).2 i hi' hi
  simp only [List.get_eq_getElem, he] at hs
  have hmi := hm _ (List.getElem_mem hi')
  refine C62_written_element_is_read codecs _ hmi.1 x.2 hs (by rw [hmi.2]; rfl) (by rw [hmi.2]; rfl) g footer bytes hw

/-- **C66 (frames).** For every layout the builder for frames names the channels of the input in their usual order, with the channels of
the file numbered from 0, trims nothing, and leaves it to the encoder to add what codec delay and padding need; no channel is named twice. -/
theorem C66_frames (id : UInt32) (l : InputLayout) :
    populateFrame id l = .ok ⟨id, inputChannels l, 0, 0, false, false⟩ ∧ fillLabels (inputChannels l) [] = .ok (inputChannels l) ∧
      (channelsFor l).map (fun c => c.2.toNat) = List.range (inputChannels l).length ∧
      List.Forall₂ (fun c x => labelFromProto c.1 = .ok x) (channelsFor l) (inputChannels l) := by
  refine ⟨?_, ?_, ?_, ?_⟩
  · cases l <;> rfl
  · cases l <;> rfl
  · cases l <;> rfl
  · cases l <;> (simp only [channelsFor, InputLayout.protoChannels, inputChannels]; repeat first | exact .nil | refine .cons rfl ?_)

private theorem lookup_mem {α β : Type} [BEq α] [LawfulBEq α] : ∀ {m : List (α × β)} (_ : (m.map Prod.fst).Nodup) {x : α} {y : β},
    m.lookup x = some y ↔ (x, y) ∈ m
  | [], _, _, _ => by simp
  | (a, b) :: m, hn, x, y => by
    simp only [List.map_cons, List.nodup_cons] at hn
    rw [List.lookup_cons, List.mem_cons, Prod.mk.injEq]
    by_cases h : x = a
    · subst h
      simp only [beq_self_eq_true, Option.some.injEq, true_and]
      refine ⟨fun e => .inl e.symm, fun e => e.elim Eq.symm (fun h' => absurd (List.mem_map.mpr ⟨_, h', rfl⟩) hn.1)⟩
    · rw [show (x == a) = false from by simpa using h]
      simp [h, lookup_mem hn.2]

/-- **C66 (labels of the proto).** A label of the proto is an internal label exactly if that is the label of the proto: the conversions are
inverse to each other, so no two labels are mixed up; labels of channels that are only ever computed have no number. -/
theorem C66_labels (x : UInt32) (l : Label) : labelFromProto x = .ok l ↔ labelToProto l = .ok x := by
  have keys : (allProtoLabels.map Prod.fst).Nodup := by decide +kernel
  have vals : (allProtoLabels.map Prod.snd).Nodup := by decide +kernel
  have left : labelFromProto x = .ok l ↔ (x, l) ∈ allProtoLabels := by
    unfold labelFromProto
    rw [← lookup_mem keys]
    cases h : allProtoLabels.lookup x <;> simp
  have right : labelToProto l = .ok x ↔ (x, l) ∈ allProtoLabels := by
    unfold labelToProto
    cases h : allProtoLabels.find? (fun y => y.2 == l) with
    | none =>
      simp only [List.find?_eq_none, beq_iff_eq] at h
      exact ⟨fun h' => (by simp at h'), fun h' => absurd rfl (h _ h')⟩
    | some y =>
      have hm := List.mem_of_find?_eq_some h
      have hy : y.2 = l := by simpa using List.find?_some h
      simp only [Except.ok.injEq]
      refine ⟨fun e => by rw [← e, ← hy]; exact hm, fun h' => ?_⟩
      have := List.inj_on_of_nodup_map vals hm h' hy
      rw [this]
  rw [left, right]

/-! ### Codecs -/

/-- **C66 (LPCM).** The metadata for LPCM are accepted exactly if the frames are not empty and have at most 96000 samples, and the sample
size and the sample rate are among those of IAMF; the samples are then little endian, whatever the delay of the codec is said to be. -/
theorem C66_lpcm (delay : CodecMetadata → CodecConfig → Except Err UInt32) (hd : ∀ m c, ∃ n, delay m c = .ok n) (id n : UInt32) (size : UInt8)
    (rate : UInt32) (o : CodecConfigObu) :
    generateCodecConfig delay (lpcmCodecMetadata id n size rate) = .ok o ↔
      (1 ≤ n.toNat ∧ n.toNat ≤ 96000) ∧ size.toNat ∈ [16, 24, 32] ∧ rate.toNat ∈ [16000, 32000, 44100, 48000, 96000] ∧
      o = ⟨⟨0, false, false, 0, 0, none⟩, ⟨id, 0x6970636d, n, 0, .lpcm ⟨1, size, rate⟩⟩, rate, rate, size⟩ := by
  rw [C61_codec_config]
  constructor
  · intro h
    obtain ⟨d, h1, h2, h3, h4⟩ := h.decoder
    simp only [lpcmCodecMetadata, if_true] at h1 h4
    cases d with
    | lpcm c =>
      obtain ⟨m, hm1, hm2⟩ := h4
      have hs : c = ⟨1, size, rate⟩ := by
        obtain ⟨g1, g2, g3⟩ := h1
        have e1 : c.formatFlags = 1 := by
          rcases g1 with g1 | g1
          · exact absurd (show (2 : UInt32).toNat = 1 from g1.1) (by decide)
          · exact g1.2
        have e2 : c.sampleSize = size := by
          apply UInt8.toNat_inj.mp
          simpa using g2
        cases c
        simp only at e1 e2 g3
        rw [e1, e2, g3]
      subst hs
      have hid : o.config.codecId = 0x6970636d := by
        apply UInt32.toNat_inj.mp
        rw [h3]
        rfl
      have hr := h.rates
      have hroll := h.roll
      have hconf : o.config.decoderConfig = .lpcm ⟨1, size, rate⟩ := hm2
      obtain ⟨k1, k2, k3⟩ := h.samples
      simp only [lpcmCodecMetadata] at k1
      rw [k1] at k2 k3
      refine ⟨⟨k2, k3⟩, h2.2, h2.1, ?_⟩
      have hi := h.id
      have hh := (metadata_header _ _ _).mpr h.header
      simp only [lpcmCodecMetadata] at hi hh
      have e0 : o.config.audioRollDistance = 0 := by
        apply Int16.toInt_inj.mp
        rw [hroll, hconf]
        rfl
      rw [codecRates, hconf] at hr
      simp only [Prod.mk.injEq, UInt32.toNat_inj, UInt8.toNat_inj] at hr
      obtain ⟨header, config, a, b, c⟩ := o
      obtain ⟨c1, c2, c3, c4, c5⟩ := config
      simp only at hi hh hid k1 e0 hconf hr
      rw [hi, hh, hid, k1, e0, hconf, hr.1, hr.2.1, hr.2.2]
      rfl
    | opus c => exact absurd h1 (by simp [SaysDecoder])
    | flac c => exact absurd h1 (by simp [SaysDecoder])
    | aac c => exact absurd h1 (by simp [SaysDecoder])
  · rintro ⟨h1, h2, h3, rfl⟩
    refine ⟨(metadata_header _ _ _).mp rfl, rfl, ⟨rfl, rfl⟩, ⟨rfl, h1⟩, ⟨by show (-32768 : Int) ≤ 0; decide, by show (0 : Int) ≤ 32767; decide⟩, rfl,
      ⟨.lpcm ⟨1, size, rate⟩, ⟨.inr ⟨rfl, rfl⟩, by simp [lpcmCodecMetadata], rfl⟩, ⟨h3, h2⟩, rfl, ?_⟩, rfl⟩
    obtain ⟨m, hm⟩ := hd (lpcmCodecMetadata id n size rate).codecConfig ⟨id, 0x6970636d, n, 0, .lpcm ⟨1, size, rate⟩⟩
    exact ⟨m, hm, rfl⟩

/-- **C66 (Opus).** A codec config made from the metadata for Opus has the id and the frame size that were asked for, 1 to 96000 samples, and
the roll distance that this frame size requires; rates are 48 kHz. -/
theorem C66_opus (delay : CodecMetadata → CodecConfig → Except Err UInt32) (id n : UInt32) (o : CodecConfigObu)
    (h : generateCodecConfig delay (opusCodecMetadata id n) = .ok o) :
    o.config.configId = id ∧ o.config.numSamplesPerFrame = n ∧ (1 ≤ n.toNat ∧ n.toNat ≤ 96000) ∧ o.outputRate = 48000 ∧ o.inputRate = 48000 ∧
      o.bitDepth = 32 ∧ o.config.audioRollDistance.toInt = -(((3840 + n.toNat - 1) / n.toNat : Nat) : Int) ∧
      ∃ k, o.config.decoderConfig = .opus ⟨1, 2, k, 48000, 0, 0⟩ := by
  rw [C61_codec_config] at h
  obtain ⟨d, h1, h2, h3, h4⟩ := h.decoder
  simp only [opusCodecMetadata, if_true] at h1 h4
  cases d with
  | opus c =>
    obtain ⟨m, hm1, hm2⟩ := h4
    have hs : withDelay m.toUInt16 (.opus c) = .opus ⟨1, 2, m.toUInt16, 48000, 0, 0⟩ := by
      obtain ⟨g1, g2, g3, g4, g5, g6⟩ := h1
      obtain ⟨x1, x2, x3, x4, x5, x6⟩ := c
      simp only at g1 g2 g4 g5 g6
      rw [withDelay, (UInt8.toNat_inj (b := 1)).mp g1, (UInt8.toNat_inj (b := 2)).mp g2, g4, (Int16.toInt_inj (y := 0)).mp g5,
        (UInt8.toNat_inj (b := 0)).mp g6]
    rw [hs] at hm2
    have hr := h.rates
    rw [codecRates, hm2] at hr
    simp only [Prod.mk.injEq] at hr
    have hroll := h.roll
    obtain ⟨k1, k2, k3⟩ := h.samples
    simp only [opusCodecMetadata, if_true] at k1 hroll
    rw [hm2, k1] at hroll
    rw [k1] at k2 k3
    exact ⟨h.id, k1, ⟨k2, k3⟩, UInt32.toNat_inj.mp hr.1, UInt32.toNat_inj.mp hr.2.1, UInt8.toNat_inj.mp hr.2.2, hroll, _, hm2⟩
  | lpcm c => exact absurd h1 (by simp [SaysDecoder])
  | flac c => exact absurd h1 (by simp [SaysDecoder])
  | aac c => exact absurd h1 (by simp [SaysDecoder])

/-- **C66 (Opus is accepted).** If the library tells its delay, the metadata for Opus are accepted exactly if the frames have 1 to 96000
samples. -/
theorem C66_opus_accepted (delay : CodecMetadata → CodecConfig → Except Err UInt32) (hd : ∀ m c, ∃ n, delay m c = .ok n) (id n : UInt32) :
    (∃ o, generateCodecConfig delay (opusCodecMetadata id n) = .ok o) ↔ 1 ≤ n.toNat ∧ n.toNat ≤ 96000 := by
  refine ⟨fun ⟨o, h⟩ => (C66_opus delay id n o h).2.2.1, fun h => ?_⟩
  obtain ⟨k, hk⟩ := hd (opusCodecMetadata id n).codecConfig
    ⟨id, 0x4f707573, n, Int16.ofInt (-(((3840 + n.toNat - 1) / n.toNat : Nat) : Int)), .opus ⟨1, 2, 0, 48000, 0, 0⟩⟩
  refine ⟨⟨⟨0, false, false, 0, 0, none⟩, ⟨id, 0x4f707573, n, Int16.ofInt (-(((3840 + n.toNat - 1) / n.toNat : Nat) : Int)),
    .opus ⟨1, 2, k.toUInt16, 48000, 0, 0⟩⟩, 48000, 48000, 32⟩, (C61_codec_config _ _ _).mpr ?_⟩
  have hle : (3840 + n.toNat - 1) / n.toNat ≤ 3840 := by
    refine Nat.div_le_of_le_mul ?_
    omega
  refine ⟨(metadata_header _ _ _).mp rfl, rfl, ⟨rfl, rfl⟩, ⟨rfl, h⟩, ⟨by show (-32768 : Int) ≤ 0; decide, by show (0 : Int) ≤ 32767; decide⟩, ?_,
    ⟨.opus ⟨1, 2, 0, 48000, 0, 0⟩, ⟨rfl, rfl, rfl, rfl, rfl, rfl⟩, trivial, rfl, k, hk, rfl⟩, rfl⟩
  show (Int16.ofInt (-(((3840 + n.toNat - 1) / n.toNat : Nat) : Int))).toInt = -(((3840 + n.toNat - 1) / n.toNat : Nat) : Int)
  generalize (3840 + n.toNat - 1) / n.toNat = q at hle ⊢
  exact Int16.toInt_ofInt_of_le (by omega) (by omega)

/-! ### Examples -/

private def exampleCodec : CodecConfigObu :=
  ⟨⟨0, false, false, 0, 0, none⟩, ⟨7, 0x6970636d, 1024, 0, .lpcm ⟨1, 16, 48000⟩⟩, 48000, 48000, 16⟩

private def exampleRequests : List ElementRequest := [⟨300, 7, .l51⟩, ⟨301, 7, .ambisonics1⟩, ⟨302, 7, .lfe⟩]

/-- Not vacuous: 5.1, first order ambisonics and an LFE with the metadata for LPCM. -/
theorem C66_example : generateCodecConfigs (fun _ _ => .ok 0) [lpcmCodecMetadata 7 1024 16 48000] [] = .ok [(7, exampleCodec)] ∧
    (exampleRequests.map (·.id)).Nodup ∧ (∀ r ∈ exampleRequests, (List.lookup r.codecConfigId [(7, exampleCodec)]).isSome) ∧
    (exampleRequests.map fun r => r.layout.numSubstreams).sum = 9 ∧
    (match populateElements 0 exampleRequests with
      | .error _ => none
      | .ok ms => match generateElementObus [(7, exampleCodec)] ms [] with
        | .error _ => none
        | .ok es => some (es.map fun x => x.2.element.data.labels)) =
      some [[(0, [.l5, .r5]), (1, [.ls5, .rs5]), (2, [.centre]), (3, [.lfe])], [(4, [.a 0]), (5, [.a 1]), (6, [.a 2]), (7, [.a 3])], [(8, [.lfe])]] ∧
    inputLayoutFromPackFormat "AP_00010003" = .ok .l51 := by
  refine ⟨by decide +kernel, by decide, by decide, by decide, by decide +kernel, by decide +kernel⟩

/-- **C66 (layouts of ADM).** The pack formats of ADM that are known, and what they are. -/
theorem C66_pack_formats (s : String) (l : InputLayout) : inputLayoutFromPackFormat s = .ok l ↔ (s, l) ∈
    [("AP_00010001", InputLayout.mono), ("AP_00010002", .stereo), ("AP_00010003", .l51), ("AP_00010004", .l512), ("AP_00010005", .l514),
     ("AP_0001000f", .l71), ("AP_00010017", .l714), ("AP_00011FFF", .lfe), ("AP_00040001", .ambisonics1), ("AP_00040002", .ambisonics2),
     ("AP_00040003", .ambisonics3), ("AP_00050001", .binaural)] := by
  unfold inputLayoutFromPackFormat
  have key : ∀ m : List (String × InputLayout), (m.map Prod.fst).Nodup → ((match m.lookup s with
      | some l => Except.ok l
      | none => .error Err.notFound) = Except.ok l ↔ (s, l) ∈ m) := by
    intro m hm
    rw [← lookup_mem hm]
    cases m.lookup s <;> simp
  refine (key _ (by decide +kernel)).trans ?_
  simp only [List.mem_cons, List.not_mem_nil, or_false]
  tauto

/-- **C66 (finding).** Identifiers of pack formats are hexadecimal numbers, but they are compared as text: 7.1 is known only with a small
letter, and the LFE only with capital ones. -/
theorem C66_pack_formats_are_compared_as_text : inputLayoutFromPackFormat "AP_0001000f" = .ok .l71 ∧
    inputLayoutFromPackFormat "AP_0001000F" = .error .notFound ∧ inputLayoutFromPackFormat "AP_00011FFF" = .ok .lfe ∧
    inputLayoutFromPackFormat "AP_00011fff" = .error .notFound := by decide +kernel

/-- C66: channels of ambisonics have labels of the proto up to order four, and no number of ambisonics is one of another channel. -/
theorem C66_ambisonics_labels (n : Nat) (x : UInt32) : labelToProto (.a n) = .ok x ↔ n < 25 ∧ x.toNat = 1000 + n := by
  rw [← C66_labels]
  have left : labelFromProto x = .ok (.a n) ↔ (x, Label.a n) ∈ allProtoLabels := by
    have keys : (allProtoLabels.map Prod.fst).Nodup := by decide +kernel
    unfold labelFromProto
    rw [← lookup_mem keys]
    cases h : allProtoLabels.lookup x <;> simp
  rw [left]
  unfold allProtoLabels
  rw [List.mem_append]
  have none : (x, Label.a n) ∉ protoLabels := by
    unfold protoLabels
    simp
  constructor
  · rintro (h | h)
    · exact absurd h none
    · obtain ⟨k, hk, he⟩ := List.mem_map.mp h
      rw [List.mem_range] at hk
      rw [Prod.mk.injEq, Label.a.injEq] at he
      obtain ⟨rfl, rfl⟩ := he
      refine ⟨hk, ?_⟩
      rw [UInt32.toNat_ofNat_of_lt' (show _ < 4294967296 by omega)]
  · rintro ⟨h1, h2⟩
    refine .inr (List.mem_map.mpr ⟨n, List.mem_range.mpr h1, ?_⟩)
    rw [← h2, UInt32.ofNat_toNat]

end Iamf.Props
