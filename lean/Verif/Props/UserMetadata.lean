import Verif.Cli.UserMetadata
import Verif.Props.ObuGenerator
import Verif.Props.EncoderExamples
import Verif.Props.Finalizer
import Verif.Props.EndToEnd

/-!
# C65: from user metadata to what a decoder reads

User metadata describe a whole IA sequence.  An encoder that is made from them holds bytes from which a decoder reads descriptor OBUs that say what
the metadata say.
-/

namespace Iamf.Props
open Iamf

/-- No trimming in an OBU header. -/
def NoTrim (h : HeaderMetadata) : Prop := h.trimEnd = 0 ∧ h.trimStart = 0

/-- Metadata of sizes that messages and OBUs can have, without trimming in headers of descriptors; the mixes refer to audio elements there are;
elements are made of channels or scenes; arbitrary OBUs are of reserved types, and not before the descriptors. -/
structure Transportable (u : UserMetadata) : Prop where
  sequenceHeaders : ∀ m ∈ u.sequenceHeaders, NoTrim m.header
  codecs : ∀ m ∈ u.codecs, NoTrim m.header ∧ ∀ blocks, m.codecConfig.decoderConfig = .flac blocks → blocks.length ≤ 128
  elements : ∀ m ∈ u.elements, NoTrim m.header ∧ m.type ≠ 3 ∧ (∀ r ls, m.config = .scalable r ls → ls.length ≤ 255) ∧
    m.substreamIds.length ≤ 255 ∧ ∀ p ∈ m.params, (∀ d, p.content = .demixing d → Short d.definition) ∧ ∀ d, p.content = .reconGain d → Short d
  mixes : ∀ m ∈ u.mixes, NoTrim m.header ∧ PlausibleMix m ∧ m.languages.length ≤ 256 ∧ m.subMixes.length ≤ 28 ∧
    ∀ s ∈ m.subMixes, ∀ e ∈ s.elements, ∃ x ∈ u.elements, x.id = e.id
  arbitrary : ∀ m ∈ u.arbitrary, NoTrim m.header ∧ m.insertionHook ≠ 1 ∧ 25 ≤ m.obuType.toNat ∧ m.obuType.toNat ≤ 31

/-- A sequence header that says what the metadata say: profiles are numbered from 1 in metadata. -/
def SaysSequenceHeader (m : SequenceHeaderMetadata) (h : ObuHeader) (o : IaSequenceHeader) : Prop :=
  SaysHeader 31 m.header h ∧ o.primaryProfile.toNat ≤ 5 ∧ o.additionalProfile.toNat ≤ 5 ∧
    m.primaryProfile.map UInt32.toNat = some (o.primaryProfile.toNat + 1) ∧
    m.additionalProfile.map UInt32.toNat = some (o.additionalProfile.toNat + 1)

/-- A codec config that was declared with an id: by the first metadata that have it. -/
def DeclaredCodec (delay : CodecMetadata → CodecConfig → Except Err UInt32) (ms : List CodecConfigMetadata) (id : UInt32) (o : CodecConfigObu) : Prop :=
  ∃ before m after, ms = before ++ m :: after ∧ m.configId = id ∧ (∀ x ∈ before, x.configId ≠ id) ∧ GeneratedFrom delay m o

/-- Codec configs: one for each id, namely the one that is declared. -/
def DeclaredCodecs (delay : CodecMetadata → CodecConfig → Except Err UInt32) (ms : List CodecConfigMetadata) (cs : List (UInt32 × CodecConfigObu)) : Prop :=
  (cs.map Prod.fst).Nodup ∧ ∀ id o, (id, o) ∈ cs ↔ DeclaredCodec delay ms id o

/-- The descriptors that a decoder has read say what the metadata say.  (Elements and presentations are as they are in a bitstream: C10, C11.) -/
structure Declared (delay : CodecMetadata → CodecConfig → Except Err UInt32) (u : UserMetadata) (x : Descriptors) : Prop where
  sequenceHeader : ∃ m h o, u.sequenceHeaders = [m] ∧ x.iaHeader = some (h, o) ∧ SaysSequenceHeader m h o
  codecs : ∃ cs, DeclaredCodecs delay u.codecs cs ∧
    x.codecs.Perm (cs.map fun c => (c.1, ⟨c.2.config, c.2.outputRate, c.2.inputRate, c.2.bitDepth⟩)) ∧
    ∃ es : List (UInt32 × GeneratedElement), List.Forall₂ (fun m e => e.1 = m.id ∧ SaysElement cs m e.2) u.elements es ∧ (u.elements.map fun m => m.id).Nodup ∧
      x.elements.Perm (es.map fun e => (e.1, elementBack e.2.element))
  mixes : ∃ ps : List (ObuHeader × MixPresentation), List.Forall₂ (fun m p => SaysMix u.addBuildTag m p.1 p.2) u.mixes ps ∧
    x.mixes = ps.map fun p => carriedMix p.1.optionalFieldsFlag p.2

/-! ### Proofs -/

private theorem bind_ok {α β : Type} (x : Except Err α) (f : α → Except Err β) (b : β) :
    (x >>= f) = .ok b ↔ ∃ a, x = .ok a ∧ f a = .ok b := by
  cases x with
  | error e => exact ⟨fun h => by simp [bind, Except.bind] at h, fun ⟨a, h, _⟩ => by simp at h⟩
  | ok a => exact ⟨fun h => ⟨a, rfl, h⟩, fun ⟨a', h, h'⟩ => by cases h; exact h'⟩

private theorem partner {α β : Type} {R : α → β → Prop} {xs : List α} {ys : List β} (h : List.Forall₂ R xs ys) : ∀ y ∈ ys, ∃ x ∈ xs, R x y := by
  induction h with
  | nil => simp
  | cons h _ ih =>
    intro y hy
    rcases List.mem_cons.mp hy with rfl | hy
    · exact ⟨_, List.mem_cons_self, h⟩
    · obtain ⟨x, hx, hr⟩ := ih y hy
      exact ⟨x, List.mem_cons_of_mem _ hx, hr⟩

private theorem partner' {α β : Type} {R : α → β → Prop} {xs : List α} {ys : List β} (h : List.Forall₂ R xs ys) : ∀ x ∈ xs, ∃ y ∈ ys, R x y := by
  induction h with
  | nil => simp
  | cons h _ ih =>
    intro x hx
    rcases List.mem_cons.mp hx with rfl | hx
    · exact ⟨_, List.mem_cons_self, h⟩
    · obtain ⟨y, hy, hr⟩ := ih x hx
      exact ⟨y, List.mem_cons_of_mem _ hy, hr⟩

private theorem plain_of {t : ObuType} {m : HeaderMetadata} {h : ObuHeader} (hs : SaysHeader t m h) (hn : NoTrim m) : Plain t h :=
  ⟨hs.type, by rw [hs.trimEnd, hn.1], by rw [hs.trimStart, hn.2]⟩

private theorem rates_delay (c : CodecConfig) (n : UInt16) (c' : CodecConfig) (h : c.setCodecDelay n = .ok c') : c'.rates = c.rates := by
  unfold CodecConfig.setCodecDelay at h
  split at h
  · cases h; rfl
  · split at h
    next h1 h2 =>
      split at h
      next d hd =>
        cases h
        unfold CodecConfig.rates
        simp only [h2, if_true, hd]
      · cases h
    · cases h

private theorem codec_rates {delay : CodecMetadata → CodecConfig → Except Err UInt32} {m : CodecConfigMetadata} {o : CodecConfigObu}
    (h : GeneratedFrom delay m o) : o.config.rates = .ok (o.outputRate, o.inputRate, o.bitDepth) := by
  have hg := (C61_codec_config delay m o).mpr h
  unfold generateCodecConfig at hg
  simp only [bind_ok, Except.ok.injEq] at hg
  obtain ⟨id, -, roll, -, dec, -, r, hr, c, hc, rfl⟩ := hg
  have h1 : r.1.rates = .ok r.2 := by
    unfold CodecConfig.create at hr
    split at hr
    · cases hr
    · split at hr
      · cases hr
      next v hv =>
        split at hr
        · split at hr
          · cases hr
          · cases hr; exact hv
        · cases hr; exact hv
  have h2 : c.rates = r.1.rates := by
    unfold overrideCodecDelay at hc
    split at hc
    · simp only [bind_ok] at hc
      obtain ⟨n, -, hc⟩ := hc
      exact rates_delay _ _ _ hc
    · cases hc; rfl
  show c.rates = _
  rw [h2, h1]

/-- The parts of the sequence of OBUs. -/
private theorem sequence_iff (delay : CodecMetadata → CodecConfig → Except Err UInt32) (u : UserMetadata) (d : SequenceObus) :
    sequenceFromMetadata delay u = .ok d ↔ ∃ m h o, u.sequenceHeaders = [m] ∧ generateSequenceHeader m = .ok (some (h, o)) ∧
      ∃ ms, generateMetadataObus u.metadataObus = .ok ms ∧ ∃ cs, generateCodecConfigs delay u.codecs [] = .ok cs ∧
      ∃ es, generateElementObus cs u.elements [] = .ok es ∧ ∃ ps, generateMixes u.addBuildTag u.mixes = .ok ps ∧
      ∃ as, generateArbitraryObus u.arbitrary = .ok as ∧
      d = ⟨⟨h, o, []⟩, ms, cs.map fun c => (c.1, ⟨c.2.header, c.2.forElement, []⟩), es.map fun e => (e.1, ⟨e.2.header, e.2.element, []⟩),
        ps.map fun x => ⟨x.1, x.2, []⟩, as⟩ := by
  unfold sequenceFromMetadata
  split
  next m hm =>
    split
    next e he =>
      simp only [reduceCtorEq, false_iff]
      rintro ⟨m', h, o, h1, h2, -⟩
      rw [hm] at h1
      cases h1
      rw [he] at h2
      cases h2
    next he =>
      simp only [reduceCtorEq, false_iff]
      rintro ⟨m', h, o, h1, h2, -⟩
      rw [hm] at h1
      cases h1
      rw [he] at h2
      cases h2
    next header he =>
      simp only [bind_ok, Except.ok.injEq]
      constructor
      · rintro ⟨ms, h1, cs, h2, es, h3, ps, h4, as, h5, rfl⟩
        exact ⟨m, header.1, header.2, hm, he, ms, h1, cs, h2, es, h3, ps, h4, as, h5, rfl⟩
      · rintro ⟨m', h, o, h1, h2, ms, h3, cs, h4, es, h5, ps, h6, as, h7, rfl⟩
        rw [hm] at h1
        cases h1
        rw [he] at h2
        cases h2
        exact ⟨ms, h3, cs, h4, es, h5, ps, h6, as, h7, rfl⟩
  next hne =>
    simp only [reduceCtorEq, false_iff]
    rintro ⟨m, h, o, h1, -⟩
    exact hne m h1

private theorem carried_layer {m : LayerConfigMetadata} {l : ChannelLayer} (h : SaysLayerConfig m l) : carriedLayer l = l := by
  obtain ⟨lay, ogp, rgp, ra, sc, csc, ogf, rb, og, ex⟩ := l
  unfold carriedLayer
  simp only
  have hg := h.noGain
  have he := h.expanded
  simp only at hg he
  congr 1
  · split
    · rfl
    next hf => exact (hg (by simpa using hf)).1.symm
  · split
    · rfl
    next hf => exact (hg (by simpa using hf)).2.1.symm
  · split
    · rfl
    next hf => exact (hg (by simpa using hf)).2.2.symm
  · split
    · rfl
    next hf =>
      cases ex with
      | none => rfl
      | some e =>
        have := ((he e).mp rfl).1
        exact absurd (UInt8.toNat_inj.mp (show lay.toNat = (15 : UInt8).toNat from this)) hf

private theorem carried_layers {ms : List LayerConfigMetadata} {ls : List ChannelLayer} (h : List.Forall₂ SaysLayerConfig ms ls) :
    ls.map carriedLayer = ls := by
  induction h with
  | nil => rfl
  | cons h _ ih => rw [List.map_cons, carried_layer h, ih]

private theorem lookup_map {α β : Type} (f : α → β) (i : UInt32) : ∀ l : List (UInt32 × α),
    (l.map fun c => (c.1, f c.2)).lookup i = (l.lookup i).map f
  | [] => rfl
  | (k, v) :: l => by
    rw [List.map_cons, List.lookup_cons, List.lookup_cons, lookup_map f i l]
    cases i == k <;> rfl

private theorem element_back {cs : List (UInt32 × CodecConfigObu)} {m : ElementMetadata} (h3 : m.type ≠ 3) {o : GeneratedElement}
    (h : SaysElement cs m o) : generateElement (cs.map fun c => (c.1, c.2.forElement)) (carriedElement o.element.obu) = .ok (elementBack o.element) := by
  obtain ⟨codec, hc, he, ⟨-, r, layers, ls, hs⟩ | ⟨-, a, c, hs⟩ | ⟨ht, -⟩⟩ := h.element
  · have hl : carriedElement o.element.obu =
        ⟨m.id, 0, m.reserved.toUInt8, m.codecConfigId, m.substreamIds, o.element.obu.params.map carriedDef, .scalable ⟨0, ls⟩⟩ := by
      rw [hs.obu]
      simp only [carriedElement, carried_layers hs.each]
    unfold generateElement elementBack
    rw [hl]
    simp only [if_true, hs.data, bind, Except.bind, lookup_map, hc, Option.map_some, he]
    rfl
  · have hl : carriedElement o.element.obu =
        ⟨m.id, 1, m.reserved.toUInt8, m.codecConfigId, m.substreamIds, o.element.obu.params.map carriedDef, .ambisonics c⟩ := by
      rw [hs.obu]
      rfl
    have hf : finalizeAmbisonics ⟨m.id, 1, m.reserved.toUInt8, m.codecConfigId, m.substreamIds, o.element.obu.params.map carriedDef, .ambisonics c⟩ =
        .ok o.element.data.labels := by
      have := hs.labels
      rw [hs.obu] at this
      exact this
    unfold generateElement elementBack
    rw [hl]
    simp only [show ¬ ((1 : UInt8) = 0) by decide, if_false, if_true, hf, bind, Except.bind, lookup_map, hc, Option.map_some, he]
    rw [← hs.data]
    rfl
  · exact absurd (UInt32.toNat_inj.mp (show m.type.toNat = (3 : UInt32).toNat from ht)) h3

private theorem ids_of {cs : List (UInt32 × CodecConfigObu)} {ms : List ElementMetadata} {es : List (UInt32 × GeneratedElement)}
    (h : List.Forall₂ (fun m e => e.1 = m.id ∧ SaysElement cs m e.2) ms es) : es.map Prod.fst = ms.map fun m => m.id := by
  induction h with
  | nil => rfl
  | cons h _ ih => rw [List.map_cons, List.map_cons, h.1, ih]

private theorem element_id {cs : List (UInt32 × CodecConfigObu)} {m : ElementMetadata} (h3 : m.type ≠ 3) {o : GeneratedElement}
    (h : SaysElement cs m o) : o.element.obu.elementId = m.id := by
  obtain ⟨codec, hc, he, ⟨-, r, layers, ls, hs⟩ | ⟨-, a, c, hs⟩ | ⟨ht, -⟩⟩ := h.element
  · rw [hs.obu]
  · rw [hs.obu]
  · exact absurd (UInt32.toNat_inj.mp (show m.type.toNat = (3 : UInt32).toNat from ht)) h3

private theorem plausible_of {delay : CodecMetadata → CodecConfig → Except Err UInt32} {u : UserMetadata} (hu : Transportable u)
    {cs : List (UInt32 × CodecConfigObu)} (h4 : generateCodecConfigs delay u.codecs [] = .ok cs) : ∀ m ∈ u.elements, PlausibleElement cs m := by
  have hcs := (C61_codec_configs delay u.codecs).2 cs h4
  have hcodec : ∀ c ∈ cs, ∃ m ∈ u.codecs, m.configId = c.1 ∧ GeneratedFrom delay m c.2 := by
    intro c hc
    obtain ⟨before, m, after, e, hid, -, hg⟩ := (hcs.2 c.1 c.2).mp hc
    exact ⟨m, by rw [e]; simp, hid, hg⟩
  intro m hm
  obtain ⟨-, -, a, b, c⟩ := hu.elements m hm
  refine ⟨fun codec hc => ?_, a, b, c⟩
  have : (m.codecConfigId, codec) ∈ cs := by
    obtain ⟨l1, l2, rfl, -⟩ := List.lookup_eq_some_iff.mp hc
    simp
  obtain ⟨m', -, -, hg⟩ := hcodec _ this
  intro h0
  have := hg.samples.2.1
  rw [show codec.config.numSamplesPerFrame = 0 from h0] at this
  exact absurd this (by decide)

/-- **C65 (descriptors as the library builds them).** Whatever descriptor OBUs are made from metadata that can be transported, they meet all
conditions of the theorems about whole streams (C36, C48): so these hold for streams that are declared in metadata. -/
theorem C65_declared_sequences_are_built (delay : CodecMetadata → CodecConfig → Except Err UInt32) (u : UserMetadata) (hu : Transportable u)
    (d : SequenceObus) (h : sequenceFromMetadata delay u = .ok d) : BuiltSequence d := by
  obtain ⟨m, hd, o, h1, h2, ms, h3, cs, h4, es, h5, ps, h6, as, h7, rfl⟩ := (sequence_iff delay u d).mp h
  have hcs := (C61_codec_configs delay u.codecs).2 cs h4
  have hcodec : ∀ c ∈ cs, ∃ m ∈ u.codecs, m.configId = c.1 ∧ GeneratedFrom delay m c.2 := by
    intro c hc
    obtain ⟨before, m, after, e, hid, -, hg⟩ := (hcs.2 c.1 c.2).mp hc
    exact ⟨m, by rw [e]; simp, hid, hg⟩
  have hpl := plausible_of hu h4
  obtain ⟨hen, hes⟩ := (C62_elements cs u.elements hpl es).mp h5
  have hps := (C63_mix_presentations u.addBuildTag u.mixes (fun m hm => (hu.mixes m hm).2.1) ps).mp h6
  have has := (C64_arbitrary_obus u.arbitrary as).mp h7
  have hms := (C64_metadata_obus u.metadataObus ms).mp h3
  have hids : es.map Prod.fst = u.elements.map fun m => m.id := ids_of hes
  refine ⟨?_, ?_, ?_, ?_, ?_, ?_, ?_, ?_⟩
  · exact plain_of ((C61_sequence_header m hd o).1.mp h2).1 (hu.sequenceHeaders m (by rw [h1]; simp))
  · intro x hx
    obtain ⟨y, -, -, hh, -⟩ := partner hms x hx
    rw [hh]
    exact ⟨rfl, rfl, rfl⟩
  · simpa only [List.map_map, Function.comp_def] using hcs.1
  · intro c hc
    obtain ⟨c, hcm, rfl⟩ := List.mem_map.mp hc
    obtain ⟨m, hm, hid, hg⟩ := hcodec c hcm
    obtain ⟨ht, h128⟩ := metadata_codec_typed delay m c.2 hg (hu.codecs m hm).2
    exact ⟨plain_of hg.header (hu.codecs m hm).1, by rw [← hid]; exact hg.id.symm, ht, h128, codec_rates hg⟩
  · have := hen
    rw [← hids] at this
    simpa only [List.map_map, Function.comp_def] using this
  · intro e he
    obtain ⟨e, hem, rfl⟩ := List.mem_map.mp he
    obtain ⟨m, hm, hid, hs⟩ := partner hes e hem
    refine ⟨plain_of hs.header (hu.elements m hm).1, ?_, metadata_element_built cs m (hpl m hm) e.2 hs, ?_⟩
    · rw [element_id (hu.elements m hm).2.1 hs]
      exact hid
    · have := element_back (hu.elements m hm).2.1 hs
      simpa only [List.map_map, Function.comp_def] using this
  · intro p hp
    obtain ⟨p, hpm, rfl⟩ := List.mem_map.mp hp
    obtain ⟨m, hm, hs⟩ := partner hps p hpm
    obtain ⟨a, b, c, e, f⟩ := hu.mixes m hm
    refine ⟨plain_of hs.header a, metadata_mix_built _ m b p.1 p.2 hs, ?_, ?_, fun _ => rfl, ?_⟩
    · show p.2.countLabel.toNat ≤ 256
      rw [hs.count]
      exact c
    · show p.2.subMixes.length ≤ 28
      rw [← hs.subMixes.length_eq]
      exact e
    · intro s hs' x hx
      obtain ⟨s', hs1, hs2⟩ := partner hs.subMixes s hs'
      obtain ⟨x', hx1, hx2⟩ := partner hs2.elements x hx
      obtain ⟨y, hy, hyi⟩ := f s' hs1 x' hx1
      have : (es.map fun e => (e.1, (⟨e.2.header, e.2.element, []⟩ : Obu ElementWithData))).map Prod.fst = es.map Prod.fst := by
        rw [List.map_map]; rfl
      show x.id ∈ (es.map fun e => (e.1, (⟨e.2.header, e.2.element, []⟩ : Obu ElementWithData))).map Prod.fst
      rw [this, hids, hx2.id, ← hyi]
      exact List.mem_map.mpr ⟨y, hy, rfl⟩
  · intro o ho
    obtain ⟨m, hm, hs⟩ := partner has o ho
    obtain ⟨a, b, c, e⟩ := hu.arbitrary m hm
    have h1 := hs.type.1
    have h2 := hs.place.hook.1
    refine ⟨fun h0 => b (UInt32.toNat_inj.mp ?_), ?_, ?_, by rw [hs.header.trimEnd, a.1], by rw [hs.header.trimStart, a.2]⟩
    · rw [h0] at h2
      exact h2.symm
    · rw [UInt8.le_iff_toNat_le]
      show 24 ≤ _
      omega
    · rw [UInt8.le_iff_toNat_le]
      show _ ≤ 30
      omega

/-- The descriptors that a decoder reads when it gets those of a sequence: sorted by id. -/
private theorem same_descriptors {g : LebGen} {d : SequenceObus} {bytes : List UInt8} (h : DescriptorBytes g d bytes) :
    ∃ x : Descriptors, SameDescriptors d x := by
  obtain ⟨codecs, elements, pc, sc, pe, se, -⟩ := h
  exact ⟨⟨some (d.sequenceHeader.header, d.sequenceHeader.body), codecs.map fun c => (c.1, c.2.body), elements.map fun e => (e.1, elementBack e.2.body),
    d.mixes.map fun m => carriedMix m.header.optionalFieldsFlag m.body⟩, rfl, pc.map _, pe.map _, rfl, sc.map _ fun a b h => h, se.map _ fun a b h => h⟩

/-- What is read says what the metadata say. -/
private theorem declared_of {delay : CodecMetadata → CodecConfig → Except Err UInt32} {u : UserMetadata} (hu : Transportable u) {d d' : SequenceObus}
    (h : sequenceFromMetadata delay u = .ok d) (e1 : d'.sequenceHeader = d.sequenceHeader) (e2 : d'.codecs = d.codecs) (e3 : d'.elements = d.elements)
    (e4 : d'.mixes = d.mixes) {x : Descriptors} (hx : SameDescriptors d' x) : Declared delay u x := by
  obtain ⟨m, hd, o, h1, h2, ms, h3, cs, h4, es, h5, ps, h6, as, h7, rfl⟩ := (sequence_iff delay u d).mp h
  have hcs := (C61_codec_configs delay u.codecs).2 cs h4
  have hpl := plausible_of hu h4
  obtain ⟨hen, hes⟩ := (C62_elements cs u.elements hpl es).mp h5
  have hps := (C63_mix_presentations u.addBuildTag u.mixes (fun m hm => (hu.mixes m hm).2.1) ps).mp h6
  have h1' := hx.sequenceHeader
  have h2' := hx.codecs
  have h3' := hx.elements
  have h4' := hx.mixes
  rw [e1] at h1'
  rw [e2] at h2'
  rw [e3] at h3'
  rw [e4] at h4'
  refine ⟨⟨m, hd, o, h1, h1', (C61_sequence_header m hd o).1.mp h2⟩, ⟨cs, hcs, ?_, es, hes, hen, ?_⟩, ps, hps, ?_⟩
  · simpa only [List.map_map, Function.comp_def, CodecConfigObu.forElement] using h2'
  · simpa only [List.map_map, Function.comp_def] using h3'
  · simpa only [List.map_map, Function.comp_def] using h4'

variable {L : EncoderLib} {P : EncoderParts} {σ : Type}

/-- **C65 (what is declared is read).** Let an encoder be made from metadata that can be transported, with whatever codec libraries, factories and
sequencers.  Its descriptors, which are not final, are what a decoder gets first.  If they are shorter than 4 GiB, then a decoder that is given them
reads all of them, and finds descriptor OBUs that say what the metadata say and that fit together. -/
theorem C65_what_is_declared_is_read (K : Sink σ) (delay : CodecMetadata → CodecConfig → Except Err UInt32) (F : EncoderFactories L P σ)
    (u : UserMetadata) (hu : Transportable u) (e : IamfEncoder L P σ) (h : IamfEncoder.createFrom K delay F u = .ok e) :
    ∃ bytes, e.descriptorObus false = .ok (bytes, false) ∧ (bytes.length < 4294967295 → ∀ pv, ∃ x,
      ((parseDescriptors true).run (RBuf.create 1024 bytes pv)).1 = .ok (some x) ∧
      ((parseDescriptors true).run (RBuf.create 1024 bytes pv)).2.tell = 8 * bytes.length ∧
      Declared delay u x ∧ ConsistentDescriptors x) := by
  unfold IamfEncoder.createFrom at h
  simp only [bind_ok] at h
  obtain ⟨d, hd, f, hf, dm, hdm, ds, hds, h⟩ := h
  cases hg : lebFromMetadata u.leb with
  | none => rw [hg] at h; cases h
  | some g =>
    rw [hg] at h
    simp only at h
    let s : EncoderSetup L P σ := ⟨g, u.delimiters, F.newEncoder, d, u.override, F.frames, dm, ds, f, F.others g⟩
    obtain ⟨definitions, generator, -, -, -, hi⟩ := initial_inner (K := K) (linear := fun _ => 0) (s := s) (e := e) h
    have hnot : ended e = false := by
      have := hi.called
      unfold ended
      rw [this]
      rfl
    have hseq := hi.sequence
    have hstr := hi.streams
    rw [hnot] at hseq hstr
    simp only [Bool.false_eq_true, if_false] at hseq hstr
    have hbytes := hstr.bytes
    rw [hseq] at hbytes
    have hb := C65_declared_sequences_are_built delay u hu d hd
    have hb' : BuiltSequence s.descriptors := ⟨hb.sequenceHeader, hb.metadata, hb.codecIds, hb.codec, hb.elementIds, hb.element, hb.mix,
      fun o ho => hb.arbitrary o (List.mem_filter.mp ho).1⟩
    refine ⟨e.streaming.sink.descriptors, ?_, fun hl pv => ?_⟩
    · unfold IamfEncoder.descriptorObus
      rw [hi.closed, hnot]
      rfl
    · obtain ⟨x, hx⟩ := same_descriptors hbytes
      obtain ⟨h1, h2, h3⟩ := descriptors_alone hb' hx hbytes hl pv
      exact ⟨x, h1, h2, declared_of (d' := s.descriptors) hu hd rfl rfl rfl rfl hx, h3⟩

/-- **C65 (finding).** An element with objects that is made from metadata has labels for its substream, but when its OBU is read it has none, so that
each of its audio frames is refused: a decoder cannot play what the encoder has accepted. -/
theorem C65_objects_are_not_played (codecs : List (UInt32 × CodecConfigObu)) (m : ElementMetadata) (hm : m.type = 3) (o : GeneratedElement)
    (ho : SaysElement codecs m o) : (∃ s labels, o.element.data.labels = [(s, labels)] ∧ labels ≠ []) ∧
    ∃ e, generateElement (codecs.map fun c => (c.1, c.2.forElement)) (carriedElement o.element.obu) = .ok e ∧ e.data.labels = [] ∧
      ∀ h f st, generateFrame e h f st = (.error .invalidArgument, st) := by
  obtain ⟨codec, hc, he, ⟨ht, -⟩ | ⟨ht, -⟩ | ⟨-, n, ext, s, hs⟩⟩ := ho.element
  · rw [hm] at ht; exact absurd ht (by decide)
  · rw [hm] at ht; exact absurd ht (by decide)
  · refine ⟨⟨s, _, by rw [hs.data], by split <;> simp⟩, ?_⟩
    have hl : carriedElement o.element.obu = ⟨m.id, 2, m.reserved.toUInt8, m.codecConfigId, [s], [], .objects ⟨n.toUInt8, ext⟩⟩ := by
      rw [hs.obu]
      rfl
    refine ⟨⟨carriedElement o.element.obu, some codec.forElement, ⟨[], [], []⟩⟩, ?_, rfl, fun h f st => rfl⟩
    rw [hl]
    unfold generateElement
    simp only [show ¬ ((2 : UInt8) = 0) by decide, show ¬ ((2 : UInt8) = 1) by decide, if_false, bind, Except.bind, lookup_map, hc, Option.map_some]

/-! ### Final descriptors -/

/-- Nothing but the loudness of layouts has changed. -/
def OnlyLoudness (o o' : Obu MixPresentation) : Prop :=
  o'.header = o.header ∧ o'.footer = o.footer ∧ withoutLoudness o'.body = withoutLoudness o.body

private theorem mix_parts {a b : MixPresentation} (h : withoutLoudness b = withoutLoudness a) :
    b.countLabel = a.countLabel ∧ b.tags = a.tags ∧ b.subMixes.length = a.subMixes.length ∧
      ∀ s ∈ b.subMixes, ∃ s' ∈ a.subMixes, s'.elements = s.elements ∧ s'.outputMixGain = s.outputMixGain := by
  unfold withoutLoudness MixPresentation.withSubMixes at h
  simp only [MixPresentation.mk.injEq] at h
  obtain ⟨-, h1, -, -, h2, h3, -⟩ := h
  refine ⟨h1, h3, by simpa using congrArg List.length h2, fun s hs => ?_⟩
  have : (⟨s.elements, s.outputMixGain, s.layouts.map fun l => ⟨l.layout, ⟨0, 0, 0, 0, [], []⟩⟩⟩ : SubMix) ∈
      b.subMixes.map fun s => (⟨s.elements, s.outputMixGain, s.layouts.map fun l => ⟨l.layout, ⟨0, 0, 0, 0, [], []⟩⟩⟩ : SubMix) :=
    List.mem_map.mpr ⟨s, hs, rfl⟩
  rw [h2] at this
  obtain ⟨s', hs', e⟩ := List.mem_map.mp this
  simp only [SubMix.mk.injEq] at e
  exact ⟨s', hs', e.1, e.2.1⟩

private theorem carried_loudness {a b : MixPresentation} (h : withoutLoudness b = withoutLoudness a) (flag : Bool) :
    withoutLoudness (carriedMix flag b) = withoutLoudness (carriedMix flag a) := by
  have key : ∀ m : MixPresentation, withoutLoudness (carriedMix flag m) = carriedMix flag (withoutLoudness m) := by
    intro m
    unfold withoutLoudness carriedMix MixPresentation.withSubMixes
    simp only [List.map_map]
    congr 1
    refine List.map_congr_left fun s _ => ?_
    simp only [Function.comp_apply, carriedSubMix, List.map_map]
    congr 1
    refine List.map_congr_left fun l _ => ?_
    simp [carriedLoudness]
  rw [key, key, h]

private theorem built_with {d : SequenceObus} (h : BuiltSequence d) {m : List (Obu MixPresentation)} (hm : List.Forall₂ OnlyLoudness d.mixes m) :
    BuiltSequence (withMixes d m) := by
  refine ⟨h.sequenceHeader, h.metadata, h.codecIds, h.codec, h.elementIds, h.element, fun o' ho' => ?_, h.arbitrary⟩
  obtain ⟨o, ho, h1, h2, h3⟩ := partner hm o' ho'
  obtain ⟨a, b, c, e, f, g⟩ := h.mix o ho
  obtain ⟨p1, p2, p3, p4⟩ := mix_parts h3
  refine ⟨by rw [h1]; exact a, fun s hs => ?_, by rw [p1]; exact c, by rw [p3]; exact e, fun ht => by rw [h2]; exact f (by rw [← p2]; exact ht), fun s hs x hx => ?_⟩
  · obtain ⟨s', hs', q1, q2⟩ := p4 s hs
    have := b s' hs'
    rw [q1, q2] at this
    exact this
  · obtain ⟨s', hs', q1, q2⟩ := p4 s hs
    exact g s' hs' x (by rw [q1]; exact hx)

/-- **C65 (encoders from metadata).** An encoder that is made from metadata is one of those of C46–C48. -/
theorem C65_encoders_from_metadata (K : Sink σ) (delay : CodecMetadata → CodecConfig → Except Err UInt32) (F : EncoderFactories L P σ)
    (u : UserMetadata) (e : IamfEncoder L P σ) (h : IamfEncoder.createFrom K delay F u = .ok e) :
    ∃ s : EncoderSetup L P σ, s.create K = .ok e ∧ sequenceFromMetadata delay u = .ok s.sequence ∧ lebFromMetadata u.leb = some s.lebs ∧
      s.delimiters = u.delimiters ∧ s.override = u.override := by
  unfold IamfEncoder.createFrom at h
  simp only [bind_ok] at h
  obtain ⟨d, hd, f, hf, dm, hdm, ds, hds, h⟩ := h
  cases hg : lebFromMetadata u.leb with
  | none => rw [hg] at h; cases h
  | some g =>
    rw [hg] at h
    exact ⟨⟨g, u.delimiters, F.newEncoder, d, u.override, F.frames, dm, ds, f, F.others g⟩, h, hd, rfl, rfl, rfl⟩

/-- **C65 (what is written).** The descriptors that an encoder holds are, sorted by id, OBUs that say what the metadata say: also the metadata OBUs, and
the arbitrary OBUs that do not belong to temporal units, at their places (C34). -/
theorem C65_what_is_written (K : Sink σ) (delay : CodecMetadata → CodecConfig → Except Err UInt32) (F : EncoderFactories L P σ)
    (u : UserMetadata) (e : IamfEncoder L P σ) (h : IamfEncoder.createFrom K delay F u = .ok e) :
    ∃ (d : SequenceObus) (g : LebGen) (arbitrary : List ArbitraryObu) (bytes : List UInt8), e.descriptorObus false = .ok (bytes, false) ∧
      DescriptorBytes g d bytes ∧ lebFromMetadata u.leb = some g ∧
      List.Forall₂ (fun m o => SaysMetadata m o.body ∧ o.header = ⟨24, false, false, 0, 0, none⟩ ∧ o.footer = []) u.metadataObus d.metadata ∧
      List.Forall₂ SaysArbitrary u.arbitrary arbitrary ∧ d.arbitrary = arbitrary.filter fun o => o.insertionTick = none := by
  obtain ⟨s, h1, h2, h3, -, -⟩ := C65_encoders_from_metadata K delay F u e h
  obtain ⟨definitions, generator, -, -, -, hi⟩ := initial_inner (K := K) (linear := fun _ => 0) h1
  have hnot : ended e = false := by
    have := hi.called
    unfold ended
    rw [this]
    rfl
  have hseq := hi.sequence
  have hstr := hi.streams
  rw [hnot] at hseq hstr
  simp only [Bool.false_eq_true, if_false] at hseq hstr
  have hbytes := hstr.bytes
  rw [hseq] at hbytes
  obtain ⟨m, hd, o, -, -, ms, k3, cs, -, es, -, ps, -, as, k7, k⟩ := (sequence_iff delay u _).mp h2
  refine ⟨s.descriptors, s.lebs, as, e.streaming.sink.descriptors, ?_, hbytes, h3, ?_, (C64_arbitrary_obus u.arbitrary as).mp k7, ?_⟩
  · unfold IamfEncoder.descriptorObus
    rw [hi.closed, hnot]
    rfl
  · have := (C64_metadata_obus u.metadataObus ms).mp k3
    show List.Forall₂ _ _ s.sequence.metadata
    rw [k]
    exact this
  · show s.sequence.arbitrary.filter _ = _
    rw [k]

/-- **C65 (at any time, and in the end).** The descriptors that an encoder answers after any calls are readable: before the end they say what the
metadata say; the final ones do so too, but for the loudness, if the finalizer changes nothing else (C54). -/
theorem C65_final_descriptors (K : Sink σ) (linear : Int16 → Rat) (delay : CodecMetadata → CodecConfig → Except Err UInt32)
    (u : UserMetadata) (hu : Transportable u) (s : EncoderSetup L P σ) (hd : sequenceFromMetadata delay u = .ok s.sequence)
    {definitions : List (UInt32 × ParamEntry)} {generator : FrameGenerator L.State} {evs : List EncoderEvent} {heard : List (UnitParts × P.Frames)}
    {e : IamfEncoder L P σ} (h : EncoderHistory K linear s definitions generator evs heard e)
    (hfin : ∀ m, P.finish e.finalizer = .ok m → List.Forall₂ OnlyLoudness s.sequence.mixes m) :
    ∃ bytes final, e.descriptorObus false = .ok (bytes, final) ∧ (final = true ↔ finalizedIn evs = true ∧ e.generating = false) ∧
      (bytes.length < 4294967295 → ∀ pv, ∃ x y,
        ((parseDescriptors true).run (RBuf.create 1024 bytes pv)).1 = .ok (some x) ∧
        ((parseDescriptors true).run (RBuf.create 1024 bytes pv)).2.tell = 8 * bytes.length ∧ ConsistentDescriptors x ∧
        Declared delay u y ∧ (final = false → x = y) ∧ x.iaHeader = y.iaHeader ∧ x.codecs = y.codecs ∧ x.elements = y.elements ∧
        List.Forall₂ (fun a b => withoutLoudness a = withoutLoudness b) x.mixes y.mixes ∧
        (final = true → ∃ m, P.finish e.finalizer = .ok m ∧ x.mixes = m.map fun o => carriedMix o.header.optionalFieldsFlag o.body)) := by
  obtain ⟨bytes, h1, h2⟩ := h.descriptors
  have hb := C65_declared_sequences_are_built delay u hu _ hd
  have hb' : BuiltSequence s.descriptors := ⟨hb.sequenceHeader, hb.metadata, hb.codecIds, hb.codec, hb.elementIds, hb.element, hb.mix,
    fun o ho => hb.arbitrary o (List.mem_filter.mp ho).1⟩
  refine ⟨bytes, _, h1, by simp, fun hl pv => ?_⟩
  by_cases hc : finalizedIn evs = true ∧ e.generating = false
  · rw [if_pos hc] at h2
    obtain ⟨m, hm, hbytes⟩ := h2
    have hl' := hfin m hm
    obtain ⟨x, hx⟩ := same_descriptors hbytes
    obtain ⟨g1, g2, g3⟩ := descriptors_alone (built_with hb' hl') hx hbytes hl pv
    have hy : SameDescriptors s.descriptors ⟨x.iaHeader, x.codecs, x.elements, s.descriptors.mixes.map fun m => carriedMix m.header.optionalFieldsFlag m.body⟩ :=
      ⟨hx.sequenceHeader, hx.codecs, hx.elements, rfl, hx.ordered⟩
    refine ⟨x, _, g1, g2, g3, declared_of (d' := s.descriptors) hu hd rfl rfl rfl rfl hy, fun hfalse => ?_, rfl, rfl, rfl, ?_, fun _ => ⟨m, hm, hx.mixes⟩⟩
    · rw [hc.1, hc.2] at hfalse
      cases hfalse
    · show List.Forall₂ _ x.mixes (s.sequence.mixes.map fun m => carriedMix m.header.optionalFieldsFlag m.body)
      rw [hx.mixes, show (withMixes s.descriptors m).mixes = m from rfl, List.forall₂_map_left_iff, List.forall₂_map_right_iff]
      refine hl'.flip.imp fun o' o ho => ?_
      obtain ⟨a1, -, a3⟩ := ho
      rw [a1]
      exact carried_loudness a3 _
  · rw [if_neg hc] at h2
    obtain ⟨x, hx⟩ := same_descriptors h2
    obtain ⟨g1, g2, g3⟩ := descriptors_alone hb' hx h2 hl pv
    refine ⟨x, x, g1, g2, g3, declared_of (d' := s.descriptors) hu hd rfl rfl rfl rfl hx, fun _ => rfl, rfl, rfl, rfl, ?_, fun ht => absurd (by simpa using ht) hc⟩
    exact List.forall₂_same.mpr fun _ _ => rfl

/-! ### Example -/

private def plainHeader : HeaderMetadata := ⟨false, false, false, 0, 0, []⟩
private def gain (id : UInt32) : MixGainMetadata := ⟨⟨id, 48000, true, 0, 0, 0, []⟩, 0⟩

/-- Stereo in LPCM with a mix for stereo and for mono, and an arbitrary OBU before the parameter blocks of the second temporal unit. -/
def exampleMetadata : UserMetadata where
  sequenceHeaders := [⟨some 1, some 1, plainHeader⟩]
  metadataObus := []
  codecs := [⟨7, ⟨false, some 0x6970636d, 2, 0, .lpcm ⟨2, 16, 48000⟩, true, true⟩, plainHeader⟩]
  elements := [⟨3, 1, 0, 7, [5], [], .scalable 0 [⟨false, 2, 0, 0, 0, 1, 1, 0, 0, 0, 0⟩], plainHeader⟩]
  mixes := [⟨42, [], [], [⟨[⟨3, [], ⟨1, 1, 0, [], none, []⟩, gain 8⟩], gain 9,
    [⟨3, .ss 1 0, ⟨[], 0, 0, 0, [], []⟩⟩, ⟨3, .ss 9 0, ⟨[], 0, 0, 0, [], []⟩⟩]⟩], false, [], 0, 0, [], plainHeader⟩]
  addBuildTag := false
  arbitrary := [⟨7, 25, plainHeader, [9, 9], false, 2⟩]
  leb := ⟨1, 0⟩
  delimiters := true
  override := false

/-- The factories of the example of C47. -/
def exampleFactories : EncoderFactories lpcmEncoders exampleParts FileOutput where
  newEncoder := newLpcmEncoder
  frames := [⟨3, [.l2, .r2], 0, 1, true, true⟩]
  downMixing _ := .ok fun i => if i = 3 then some ⟨[], [(5, [.l2, .r2])], []⟩ else none
  decoders _ := .ok (0 : Nat)
  finalizer _ := .ok (0 : Nat)
  others g := [fileSequencer g true exampleFile]

private theorem example_sequence : sequenceFromMetadata (fun _ _ => .ok 0) exampleMetadata = .ok (exampleSetup [exampleArbitrary 2 false 6]).sequence := by
  refine (sequence_iff _ _ _).mpr ⟨⟨some 1, some 1, plainHeader⟩, ⟨31, false, false, 0, 0, none⟩, ⟨0, 0⟩, rfl, by decide +kernel, [], rfl,
    [(7, ⟨⟨0, false, false, 0, 0, none⟩, exampleCodec.config, 48000, 48000, 16⟩)], by decide +kernel,
    [(3, ⟨⟨1, false, false, 0, 0, none⟩, ⟨exampleElement, some exampleCodec, ⟨[(5, [.l2, .r2])], [], [⟨2, 0, 0, 0⟩]⟩⟩⟩)], rfl,
    [(⟨2, false, false, 0, 0, none⟩, exampleStereoMix)], by decide +kernel, [exampleArbitrary 2 false 6], by decide +kernel, rfl⟩

/-- Not vacuous: these metadata can be transported, and the encoder made from them is the one of the example of C47, which is made. -/
theorem C65_example : Transportable exampleMetadata ∧
    IamfEncoder.createFrom fileSink (fun _ _ => .ok 0) exampleFactories exampleMetadata =
      (exampleSetup [exampleArbitrary 2 false 6]).create fileSink ∧
    ∃ e, IamfEncoder.createFrom fileSink (fun _ _ => .ok 0) exampleFactories exampleMetadata = .ok e := by
  have h : IamfEncoder.createFrom fileSink (fun _ _ => .ok 0) exampleFactories exampleMetadata =
      (exampleSetup [exampleArbitrary 2 false 6]).create fileSink := by
    unfold IamfEncoder.createFrom
    rw [example_sequence]
    rfl
  refine ⟨⟨?_, ?_, ?_, ?_, ?_⟩, h, ?_⟩
  · intro m hm
    simp only [exampleMetadata, List.mem_singleton] at hm
    subst hm
    exact ⟨rfl, rfl⟩
  · intro m hm
    simp only [exampleMetadata, List.mem_singleton] at hm
    subst hm
    exact ⟨⟨rfl, rfl⟩, fun blocks hb => (by cases hb)⟩
  · intro m hm
    simp only [exampleMetadata, List.mem_singleton] at hm
    subst hm
    exact ⟨⟨rfl, rfl⟩, by decide, fun r ls hc => (by cases hc; decide), by decide, fun p hp => (by cases hp)⟩
  · intro m hm
    simp only [exampleMetadata, List.mem_singleton] at hm
    subst hm
    refine ⟨⟨rfl, rfl⟩, ⟨by decide, by decide, fun s hs => ?_⟩, by decide, by decide, fun s hs => ?_⟩ <;>
    · simp only [List.mem_singleton] at hs
      subst hs
      simp [Short, gain, exampleMetadata]
  · intro m hm
    simp only [exampleMetadata, List.mem_singleton] at hm
    subst hm
    exact ⟨⟨rfl, rfl⟩, by decide, by decide, by decide⟩
  · rw [h]
    cases hc : (exampleSetup [exampleArbitrary 2 false 6]).create fileSink with
    | error e =>
      have : ((exampleSetup [exampleArbitrary 2 false 6]).create fileSink).toOption.isSome = true := by decide +kernel
      rw [hc] at this
      cases this
    | ok e => exact ⟨e, rfl⟩

/-- The example of C47 from metadata to its end: its final descriptors are those with the measured loudness, and only that is different. -/
theorem C65_final_example : ∃ (definitions : List (UInt32 × ParamEntry)) (generator : FrameGenerator lpcmEncoders.State) (evs : List EncoderEvent)
    (heard : List (UnitParts × exampleParts.Frames)) (e : IamfEncoder lpcmEncoders exampleParts FileOutput),
    sequenceFromMetadata (fun _ _ => .ok 0) exampleMetadata = .ok (exampleSetup [exampleArbitrary 2 false 6]).sequence ∧
    EncoderHistory fileSink (fun _ => 1) (exampleSetup [exampleArbitrary 2 false 6]) definitions generator evs heard e ∧
    evs.map (·.call) = exampleRun true ∧ e.descriptorObus false = .ok (exampleFinal, true) ∧
    (∀ m, exampleParts.finish e.finalizer = .ok m →
      List.Forall₂ OnlyLoudness (exampleSetup [exampleArbitrary 2 false 6]).sequence.mixes m ∧ m ≠ exampleSequence.mixes) := by
  have ho := example_run_outcome
  unfold exampleOutcome at ho
  cases hc : (exampleSetup [exampleArbitrary 2 false 6]).create fileSink with
  | error x => rw [hc] at ho; cases ho
  | ok e0 =>
    rw [hc] at ho
    simp only at ho
    cases hr : e0.calls fileSink (fun _ => 1) (exampleRun true) with
    | error x => rw [hr] at ho; cases ho
    | ok y =>
      obtain ⟨answers, e⟩ := y
      rw [hr] at ho
      have hd' := congrArg ExampleOutcome.descriptors (Option.some.inj ho)
      simp only at hd'
      obtain ⟨definitions, generator, evs, heard, -, -, h3, -, h4⟩ := C47_runs_are_histories fileSink (fun _ => 1) _ hc _ hr
        example_run_hypotheses.1 fun _ => example_run_hypotheses.2.1
      refine ⟨definitions, generator, evs, heard, e, example_sequence, h4, h3, ?_, fun m hm => ?_⟩
      · cases hd : e.descriptorObus false with
        | error x => rw [hd] at hd'; cases hd'
        | ok y =>
          rw [hd] at hd'
          have := Option.some.inj (show some y = some _ from hd')
          rw [this]
      · have : m = exampleUpdated.mixes := by
          change Except.ok exampleUpdated.mixes = Except.ok m at hm
          cases hm
          rfl
        subst this
        exact ⟨.cons ⟨rfl, rfl, rfl⟩ .nil, by decide +kernel⟩

end Iamf.Props
