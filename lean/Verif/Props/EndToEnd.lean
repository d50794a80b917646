import Verif.Props.Processor
import Verif.Props.Decoder
import Verif.Cli.DecoderEnd
/-
  C36: what a sequencer writes is what a decoder decodes.  The two ends meet: files of C34, descriptors of C21, temporal units of C35 and
  histories of decoder calls of C25.
-/
namespace Iamf.Props
open Iamf

/-! ### Specification -/

/-- An OBU of a given type that trims no samples. -/
def Plain (type : UInt8) (h : ObuHeader) : Prop := h.obuType = type ∧ h.trimEnd = 0 ∧ h.trimStart = 0

/-- An audio element with its data, and of the element what the bitstream carries. -/
def elementBack (e : ElementWithData) : ElementWithData := ⟨carriedElement e.obu, e.codec, e.data⟩

/-- Descriptors as the library builds them: types in the headers say what the OBUs hold; maps are keyed by ids; codec configs come with
their rates, audio elements with their codec config and channel labels; mix presentations refer to the audio elements there are; other
conditions are those of the round trips C08 to C11.  Arbitrary OBUs are of reserved types, and none of them comes first. -/
structure BuiltSequence (d : SequenceObus) : Prop where
  sequenceHeader : Plain 31 d.sequenceHeader.header
  metadata : ∀ o ∈ d.metadata, Plain 24 o.header
  codecIds : (d.codecs.map Prod.fst).Nodup
  codec : ∀ c ∈ d.codecs, Plain 0 c.2.header ∧ c.1 = c.2.body.config.configId ∧ c.2.body.config.Typed ∧
    (∀ f, c.2.body.config.decoderConfig = .flac f → f.blocks.length ≤ 128) ∧
    c.2.body.config.rates = .ok (c.2.body.outputRate, c.2.body.inputRate, c.2.body.bitDepth)
  elementIds : (d.elements.map Prod.fst).Nodup
  element : ∀ e ∈ d.elements, Plain 1 e.2.header ∧ e.1 = e.2.body.obu.elementId ∧ BuiltElement e.2.body.obu ∧
    generateElement (d.codecs.map fun c => (c.1, c.2.body)) (carriedElement e.2.body.obu) =
      .ok (elementBack e.2.body)
  mix : ∀ m ∈ d.mixes, Plain 2 m.header ∧ BuiltMix m.body ∧ m.body.countLabel ≤ 256 ∧ m.body.subMixes.length ≤ 28 ∧
    (m.body.tags = none → m.footer = []) ∧ ∀ s ∈ m.body.subMixes, ∀ e ∈ s.elements, e.id ∈ d.elements.map Prod.fst
  arbitrary : ∀ o ∈ d.arbitrary, o.insertionHook ≠ 0 ∧ 24 ≤ o.header.obuType ∧ o.header.obuType ≤ 30 ∧
    o.header.trimEnd = 0 ∧ o.header.trimStart = 0

/-- What comes back of the descriptors: the same sequence header, codec configs, audio elements and mix presentations (all of them that
the bitstream carries, C10 and C11). -/
structure SameDescriptors (d : SequenceObus) (x : Descriptors) : Prop where
  sequenceHeader : x.iaHeader = some (d.sequenceHeader.header, d.sequenceHeader.body)
  codecs : x.codecs.Perm (d.codecs.map fun c => (c.1, c.2.body))
  elements : x.elements.Perm (d.elements.map fun e => (e.1, elementBack e.2.body))
  mixes : x.mixes = d.mixes.map fun m => carriedMix m.header.optionalFieldsFlag m.body
  ordered : x.codecs.Pairwise (fun a b => a.1 ≤ b.1) ∧ x.elements.Pairwise (fun a b => a.1 ≤ b.1)

/-- A sequence as it is transmitted: descriptors and temporal units, of which the first begins with an OBU that can only be in a temporal
unit (so that the descriptors are known to be complete before it). -/
structure Transmitted (d : SequenceObus) (x : Descriptors) (n : UInt32) (us : List TemporalUnitView) (delimiters : Bool) : Prop where
  built : BuiltSequence d
  same : SameDescriptors d x
  frameSize : n ≠ 0
  playable : Playable x n
  unit : ∀ k (hk : k < us.length), UnitOf x n k us[k]
  notEmpty : us ≠ []
  start : delimiters = true ∨ ∀ u, us.head? = some u → ∀ o ∈ u.arbitrary, o.insertionHook = 8

/-- Rendering temporal units one after the other. -/
inductive Renders (B : Backend) : B.State → List OutputUnit → List Rendered → Prop where
  | nil (s : B.State) : Renders B s [] []
  | cons {s s' : B.State} {u : OutputUnit} {x : Rendered} {us : List OutputUnit} {xs : List Rendered} (h : B.render s u = (.ok x, s'))
      (hs : Renders B s' us xs) : Renders B s (u :: us) (x :: xs)

/-- The bytes of rendered samples in the output sample type: what fits exactly (C32). -/
def OutputBytes (sampleType : Nat) (x : Rendered) (bytes : List UInt8) : Prop := writeFrameToSpan x sampleType bytes.length = .ok bytes

/-! ### Proof: descriptors -/

private theorem lookup_perm {β : Type} {l l' : List (UInt32 × β)} (h : l.Perm l') (hn : (l.map Prod.fst).Nodup) (i : UInt32) :
    l.lookup i = l'.lookup i := by
  induction h with
  | nil => rfl
  | cons x _ ih =>
    obtain ⟨a, b⟩ := x
    simp only [List.map_cons, List.nodup_cons] at hn
    simp only [List.lookup, ih hn.2]
  | swap x y l =>
    obtain ⟨a, b⟩ := x
    obtain ⟨a', b'⟩ := y
    simp only [List.map_cons, List.nodup_cons, List.mem_cons, not_or] at hn
    simp only [List.lookup]
    cases h1 : i == a' <;> cases h2 : i == a <;> simp only
    rw [beq_iff_eq] at h1 h2
    exact absurd (h1.symm.trans h2) hn.1.1
  | trans h1 _ ih1 ih2 => rw [ih1 hn, ih2 ((h1.map _).nodup_iff.mp hn)]

private theorem generateElement_congr {c1 c2 : List (UInt32 × CodecObu)} (h : ∀ i, c1.lookup i = c2.lookup i) (a : AudioElement) :
    generateElement c1 a = generateElement c2 a := by
  unfold generateElement
  simp only [h]

private def otherObus (hook : Nat) (l : List ArbitraryObu) : List DescriptorObu :=
  (l.filter fun o => o.insertionHook = hook).map fun o => ⟨o.header, .other o.writePayload, []⟩

private def obusOf (d : SequenceObus) (codecs : List (UInt32 × Obu CodecObu)) (elements : List (UInt32 × Obu ElementWithData)) :
    List DescriptorObu :=
  otherObus 2 d.arbitrary ++
  d.metadata.map (fun o => ⟨o.header, .other o.body.write, o.footer⟩) ++
  codecs.map (fun c => ⟨c.2.header, .codecConfig c.2.body.config, c.2.footer⟩) ++
  otherObus 3 d.arbitrary ++
  elements.map (fun e => ⟨e.2.header, .audioElement e.2.body.obu, e.2.footer⟩) ++
  otherObus 4 d.arbitrary ++
  d.mixes.map (fun m => ⟨m.header, .mixPresentation m.body, m.footer⟩) ++
  otherObus 5 d.arbitrary ++
  otherObus 1 d.arbitrary

private def headObu (d : SequenceObus) : DescriptorObu :=
  ⟨d.sequenceHeader.header, .sequenceHeader d.sequenceHeader.body, d.sequenceHeader.footer⟩

private theorem otherObus_write (hook : Nat) (l : List ArbitraryObu) : (otherObus hook l).map DescriptorObu.write = atHook hook l := by
  unfold otherObus atHook
  rw [List.map_map]
  rfl

private theorem obus_write {d : SequenceObus} (h : BuiltSequence d) (codecs : List (UInt32 × Obu CodecObu))
    (elements : List (UInt32 × Obu ElementWithData)) :
    descriptorObus d codecs elements = (headObu d :: obusOf d codecs elements).map DescriptorObu.write := by
  have h0 : atHook 0 d.arbitrary = [] := by
    unfold atHook
    rw [List.map_eq_nil_iff, List.filter_eq_nil_iff]
    intro o ho
    simpa using (h.arbitrary o ho).1
  unfold descriptorObus obusOf
  rw [h0]
  simp only [List.map_cons, List.map_append, otherObus_write, List.map_map, List.nil_append, List.cons_append]
  rfl

private theorem other_mem {hook : Nat} {l : List ArbitraryObu} {y : DescriptorObu} (h : y ∈ otherObus hook l) :
    ∃ o ∈ l, y = ⟨o.header, .other o.writePayload, []⟩ := by
  unfold otherObus at h
  obtain ⟨o, ho, rfl⟩ := List.mem_map.mp h
  exact ⟨o, (List.mem_filter.mp ho).1, rfl⟩

private theorem obus_mem {d : SequenceObus} {codecs : List (UInt32 × Obu CodecObu)} {elements : List (UInt32 × Obu ElementWithData)}
    {y : DescriptorObu} (hc : codecs.Perm d.codecs) (he : elements.Perm d.elements) (hy : y ∈ obusOf d codecs elements) :
    (∃ o ∈ d.arbitrary, y = ⟨o.header, .other o.writePayload, []⟩) ∨ (∃ o ∈ d.metadata, y = ⟨o.header, .other o.body.write, o.footer⟩) ∨
    (∃ c ∈ d.codecs, y = ⟨c.2.header, .codecConfig c.2.body.config, c.2.footer⟩) ∨
    (∃ e ∈ d.elements, y = ⟨e.2.header, .audioElement e.2.body.obu, e.2.footer⟩) ∨
    (∃ m ∈ d.mixes, y = ⟨m.header, .mixPresentation m.body, m.footer⟩) := by
  unfold obusOf at hy
  simp only [List.mem_append, List.mem_map] at hy
  rcases hy with (((((((hy | ⟨o, ho, rfl⟩) | ⟨c, ho, rfl⟩) | hy) | ⟨e, ho, rfl⟩) | hy) | ⟨m, ho, rfl⟩) | hy) | hy
  · exact .inl (other_mem hy)
  · exact .inr (.inl ⟨o, ho, rfl⟩)
  · exact .inr (.inr (.inl ⟨c, hc.mem_iff.mp ho, rfl⟩))
  · exact .inl (other_mem hy)
  · exact .inr (.inr (.inr (.inl ⟨e, he.mem_iff.mp ho, rfl⟩)))
  · exact .inl (other_mem hy)
  · exact .inr (.inr (.inr (.inr ⟨m, ho, rfl⟩)))
  · exact .inl (other_mem hy)
  · exact .inl (other_mem hy)

private theorem obus_proper {d : SequenceObus} (h : BuiltSequence d) {codecs : List (UInt32 × Obu CodecObu)}
    {elements : List (UInt32 × Obu ElementWithData)} (hc : codecs.Perm d.codecs) (he : elements.Perm d.elements) :
    ∀ y ∈ headObu d :: obusOf d codecs elements, y.Proper := by
  intro y hy
  rcases List.mem_cons.mp hy with rfl | hy
  · exact ⟨h.sequenceHeader.2.1, h.sequenceHeader.2.2, h.sequenceHeader.1⟩
  · rcases obus_mem hc he hy with ⟨o, ho, rfl⟩ | ⟨o, ho, rfl⟩ | ⟨c, ho, rfl⟩ | ⟨e, ho, rfl⟩ | ⟨m, ho, rfl⟩
    · obtain ⟨-, h1, h2, h3, h4⟩ := h.arbitrary o ho
      exact ⟨h3, h4, h1, h2⟩
    · obtain ⟨h1, h2, h3⟩ := h.metadata o ho
      refine ⟨h2, h3, ?_⟩
      simp only [h1]
      decide
    · obtain ⟨⟨h1, h2, h3⟩, -, h4, h5, -⟩ := h.codec c ho
      exact ⟨h2, h3, h1, h4, h5⟩
    · obtain ⟨⟨h1, h2, h3⟩, -, h4, -⟩ := h.element e ho
      exact ⟨h2, h3, h1, h4⟩
    · obtain ⟨⟨h1, h2, h3⟩, h4, h5, h6, h7, -⟩ := h.mix m ho
      exact ⟨h2, h3, h1, h4, h5, h6, h7⟩

private theorem obus_one {d : SequenceObus} {codecs : List (UInt32 × Obu CodecObu)} {elements : List (UInt32 × Obu ElementWithData)}
    (hc : codecs.Perm d.codecs) (he : elements.Perm d.elements) : OneSequence (headObu d :: obusOf d codecs elements) := by
  have key : ∀ (f : DescriptorObu → Option Bool) (l : List DescriptorObu) (a : DescriptorObu), (∀ y ∈ l, f y = none) →
      ((a :: l).filterMap f).IsChain fun a b => a = true ∨ b = true := by
    intro f l a h
    rw [List.filterMap_cons, List.filterMap_eq_nil_iff.mpr h]
    split
    · exact List.isChain_nil
    · exact List.isChain_singleton _
  refine key _ _ _ fun y hy => ?_
  rcases obus_mem hc he hy with ⟨o, ho, rfl⟩ | ⟨o, ho, rfl⟩ | ⟨c, ho, rfl⟩ | ⟨e, ho, rfl⟩ | ⟨m, ho, rfl⟩ <;> rfl

private theorem written {g : LebGen} {xs : List DescriptorObu} {bytes : List UInt8}
    (h : WrittenInOrder g (xs.map DescriptorObu.write) bytes) : WrittenAs xs bytes := by
  obtain ⟨parts, rfl, h⟩ := h
  refine ⟨parts, rfl, ?_⟩
  rw [List.forall₂_map_left_iff] at h
  exact h.imp fun _ _ h => ⟨g, h⟩

/-! Collecting them. -/

private theorem collect_others (d : Descriptors) (hook : Nat) (l : List ArbitraryObu) : (otherObus hook l).foldl collect d = d := by
  unfold otherObus
  generalize l.filter _ = l
  induction l with
  | nil => rfl
  | cons a l ih => exact ih

private theorem collect_metadata (d : Descriptors) (l : List (Obu Metadata)) :
    (l.map fun o => (⟨o.header, .other o.body.write, o.footer⟩ : DescriptorObu)).foldl collect d = d := by
  induction l with
  | nil => rfl
  | cons a l ih => exact ih

private theorem collect_codecs (d : Descriptors) (l : List (UInt32 × Obu CodecObu)) (hn : ((d.codecs.map Prod.fst) ++ l.map Prod.fst).Nodup)
    (h : ∀ c ∈ l, c.1 = c.2.body.config.configId ∧
      c.2.body.config.rates = .ok (c.2.body.outputRate, c.2.body.inputRate, c.2.body.bitDepth)) :
    (l.map fun c => (⟨c.2.header, .codecConfig c.2.body.config, c.2.footer⟩ : DescriptorObu)).foldl collect d =
      { d with codecs := d.codecs ++ l.map fun c => (c.1, c.2.body) } := by
  induction l generalizing d with
  | nil => simp
  | cons c l ih =>
    obtain ⟨h1, h2⟩ := h c List.mem_cons_self
    rw [List.map_cons, List.foldl_cons]
    have hnew : c.2.body.config.configId ∉ d.codecs.map Prod.fst := by
      rw [← h1]
      intro hm
      exact (List.nodup_append.mp hn).2.2 _ hm _ (by simp) rfl
    have : collect d ⟨c.2.header, .codecConfig c.2.body.config, c.2.footer⟩ = { d with codecs := d.codecs ++ [(c.1, c.2.body)] } := by
      unfold collect
      simp only [if_neg hnew, h2, h1]
    rw [this, ih { d with codecs := d.codecs ++ [(c.1, c.2.body)] } (by simpa only [List.map_append, List.map_cons, List.map_nil, List.append_assoc, List.cons_append, List.nil_append] using hn)
      (fun x hx => h x (List.mem_cons_of_mem _ hx))]
    simp

private theorem collect_elements (d : Descriptors) (l : List (UInt32 × Obu ElementWithData))
    (hn : ((d.elements.map Prod.fst) ++ l.map Prod.fst).Nodup)
    (h : ∀ e ∈ l, e.1 = e.2.body.obu.elementId ∧ generateElement d.codecs (carriedElement e.2.body.obu) =
      .ok (elementBack e.2.body)) :
    (l.map fun e => (⟨e.2.header, .audioElement e.2.body.obu, e.2.footer⟩ : DescriptorObu)).foldl collect d =
      { d with elements := d.elements ++ l.map fun e => (e.1, elementBack e.2.body) } := by
  induction l generalizing d with
  | nil => simp
  | cons e l ih =>
    obtain ⟨h1, h2⟩ := h e List.mem_cons_self
    rw [List.map_cons, List.foldl_cons]
    have hnew : e.2.body.obu.elementId ∉ d.elements.map Prod.fst := by
      rw [← h1]
      intro hm
      exact (List.nodup_append.mp hn).2.2 _ hm _ (by simp) rfl
    have : collect d ⟨e.2.header, .audioElement e.2.body.obu, e.2.footer⟩ =
        { d with elements := d.elements ++ [(e.1, elementBack e.2.body)] } := by
      unfold collect
      simp only [if_neg hnew, h2, h1]
    rw [this, ih { d with elements := d.elements ++ [(e.1, elementBack e.2.body)] } (by simpa only [List.map_append, List.map_cons, List.map_nil, List.append_assoc, List.cons_append, List.nil_append] using hn)
      (fun x hx => h x (List.mem_cons_of_mem _ hx))]
    simp

private theorem collect_mixes (d : Descriptors) (l : List (Obu MixPresentation))
    (h : ∀ m ∈ l, ∀ s ∈ m.body.subMixes, ∀ e ∈ s.elements, e.id ∈ d.elements.map Prod.fst) :
    (l.map fun m => (⟨m.header, .mixPresentation m.body, m.footer⟩ : DescriptorObu)).foldl collect d =
      { d with mixes := d.mixes ++ l.map fun m => carriedMix m.header.optionalFieldsFlag m.body } := by
  induction l generalizing d with
  | nil => simp
  | cons m l ih =>
    rw [List.map_cons, List.foldl_cons]
    have : collect d ⟨m.header, .mixPresentation m.body, m.footer⟩ =
        { d with mixes := d.mixes ++ [carriedMix m.header.optionalFieldsFlag m.body] } := by
      unfold collect
      simp only [if_pos (h m List.mem_cons_self)]
    rw [this, ih { d with mixes := d.mixes ++ [carriedMix m.header.optionalFieldsFlag m.body] }
      (fun x hx => h x (List.mem_cons_of_mem _ hx))]
    simp

private theorem collected_sequence {d : SequenceObus} (h : BuiltSequence d) {codecs : List (UInt32 × Obu CodecObu)}
    {elements : List (UInt32 × Obu ElementWithData)} (hc : codecs.Perm d.codecs) (he : elements.Perm d.elements)
    (sc : codecs.Pairwise (fun a b => a.1 ≤ b.1)) (se : elements.Pairwise (fun a b => a.1 ≤ b.1)) :
    SameDescriptors d ((headObu d :: obusOf d codecs elements).foldl collect .empty) := by
  have hcn : (codecs.map Prod.fst).Nodup := ((hc.map _).nodup_iff).mpr h.codecIds
  have hen : (elements.map Prod.fst).Nodup := ((he.map _).nodup_iff).mpr h.elementIds
  have hl : ∀ i, (codecs.map fun c => (c.1, c.2.body)).lookup i = (d.codecs.map fun c => (c.1, c.2.body)).lookup i :=
    lookup_perm (hc.map _) (by rw [List.map_map]; exact hcn)
  rw [List.foldl_cons]
  have h0 : collect .empty (headObu d) = ⟨some (d.sequenceHeader.header, d.sequenceHeader.body), [], [], []⟩ := rfl
  rw [h0]
  unfold obusOf
  simp only [List.foldl_append, collect_others, collect_metadata]
  rw [collect_codecs _ _ (by simpa using hcn) (fun c hm => by
    obtain ⟨-, h1, -, -, h2⟩ := h.codec c (hc.mem_iff.mp hm)
    exact ⟨h1, h2⟩)]
  rw [collect_elements _ _ (by simpa using hen) (fun e hm => by
    obtain ⟨-, h1, -, h2⟩ := h.element e (he.mem_iff.mp hm)
    refine ⟨h1, ?_⟩
    simp only [List.nil_append]
    rw [generateElement_congr hl, h2])]
  rw [collect_mixes _ _ (fun m hm s hs e hel => by
    have := (h.mix m hm).2.2.2.2.2 s hs e hel
    simp only [List.nil_append, List.map_map]
    exact ((he.map Prod.fst).mem_iff).mpr this)]
  simp only [List.nil_append]
  refine ⟨rfl, hc.map _, he.map _, rfl, ?_, ?_⟩
  · rw [List.pairwise_map]; exact sc
  · rw [List.pairwise_map]; exact se

/-! ### Proof: the stream -/

/-- The first OBU after the descriptors is one of a temporal unit. -/
private theorem first_obu {d : Descriptors} {n : UInt32} {k : Nat} {g : LebGen} {delimiters : Bool} {u : TemporalUnitView}
    (hs : substreamIds d ≠ []) (hu : UnitOf d n k u) (hf : delimiters = true ∨ ∀ o ∈ u.arbitrary, o.insertionHook = 8) {bytes : List UInt8}
    (hb : UnitBytes g delimiters u bytes) :
    ∃ h payload footer part rest, Writes g (wObu h payload footer) part ∧ 3 ≤ h.obuType ∧ h.obuType ≤ 23 ∧ bytes = part ++ rest := by
  obtain ⟨parts, rfl, hb⟩ := hb
  have key : ∃ h payload footer l, unitObus delimiters u = wObu h payload footer :: l ∧ 3 ≤ h.obuType ∧ h.obuType ≤ 23 := by
    unfold unitObus
    cases delimiters with
    | true => exact ⟨_, _, _, _, rfl, by decide, by decide⟩
    | false =>
      have hf := hf.resolve_left (by decide)
      have hk : ∀ hook, hook ≠ 8 → atHook hook u.arbitrary = [] := by
        intro hook hh
        unfold atHook
        rw [List.map_eq_nil_iff, List.filter_eq_nil_iff]
        intro o ho
        rw [hf o ho]
        simpa using fun e => hh e.symm
      rw [hk 6 (by decide), hk 7 (by decide)]
      simp only [Bool.false_eq_true, ↓reduceIte, List.nil_append, List.append_nil]
      match hbl : u.blocks with
      | b :: bs =>
        have := (hu.block b (by rw [hbl]; exact List.mem_cons_self)).type
        exact ⟨_, _, _, _, rfl, by rw [this]; decide, by rw [this]; decide⟩
      | [] =>
        match hfr : u.frames with
        | [] =>
          have := hu.frames
          rw [hfr] at this
          exact absurd (List.nil_perm.mp this) hs
        | f :: fs =>
          have := (hu.frame f (by rw [hfr]; exact List.mem_cons_self)).type
          refine ⟨_, _, _, _, rfl, ?_, ?_⟩ <;>
          · rw [this]
            split
            · decide
            · next h =>
              simp only [UInt8.le_iff_toNat_le, UInt8.reduceToNat, UInt8.toNat_ofNat']
              omega
  obtain ⟨h, payload, footer, l, e, h1, h2⟩ := key
  rw [e] at hb
  cases hb with
  | cons hb _ => exact ⟨h, payload, footer, _, _, hb, h1, h2, List.flatten_cons⟩

theorem renders_all {s : B.State} {us : List OutputUnit} {xs : List Rendered} (h : Renders B s us xs)
    (hf : ∀ u ∈ us, u.frames ≠ []) : ∃ s', renderAll s us = some (xs, s') := by
  induction h with
  | nil s => exact ⟨s, rfl⟩
  | @cons s s' u x us xs h _ ih =>
    obtain ⟨s'', e⟩ := ih fun v hv => hf v (List.mem_cons_of_mem _ hv)
    refine ⟨s'', ?_⟩
    have hr : Decoder.render s u = (.ok x, s') := by
      unfold Decoder.render
      rw [if_neg (by simpa using hf u List.mem_cons_self), h]
    simp only [renderAll, hr, e]

theorem unitsBack_frames {d : Descriptors} {n : UInt32} {us : List TemporalUnitView} {k : Nat} {earlier : List BlockWithData}
    (h : ∀ u ∈ us, u.frames ≠ []) : ∀ v ∈ unitsBack d n k earlier us, v.frames ≠ [] := by
  induction us generalizing k earlier with
  | nil => simp [unitsBack]
  | cons u us ih =>
    intro v hv
    simp only [unitsBack, List.mem_cons] at hv
    rcases hv with rfl | hv
    · simpa using h u List.mem_cons_self
    · exact ih (fun w hw => h w (List.mem_cons_of_mem _ hw)) v hv

private theorem perm_sorted {β : Type} {l l' : List (UInt32 × β)} (h : l.Perm l') (hn : (l.map Prod.fst).Nodup)
    (h1 : l.Pairwise (fun a b => a.1 ≤ b.1)) (h2 : l'.Pairwise (fun a b => a.1 ≤ b.1)) : l = l' :=
  List.Perm.eq_of_pairwise (le := fun a b => a.1 ≤ b.1)
    (fun _ _ ha hb hab hba => eq_of_nodup_map hn ha (h.mem_iff.mpr hb) (UInt32.le_antisymm hab hba)) h1 h2 h

/-- What comes back of the descriptors is determined. -/
theorem SameDescriptors.unique {d : SequenceObus} (h : BuiltSequence d) {x y : Descriptors} (hx : SameDescriptors d x)
    (hy : SameDescriptors d y) : x = y := by
  have h1 : x.codecs = y.codecs := perm_sorted (hx.codecs.trans hy.codecs.symm)
    (by rw [(hx.codecs.map _).nodup_iff, List.map_map]; exact h.codecIds) hx.ordered.1 hy.ordered.1
  have h2 : x.elements = y.elements := perm_sorted (hx.elements.trans hy.elements.symm)
    (by rw [(hx.elements.map _).nodup_iff, List.map_map]; exact h.elementIds) hx.ordered.2 hy.ordered.2
  obtain ⟨a, b, c, e⟩ := x
  obtain ⟨a', b', c', e'⟩ := y
  simp only at h1 h2
  have h3 := hx.sequenceHeader.trans hy.sequenceHeader.symm
  have h4 := hx.mixes.trans hy.mixes.symm
  simp only at h3 h4
  rw [h1, h2, h3, h4]

theorem Transmitted.stream {d : SequenceObus} {x : Descriptors} {n : UInt32} {us : List TemporalUnitView} {delimiters : Bool}
    (h : Transmitted d x n us delimiters) {g : LebGen} {descriptors : List UInt8} {units : List (List UInt8)}
    (hd : DescriptorBytes g d descriptors) (hu : List.Forall₂ (UnitBytes g delimiters) us units)
    (hl : (descriptors ++ units.flatten).length < 4294967295) :
    HasDescriptors (descriptors ++ units.flatten) x descriptors.length ∧ Arrives (descriptors ++ units.flatten) ∧ ConsistentDescriptors x := by
  obtain ⟨codecs, elements, pc, sc, pe, se, hw⟩ := hd
  rw [obus_write h.built] at hw
  have hx : (headObu d :: obusOf d codecs elements).foldl collect .empty = x :=
    SameDescriptors.unique h.built (collected_sequence h.built pc pe sc se) h.same
  obtain ⟨part, rest, hdr, payload, footer, hwr, ht1, ht2, hpart⟩ : ∃ part rest hdr payload footer,
      Writes g (wObu hdr payload footer) part ∧ 3 ≤ hdr.obuType ∧ hdr.obuType ≤ 23 ∧ units.flatten = part ++ rest := by
    match us, hu, h with
    | [], _, h => exact absurd rfl h.notEmpty
    | u :: us, .cons h1 _, h =>
      obtain ⟨a, b, c, e, r, w1, w2, w3, rfl⟩ := first_obu h.playable.streams (h.unit 0 (by simp)) (h.start.imp _root_.id fun hh => hh u rfl) h1
      exact ⟨e, _, a, b, c, w1, w2, w3, by rw [List.flatten_cons, List.append_assoc]⟩
  have := C25_written_streams (headObu d) (obusOf d codecs elements) d.sequenceHeader.body rfl (obus_proper h.built pc pe) (obus_one pc pe)
    descriptors (written hw) g hdr payload footer part rest hwr ⟨ht1, ht2⟩ (by rw [List.append_assoc, ← hpart]; exact hl)
  rw [hx, List.append_assoc, ← hpart] at this
  refine ⟨this.1, this.2, ?_⟩
  exact (C21_returned_descriptors_are_consistent _ _ _ _ (by decide) hl _ this.1.whole).1

theorem outputBytes_pcm {t : Nat} {x : Rendered} {b : List UInt8} (h : OutputBytes t x b) :
    b = pcmOf t x ∧ ∃ size, writeFrameToSpan x t size = .ok (pcmOf t x) := by
  have := writeFrame_ok h
  exact ⟨this, b.length, by rw [← this]; exact h⟩

private theorem pcm_nil (t : Nat) : pcmOf t [] = [] := rfl

private theorem sounding_pcm {t : Nat} {xs : List Rendered} {bs : List (List UInt8)} (h : List.Forall₂ (OutputBytes t) xs bs) :
    ((sounding xs).map (pcmOf t)).filter (!·.isEmpty) = bs.filter (!·.isEmpty) := by
  induction h with
  | nil => rfl
  | @cons x b xs bs h1 _ ih =>
    obtain ⟨rfl, -⟩ := outputBytes_pcm h1
    rw [show x :: xs = [x] ++ xs from rfl, sounding_append, List.map_append, List.filter_append, ih]
    rw [show pcmOf t x :: bs = [pcmOf t x] ++ bs from rfl, List.filter_append]
    congr 1
    unfold sounding
    cases x with
    | nil => rfl
    | cons a x => rfl

/-- The processor that a decoder starts with. -/
theorem initAll_processor {B : Backend} {s : DecoderSettings} {x : Descriptors} {p0 : Processor B} (hi : initAll s x = .ok p0) :
    initProcessor x = .ok (p0.context, p0.state) := by
  unfold initAll at hi
  match hp : initProcessor x with
  | .error e => rw [hp] at hi; simp [Bind.bind, Except.bind] at hi
  | .ok (c, st) =>
    rw [hp] at hi
    simp only [Bind.bind, Except.bind, initRendering] at hi
    split at hi
    · simp at hi
    · split at hi
      · simp at hi
      · split at hi
        · simp at hi
        · split at hi
          · simp at hi
          · split at hi
            · simp at hi
            · split at hi
              · simp at hi
              · split at hi
                · simp at hi
                · simp only [Except.ok.injEq] at hi
                  subst hi
                  rfl

/-- Descriptors and nothing else: they are found, and they are all there is. -/
theorem descriptors_alone {d : SequenceObus} {x : Descriptors} (hb : BuiltSequence d) (hs : SameDescriptors d x) {g : LebGen}
    {descriptors : List UInt8} (hd : DescriptorBytes g d descriptors) (hl : descriptors.length < 4294967295) (pv : Bool) :
    ((parseDescriptors true).run (RBuf.create 1024 descriptors pv)).1 = .ok (some x) ∧
    ((parseDescriptors true).run (RBuf.create 1024 descriptors pv)).2.tell = 8 * descriptors.length ∧ ConsistentDescriptors x := by
  obtain ⟨codecs, elements, pc, sc, pe, se, hw⟩ := hd
  rw [obus_write hb] at hw
  have hx : (headObu d :: obusOf d codecs elements).foldl collect .empty = x :=
    SameDescriptors.unique hb (collected_sequence hb pc pe sc se) hs
  have := C21_exactly_the_descriptors (headObu d) (obusOf d codecs elements) d.sequenceHeader.body rfl (obus_proper hb pc pe) (obus_one pc pe)
    descriptors (written hw) hl 1024 (by decide) pv
  rw [hx] at this
  exact ⟨this.1, this.2, (C21_returned_descriptors_are_consistent _ _ _ _ (by decide) hl _ this.1).1⟩

private theorem Transmitted.complete {d : SequenceObus} {x : Descriptors} {n : UInt32} {us : List TemporalUnitView} {delimiters : Bool}
    (h : Transmitted d x n us delimiters) (hc : ConsistentDescriptors x) {g : LebGen} {descriptors : List UInt8} {units : List (List UInt8)}
    (hu : List.Forall₂ (UnitBytes g delimiters) us units) {B : Backend} {s : DecoderSettings} {p0 : Processor B} (hi : initAll s x = .ok p0)
    {xs : List Rendered} (hr : Renders B p0.renderer (unitsBack x n 0 [] us) xs) :
    Complete p0 (bytesBits ((descriptors ++ units.flatten).drop descriptors.length)) (sounding xs) := by
  have hinit := initAll_processor hi
  obtain ⟨m, em, st', h1, h2, -⟩ := units_steps h.frameSize hc h.playable hinit h.unit hu
  rw [List.drop_left]
  have hf : ∀ u ∈ us, u.frames ≠ [] := by
    intro u hu2 e
    obtain ⟨k, hk, rfl⟩ := List.getElem_of_mem hu2
    have := (h.unit k hk).frames
    rw [e] at this
    exact h.playable.streams (List.nil_perm.mp this)
  obtain ⟨rs, hrs⟩ := renders_all hr (unitsBack_frames hf)
  exact ⟨m, em, st', [], xs, rs, h1, stuck_nil _ _, by rw [h2]; exact hrs, rfl⟩

/-- Descriptors are found as soon as the first temporal unit is there. -/
theorem Transmitted.early {d : SequenceObus} {x : Descriptors} {n : UInt32} {us : List TemporalUnitView} {delimiters : Bool}
    (h : Transmitted d x n us delimiters) {g : LebGen} {descriptors : List UInt8} {units : List (List UInt8)}
    (hd : DescriptorBytes g d descriptors) (hu : List.Forall₂ (UnitBytes g delimiters) us units)
    (hl : (descriptors ++ units.flatten).length < 4294967295) {P : List UInt8} (hP : P <+: descriptors ++ units.flatten)
    (hlen : descriptors.length + (units.headD []).length ≤ P.length) :
    ((parseDescriptors false).run (RBuf.create 1024 P true)).1 = .ok (some x) := by
  obtain ⟨codecs, elements, pc, sc, pe, se, hw⟩ := hd
  rw [obus_write h.built] at hw
  have hx : (headObu d :: obusOf d codecs elements).foldl collect .empty = x :=
    SameDescriptors.unique h.built (collected_sequence h.built pc pe sc se) h.same
  obtain ⟨part, rest, hdr, payload, footer, hwr, ht1, ht2, hpart, hle⟩ : ∃ part rest hdr payload footer,
      Writes g (wObu hdr payload footer) part ∧ 3 ≤ hdr.obuType ∧ hdr.obuType ≤ 23 ∧ units.flatten = part ++ rest ∧
        part.length ≤ (units.headD []).length := by
    match us, hu, h with
    | [], _, h => exact absurd rfl h.notEmpty
    | u :: us, .cons h1 _, h =>
      obtain ⟨a, b, c, e, r, w1, w2, w3, rfl⟩ := first_obu h.playable.streams (h.unit 0 (by simp)) (h.start.imp _root_.id fun hh => hh u rfl) h1
      exact ⟨e, _, a, b, c, w1, w2, w3, by rw [List.flatten_cons, List.append_assoc], by simp⟩
  obtain ⟨E, hE⟩ := hP
  have hPl : P.length ≤ (descriptors ++ units.flatten).length := by rw [← hE, List.length_append]; omega
  have hpre : descriptors ++ part <+: P := by
    refine List.prefix_of_prefix_length_le (l₃ := descriptors ++ units.flatten) ?_ ⟨E, hE⟩ (by rw [List.length_append]; omega)
    rw [hpart, ← List.append_assoc]
    exact List.prefix_append _ _
  obtain ⟨rest', hr⟩ := hpre
  have := C25_written_streams (headObu d) (obusOf d codecs elements) d.sequenceHeader.body rfl (obus_proper h.built pc pe) (obus_one pc pe)
    descriptors (written hw) g hdr payload footer part rest' hwr ⟨ht1, ht2⟩ (by rw [hr]; omega)
  rw [hx, hr] at this
  exact this.1.whole

/-- Transmitted units are rendered one after the other, as they come. -/
theorem Transmitted.prompt {d : SequenceObus} {x : Descriptors} {n : UInt32} {us : List TemporalUnitView} {delimiters : Bool}
    (h : Transmitted d x n us delimiters) (hc : ConsistentDescriptors x) {g : LebGen} {descriptors : List UInt8} {units : List (List UInt8)}
    (hu : List.Forall₂ (UnitBytes g delimiters) us units) {B : Backend} {s : DecoderSettings} {p0 : Processor B} (hi : initAll s x = .ok p0)
    {xs : List Rendered} (hr : Renders B p0.renderer (unitsBack x n 0 [] us) xs) (hx : ∀ y ∈ xs, y ≠ []) :
    Prompt p0 (bytesBits ((descriptors ++ units.flatten).drop descriptors.length)) xs := by
  have hinit := initAll_processor hi
  obtain ⟨m, em, st', h1, h2, -, h4⟩ := units_steps h.frameSize hc h.playable hinit h.unit hu
  rw [List.drop_left]
  have hf : ∀ u ∈ us, u.frames ≠ [] := by
    intro u hu2 e
    obtain ⟨k, hk, rfl⟩ := List.getElem_of_mem hu2
    have := (h.unit k hk).frames
    rw [e] at this
    exact h.playable.streams (List.nil_perm.mp this)
  obtain ⟨rs, hrs⟩ := renders_all hr (unitsBack_frames hf)
  exact ⟨m, em, st', rs, h1, h4, by rw [h2]; exact hrs, hx⟩

/-! ### Theorems -/

/-- **C36 (what is written is decoded).** A sequence is written to a file: descriptors, then any number of temporal units.  The file is
given to a decoder, in any pieces and with calls for output in between in any way.  If all calls return OK and there is nothing more to
get out of the decoder, what it gave out is the temporal units of the sequence, each rendered after the one before it, in their order and
each of them once: with all their audio frames and the parameter blocks that are in time (C35), whatever descriptors, number of
substreams, frame size and encoding of sizes. -/
theorem C36_what_is_written_is_decoded (B : Backend) (s : DecoderSettings) (ha : s.android = false)
    (d : SequenceObus) (x : Descriptors) (n : UInt32) (us : List TemporalUnitView) (delimiters : Bool) (h : Transmitted d x n us delimiters)
    (g : LebGen) (f : FileOutput) (hn : f.named = true) (hp : f.position = none) (last : List SequencerCall)
    (hlast : last = [] ∨ last = [.close])
    (hok : Succeeded (writing g delimiters f (.pushDescriptors d :: us.map .pushUnit ++ last)).1) (file : List UInt8)
    (hfile : fileAfter g delimiters f (.pushDescriptors d :: us.map .pushUnit ++ last) = some file) (hl : file.length < 4294967295)
    (p0 : Processor B) (hi : initAll s x = .ok p0) (xs : List Rendered) (hr : Renders B p0.renderer (unitsBack x n 0 [] us) xs)
    (bs : List (List UInt8)) (hb : List.Forall₂ (OutputBytes s.sampleType) xs bs)
    (cs : List DecoderCall) (pv : Bool) (hfed : fedBytes cs = file) (hcok : AllOk (decoding B s pv cs).1)
    (hdr : Drained (decoding B s pv cs).2) :
    given (decoding B s pv cs).1 = bs.filter (!·.isEmpty) := by
  obtain ⟨descriptors, units, h1, h2, h3⟩ := C34_file_of_a_sequence g delimiters f hn hp d us last hlast hok
  rw [hfile, Option.some.injEq] at h3
  subst h3
  obtain ⟨k1, -, k3⟩ := h.stream h1 h2 hl
  obtain ⟨p1, i1, outs, c1, g1, -⟩ := complete_of_drained ha k1 hfed hcok hdr
  rw [hi, Except.ok.injEq] at i1
  subst i1
  rw [g1, c1.unique (h.complete k3 h2 hi hr), sounding_pcm hb]

/-- `C36_every_way_of_decoding_works` for the bytes of descriptors and of temporal units. -/
theorem decoded_every_way (B : Backend) (s : DecoderSettings) (ha : s.android = false)
    (d : SequenceObus) (x : Descriptors) (n : UInt32) (us : List TemporalUnitView) (delimiters : Bool) (h : Transmitted d x n us delimiters)
    (g : LebGen) {descriptors : List UInt8} {units : List (List UInt8)} (h1 : DescriptorBytes g d descriptors)
    (h2 : List.Forall₂ (UnitBytes g delimiters) us units) (hl : (descriptors ++ units.flatten).length ≤ 4194304)
    (p0 : Processor B) (hi : initAll s x = .ok p0) (xs : List Rendered) (hr : Renders B p0.renderer (unitsBack x n 0 [] us) xs)
    (bs : List (List UInt8)) (hb : List.Forall₂ (OutputBytes s.sampleType) xs bs)
    (cs : List DecoderCall) (pv : Bool) (hfed : fedBytes cs = descriptors ++ units.flatten) (hends : EndsLast cs)
    (hsize : ∀ size, .getOutput size ∈ cs → ∀ b ∈ bs, b.length ≤ size) (rounds size : Nat) (hrounds : (descriptors ++ units.flatten).length + 2 ≤ rounds)
    (hsize' : ∀ b ∈ bs, b.length ≤ size) :
    AllOk (decoding B s pv (cs ++ finish rounds size)).1 ∧
    given (decoding B s pv (cs ++ finish rounds size)).1 = bs.filter (!·.isEmpty) := by
  obtain ⟨k1, k2, k3⟩ := h.stream h1 h2 (by omega)
  have hc := h.complete (descriptors := descriptors) k3 h2 hi hr
  have hwr : ∀ x ∈ sounding xs, ∃ size, writeFrameToSpan x s.sampleType size = .ok (pcmOf s.sampleType x) := by
    intro x hx
    replace hx := (List.mem_filter.mp hx).1
    clear hr hc
    induction hb with
    | nil => simp at hx
    | cons hh _ ih =>
      rcases List.mem_cons.mp hx with rfl | hx
      · exact (outputBytes_pcm hh).2
      · exact ih (fun z hz b hb => hsize z hz b (List.mem_cons_of_mem _ hb)) (fun b hb => hsize' b (List.mem_cons_of_mem _ hb)) hx
  rw [← sounding_pcm hb]
  refine everything_of_complete ha hl k1 k2 hi hc hwr hfed hends hrounds ?_ ?_
  · intro z hz out hout
    rw [sounding_pcm hb] at hout
    exact hsize z hz out (List.mem_filter.mp hout).1
  · intro out hout
    rw [sounding_pcm hb] at hout
    exact hsize' out (List.mem_filter.mp hout).1

/-- **C36 (every way).** If the file has at most 4 MiB then no call of the decoder fails, in whatever pieces the file is pushed and
whenever output is asked for, with buffers that hold a unit; and signalling the end and asking for output often enough gives out all of
the units. -/
theorem C36_every_way_of_decoding_works (B : Backend) (s : DecoderSettings) (ha : s.android = false)
    (d : SequenceObus) (x : Descriptors) (n : UInt32) (us : List TemporalUnitView) (delimiters : Bool) (h : Transmitted d x n us delimiters)
    (g : LebGen) (f : FileOutput) (hn : f.named = true) (hp : f.position = none) (last : List SequencerCall)
    (hlast : last = [] ∨ last = [.close])
    (hok : Succeeded (writing g delimiters f (.pushDescriptors d :: us.map .pushUnit ++ last)).1) (file : List UInt8)
    (hfile : fileAfter g delimiters f (.pushDescriptors d :: us.map .pushUnit ++ last) = some file) (hl : file.length ≤ 4194304)
    (p0 : Processor B) (hi : initAll s x = .ok p0) (xs : List Rendered) (hr : Renders B p0.renderer (unitsBack x n 0 [] us) xs)
    (bs : List (List UInt8)) (hb : List.Forall₂ (OutputBytes s.sampleType) xs bs)
    (cs : List DecoderCall) (pv : Bool) (hfed : fedBytes cs = file) (hends : EndsLast cs)
    (hsize : ∀ size, .getOutput size ∈ cs → ∀ b ∈ bs, b.length ≤ size) (rounds size : Nat) (hrounds : file.length + 2 ≤ rounds)
    (hsize' : ∀ b ∈ bs, b.length ≤ size) :
    AllOk (decoding B s pv (cs ++ finish rounds size)).1 ∧
    given (decoding B s pv (cs ++ finish rounds size)).1 = bs.filter (!·.isEmpty) := by
  obtain ⟨descriptors, units, h1, h2, h3⟩ := C34_file_of_a_sequence g delimiters f hn hp d us last hlast hok
  rw [hfile, Option.some.injEq] at h3
  subst h3
  exact decoded_every_way B s ha d x n us delimiters h g h1 h2 hl p0 hi xs hr bs hb cs pv hfed hends hsize rounds size hrounds hsize'

end Iamf.Props
