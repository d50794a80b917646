import Verif.Props.WireElement
import Verif.Props.Mix
/-
  C30 for mix presentations.
-/
namespace Iamf.Props
open Iamf

/-- element gain offset -/
def gainOffsetTable : GainOffset → List Field
  | .value v => [.u 8 0, .s 16 v.toInt]
  | .range d mn mx => [.u 8 1, .s 16 d.toInt, .s 16 mn.toInt, .s 16 mx.toInt]
  | .extension t b => [.u 8 t.toNat, .leb (UInt32.ofNat b.length), .bytes b]

theorem emits_gainOffset {g : LebGen} (o : GainOffset) : Emits g o.write True (gainOffsetTable o) := by
  cases o with
  | extension t b =>
    unfold GainOffset.write gainOffsetTable
    simp only [Wr.bind_eq]
    exact (em8_8.bind (emits_sized b)).cast (by simp) (fun _ => rfl)
  | _ =>
    unfold GainOffset.write gainOffsetTable
    exact Emits.cast (by em_auto) (by simp) (by exact fun _ => rfl)

/-- The parameters, the gain offset and the extension bytes of a rendering config. -/
def renderingFieldsTable (c : RenderingConfig) : List Field :=
  [.leb (UInt32.ofNat c.params.length)] ++ ((c.params.flatMap fun p => [.leb p.definition.spec.type] ++ paramDefTable p.definition) ++
    ((match c.gainOffset with
      | some o => gainOffsetTable o
      | none => []) ++ [.bytes c.extensionBytes]))

/-- rendering_config(): mode, whether there is a gain offset, binaural profile, reserved bits, and the rest with its size. -/
def renderingTable (g : LebGen) (c : RenderingConfig) : List Field :=
  [.u 2 c.headphonesMode.toNat, .u 1 c.gainOffset.isSome.toNat, .u 2 c.binauralProfile.toNat, .u 3 c.reserved.toNat] ++
  (if c.params = [] ∧ c.gainOffset = none ∧ c.extensionBytes = [] then [.leb 0]
  else [.leb (UInt32.ofNat ((encode g (renderingFieldsTable c)).length / 8))] ++ renderingFieldsTable c)

/-- The parameter definitions are allowed, and take whole bytes. -/
structure RenderingOk (g : LebGen) (c : RenderingConfig) : Prop where
  params : ∀ p ∈ c.params, ParamDefOk p.definition
  aligned : (encode g (renderingFieldsTable c)).length % 8 = 0

theorem emits_rendering {g : LebGen} (c : RenderingConfig) (hm : ∀ p ∈ c.params, p.definition.Made) :
    Emits g c.write (RenderingOk g c) (renderingTable g c) := by
  unfold RenderingConfig.write renderingTable
  simp only [Wr.bind_eq]
  have hf : Emits g ((wRenderingFields c.params c.gainOffset).bind fun _ => wBytes c.extensionBytes)
      (∀ p ∈ c.params, ParamDefOk p.definition) (renderingFieldsTable c) := by
    unfold wRenderingFields renderingFieldsTable
    simp only [Wr.bind_eq]
    have hp : ∀ p ∈ c.params, Emits g p.write (ParamDefOk p.definition) ([.leb p.definition.spec.type] ++ paramDefTable p.definition) := by
      intro p hp
      unfold RenderingParam.write
      simp only [Wr.bind_eq]
      exact (Emits.uleb.bind (emits_paramDef p.definition (hm p hp))).cast (by simp) (fun _ => rfl)
    have hg : Emits g (wGainOffset c.gainOffset) True (match c.gainOffset with
        | some o => gainOffsetTable o
        | none => []) := by
      cases c.gainOffset with
      | none => exact Emits.ret
      | some o => exact emits_gainOffset o
    exact ((Emits.uleb.bind ((Emits.each hp).bind hg)).bind Emits.bytes).cast (by simp) (fun _ => by simp)
  have hrest : Emits g (if c.params = [] ∧ c.gainOffset = none ∧ c.extensionBytes = [] then wUleb 0
      else (Wr.sub ((wRenderingFields c.params c.gainOffset).bind fun _ => wBytes c.extensionBytes)).bind fun tmp =>
        (Wr.check tmp.isByteAligned .abort).bind fun _ => (wUleb (UInt32.ofNat tmp.bytes.length)).bind fun _ => wBytes tmp.bytes)
      (RenderingOk g c) (if c.params = [] ∧ c.gainOffset = none ∧ c.extensionBytes = [] then [.leb 0]
        else [.leb (UInt32.ofNat ((encode g (renderingFieldsTable c)).length / 8))] ++ renderingFieldsTable c) := by
    by_cases he : c.params = [] ∧ c.gainOffset = none ∧ c.extensionBytes = []
    · rw [if_pos he, if_pos he]
      refine Emits.uleb.cast ?_ (fun _ => rfl)
      simp only [true_iff]
      refine ⟨by simp [he.1], ?_⟩
      unfold renderingFieldsTable
      rw [he.1, he.2.1, he.2.2]
      simp [encode, Field.bits]
    · rw [if_neg he, if_neg he]
      refine (hf.sub (Q := (encode g (renderingFieldsTable c)).length % 8 = 0) ?_ ?_).cast ?_ (fun _ => rfl)
      · intro _ hF w hw
        obtain ⟨-, ho, hb, hal⟩ := hw.table hf
        by_cases ha : (encode g (renderingFieldsTable c)).length % 8 = 0
        · obtain ⟨h1, h2⟩ := hb ha
          have hbytes : Emits g (wBytes w.bytes) True (renderingFieldsTable c) := by
            intro bs
            rw [eval_wBytes]
            simp only [Prod.mk.injEq, true_and]
            constructor
            · rintro rfl; exact ⟨hF, h2⟩
            · rintro ⟨-, rfl⟩; exact h2
          rw [h1]
          exact (Emits.check.bind (Emits.uleb.bind hbytes)).cast (by simp [hal.mpr ha, ha]) (fun _ => rfl)
        · have hw' : w.isByteAligned = false := by
            have := mt hal.mp ha
            simpa using this
          intro bs
          rw [hw']
          constructor
          · intro e
            obtain ⟨hc, -⟩ := Wr.check_bind_ok e
            simp at hc
          · rintro ⟨h, -⟩
            exact absurd h ha
      · intro hF
        exact ((fits_append _ _ _).mp hF).2
      · exact ⟨fun ⟨a, b⟩ => ⟨a, b⟩, fun ⟨a, b⟩ => ⟨a, b⟩⟩
  exact (em8_2.bind (Emits.bool.bind (em8_2.bind (em8_3.bind hrest)))).cast (by simp) (fun _ => rfl)

/-- One audio element of a sub-mix. -/
def subMixElementTable (g : LebGen) (e : SubMixElement) : List Field :=
  [.leb e.id] ++ (e.annotations.map .str ++ (renderingTable g e.rendering ++ paramDefTable e.mixGain))

/-- As many annotations as the presentation announces. -/
structure SubMixElementOk (g : LebGen) (countLabel : Nat) (e : SubMixElement) : Prop where
  annotations : count32 e.annotations.length = countLabel
  rendering : RenderingOk g e.rendering
  mixGain : ParamDefOk e.mixGain

/-- What the C++ types guarantee: definitions have schedules made by the factories. -/
def SubMixElementMade (e : SubMixElement) : Prop := (∀ p ∈ e.rendering.params, p.definition.Made) ∧ e.mixGain.Made

theorem emits_strings {g : LebGen} (l : List (List UInt8)) : Emits g (wAll wString l) True (l.map .str) :=
  (Emits.each (P := fun _ => True) (t := fun x : List UInt8 => [.str x]) fun x _ => Emits.string).cast (by simp)
    (fun _ => by rw [List.map_eq_flatMap])

theorem emits_subMixElement {g : LebGen} (n : UInt32) (e : SubMixElement) (hm : SubMixElementMade e) :
    Emits g (e.write n) (SubMixElementOk g n.toNat e) (subMixElementTable g e) := by
  unfold SubMixElement.write subMixElementTable
  simp only [Wr.bind_eq]
  refine (Emits.uleb.bind (Emits.check.bind ((emits_strings _).bind ((emits_rendering e.rendering hm.1).bind
    (emits_paramDef e.mixGain hm.2))))).cast ?_ (fun _ => rfl)
  rw [beq_iff_eq, ← UInt32.toNat_inj, ofNat_toNat32]
  exact ⟨fun ⟨_, a, _, b, c⟩ => ⟨a, b, c⟩, fun ⟨a, b, c⟩ => ⟨trivial, a, trivial, b, c⟩⟩

/-- loudness_layout(): type 2 carries a sound system, the others only reserved bits. -/
def layoutTable (l : Layout) : List Field :=
  [.u 2 l.type.toNat] ++ match l.specific with
    | .soundSystem s r => [.u 4 s.toNat, .u 2 r.toNat]
    | .other r => [.u 6 r.toNat]

/-- The fields are those of the type. -/
def LayoutOk (l : Layout) : Prop := match l.specific with
  | .soundSystem _ _ => l.type.toNat = 2
  | .other _ => l.type.toNat ≠ 2

/-- loudness_info(): bit 0 of the type announces the true peak, bit 1 anchored loudness, any of bits 2 to 7 an extension. -/
def loudnessTable (l : LoudnessInfo) : List Field :=
  [.u 8 l.infoType.toNat, .s 16 l.integratedLoudness.toInt, .s 16 l.digitalPeak.toInt] ++
  ((if l.infoType.toNat.testBit 0 then [.s 16 l.truePeak.toInt] else []) ++
  ((if l.infoType.toNat.testBit 1 then [.u 8 l.anchors.length] ++ l.anchors.flatMap fun a => [.u 8 a.1.toNat, .s 16 a.2.toInt] else []) ++
  (if 4 ≤ l.infoType.toNat then [.leb (UInt32.ofNat l.extension.length), .bytes l.extension] else [])))

/-- Anchored loudness: at most 255 entries, of different anchors. -/
def LoudnessOk (l : LoudnessInfo) : Prop :=
  l.infoType.toNat.testBit 1 = true → (l.anchors.map Prod.fst).Nodup ∧ l.anchors.length ≤ 255

theorem emits_when {g : LebGen} {c : Bool} {w : Wr Unit} {P : Prop} {t : List Field} (h : Emits g w P t) :
    Emits g (wWhen c w) (c = true → P) (if c then t else []) := by
  unfold wWhen
  cases c
  · exact Emits.ret.cast (by simp) (fun _ => by simp)
  · exact h.cast (by simp) (fun _ => by simp)

theorem emits_loudness {g : LebGen} (l : LoudnessInfo) : Emits g l.write (LoudnessOk l) (loudnessTable l) := by
  unfold LoudnessInfo.write loudnessTable LoudnessOk
  simp only [Wr.bind_eq]
  have bits : ∀ n < 256, ((UInt8.ofNat n &&& kTruePeak != 0) = n.testBit 0) ∧ ((UInt8.ofNat n &&& kAnchoredLoudness != 0) = n.testBit 1) ∧
      ((UInt8.ofNat n &&& kAnyLayoutExtension != 0) = decide (4 ≤ n)) := by decide +kernel
  have := bits l.infoType.toNat l.infoType.toNat_lt
  rw [UInt8.ofNat_toNat] at this
  rw [this.1, this.2.1, this.2.2]
  have ha : Emits g (wAnchors l.anchors) ((l.anchors.map Prod.fst).Nodup ∧ l.anchors.length ≤ 255)
      ([.u 8 l.anchors.length] ++ l.anchors.flatMap fun a => [.u 8 a.1.toNat, .s 16 a.2.toInt]) := by
    unfold wAnchors
    simp only [Wr.bind_eq]
    have : ∀ a ∈ l.anchors, Emits g (wAnchor a) True [.u 8 a.1.toNat, .s 16 a.2.toInt] := by
      intro a _
      unfold wAnchor
      exact Emits.cast (by em_auto) (by simp) (by exact fun _ => rfl)
    refine (Emits.check.bind (Emits.check.bind (em8_8.bind (Emits.each this)))).cast (by simp) (fun h => ?_)
    have h := h.2.1
    simp only [decide_eq_true_eq] at h
    rw [UInt8.toNat_ofNat', Nat.mod_eq_of_lt (by omega)]; rfl
  exact (em8_8.bind (Emits.s16.bind (Emits.s16.bind ((emits_when Emits.s16).bind ((emits_when ha).bind (emits_when (emits_sized _))))))).cast
    (by simp) (fun _ => by simp)

theorem emits_mixLayout {g : LebGen} (l : MixLayout) :
    Emits g l.write (LayoutOk l.layout ∧ LoudnessOk l.loudness) (layoutTable l.layout ++ loudnessTable l.loudness) := by
  unfold MixLayout.write layoutTable LayoutOk
  simp only [Wr.bind_eq]
  have h2 : l.layout.type = 2 ↔ l.layout.type.toNat = 2 := by rw [← UInt8.toNat_inj]; rfl
  have hs : Emits g (l.layout.specific.write l.layout.type) (match l.layout.specific with
      | .soundSystem _ _ => l.layout.type.toNat = 2
      | .other _ => l.layout.type.toNat ≠ 2) (match l.layout.specific with
      | .soundSystem s r => [.u 4 s.toNat, .u 2 r.toNat]
      | .other r => [.u 6 r.toNat]) := by
    unfold SpecificLayout.write
    cases l.layout.specific with
    | soundSystem s r =>
      simp only
      by_cases h : l.layout.type = 2
      · rw [if_pos h]; exact (em8_4.bind em8_2).cast (by simp [h2.mp h]) (fun _ => rfl)
      · rw [if_neg h]; exact (Emits.fail (t := [])).cast (by simp [mt h2.mpr h]) (fun h => h.elim)
    | other r =>
      simp only
      by_cases h : l.layout.type = 2
      · rw [if_pos h]; exact (Emits.fail (t := [])).cast (by simp [h2.mp h]) (fun h => h.elim)
      · rw [if_neg h]; exact em8_6.cast (by simp [mt h2.mpr h]) (fun _ => rfl)
  exact (em8_2.bind (hs.bind (emits_loudness l.loudness))).cast (by simp) (fun _ => by simp)

/-- A sub-mix. -/
def subMixTable (g : LebGen) (s : SubMix) : List Field :=
  [.leb (UInt32.ofNat s.elements.length)] ++ (s.elements.flatMap (subMixElementTable g) ++ (paramDefTable s.outputMixGain ++
    ([.leb (UInt32.ofNat s.layouts.length)] ++ s.layouts.flatMap fun l => layoutTable l.layout ++ loudnessTable l.loudness)))

/-- At least one element, and one of the layouts is stereo (type 2, sound system A). -/
structure SubMixOk (g : LebGen) (countLabel : Nat) (s : SubMix) : Prop where
  elements : count32 s.elements.length ≠ 0
  eachElement : ∀ e ∈ s.elements, SubMixElementOk g countLabel e
  gain : ParamDefOk s.outputMixGain
  layouts : ∀ l ∈ s.layouts, LayoutOk l.layout ∧ LoudnessOk l.loudness
  stereo : ∃ l ∈ s.layouts, ∃ r, l.layout.specific = .soundSystem 0 r

def SubMixMade (s : SubMix) : Prop := (∀ e ∈ s.elements, SubMixElementMade e) ∧ s.outputMixGain.Made

theorem stereo_iff (l : List MixLayout) (h : ∀ x ∈ l, LayoutOk x.layout) :
    hasStereoLayout l = true ↔ ∃ x ∈ l, ∃ r, x.layout.specific = .soundSystem 0 r := by
  unfold hasStereoLayout
  rw [List.any_eq_true]
  constructor
  · rintro ⟨x, hx, hb⟩
    refine ⟨x, hx, ?_⟩
    cases hs : x.layout.specific with
    | other r => rw [hs] at hb; simp at hb
    | soundSystem s r =>
      rw [hs] at hb
      simp only [Bool.and_eq_true, beq_iff_eq] at hb
      rw [hb.2]; exact ⟨r, rfl⟩
  · rintro ⟨x, hx, r, hs⟩
    refine ⟨x, hx, ?_⟩
    have := h x hx
    unfold LayoutOk at this
    rw [hs] at this ⊢
    simp only at this
    simp only [Bool.and_eq_true, beq_iff_eq, and_true]
    exact UInt8.toNat_inj.mp this

theorem emits_subMix {g : LebGen} (n : UInt32) (s : SubMix) (hm : SubMixMade s) :
    Emits g (s.write n) (SubMixOk g n.toNat s) (subMixTable g s) := by
  unfold SubMix.write subMixTable
  simp only [Wr.bind_eq]
  refine (Emits.check.bind (Emits.uleb.bind ((Emits.each fun e he => emits_subMixElement n e (hm.1 e he)).bind
    ((emits_paramDef s.outputMixGain hm.2).bind (Emits.uleb.bind ((Emits.each fun l _ => emits_mixLayout l).bind
    Emits.check)))))).cast ?_ (fun _ => by simp)
  rw [bne_iff_ne, ne_eq, ← UInt32.toNat_inj, ofNat_toNat32]
  constructor
  · rintro ⟨a, -, b, c, -, d, e⟩
    exact ⟨a, b, c, d, (stereo_iff _ fun x hx => (d x hx).1).mp e⟩
  · rintro ⟨a, b, c, d, e⟩
    exact ⟨a, trivial, b, c, trivial, d, (stereo_iff _ fun x hx => (d x hx).1).mpr e⟩

/-- The tags and the optional fields. -/
def mixRestTable (optionalFieldsFlag : Bool) (m : MixPresentation) : List Field :=
  (match m.tags with
    | some t => [.u 8 t.length] ++ t.flatMap fun x => [.str x.1, .str x.2]
    | none => []) ++
  (match optionalFieldsFlag, m.optionalFields with
    | true, some o => [.leb o.size, .u 8 o.loudspeakerRenderer.toNat, .u 8 o.binauralRenderer.toNat, .bytes o.remaining]
    | _, _ => [])

/-- mix_presentation_obu() -/
def mixTable (g : LebGen) (optionalFieldsFlag : Bool) (m : MixPresentation) : List Field :=
  [.leb m.id, .leb m.countLabel] ++ (m.languages.map .str ++ (m.annotations.map .str ++
    ([.leb (UInt32.ofNat m.subMixes.length)] ++ (m.subMixes.flatMap (subMixTable g) ++ mixRestTable optionalFieldsFlag m))))

/-- At most 255 tags; at most one "content_language", of three characters. -/
def TagsOk (t : List (List UInt8 × List UInt8)) : Prop :=
  t.length ≤ 255 ∧ (t.filter fun x => x.1 == [0x63, 0x6f, 0x6e, 0x74, 0x65, 0x6e, 0x74, 0x5f, 0x6c, 0x61, 0x6e, 0x67, 0x75, 0x61, 0x67, 0x65]).length ≤ 1 ∧
  ∀ x ∈ t, x.1 = [0x63, 0x6f, 0x6e, 0x74, 0x65, 0x6e, 0x74, 0x5f, 0x6c, 0x61, 0x6e, 0x67, 0x75, 0x61, 0x67, 0x65] → x.2.length = 3

structure MixOk (g : LebGen) (optionalFieldsFlag : Bool) (m : MixPresentation) : Prop where
  languages : m.languages.Nodup
  labels : count32 m.languages.length = m.countLabel.toNat ∧ count32 m.annotations.length = m.countLabel.toNat
  subMixes : count32 m.subMixes.length ≠ 0
  elementIds : (m.subMixes.flatMap fun s => s.elements.map SubMixElement.id).Nodup
  eachSubMix : ∀ s ∈ m.subMixes, SubMixOk g m.countLabel.toNat s
  tags : ∀ t, m.tags = some t → TagsOk t
  optional : optionalFieldsFlag = true → m.tags.isSome = true ∧ ∃ o, m.optionalFields = some o ∧ o.remaining.length + 2 = o.size.toNat

theorem emits_tags {g : LebGen} (t : List (List UInt8 × List UInt8)) :
    Emits g (wMixTags t) (TagsOk t) ([.u 8 t.length] ++ t.flatMap fun x => [.str x.1, .str x.2]) := by
  unfold wMixTags
  simp only [Wr.bind_eq]
  have ht : ∀ x ∈ t, Emits g (wMixTag x) (x.1 = contentLanguageName → x.2.length = 3) [.str x.1, .str x.2] := by
    intro x _
    unfold wMixTag
    simp only [Wr.bind_eq]
    refine (Emits.check.bind (emits_tag x)).cast ?_ (fun _ => rfl)
    simp only [Bool.or_eq_true, bne_iff_ne, ne_eq, beq_iff_eq, and_true]
    exact ⟨fun h e => h.resolve_left fun n => n e, fun h => by
      by_cases e : x.1 = contentLanguageName
      · exact .inr (h e)
      · exact .inl e⟩
  refine (Emits.check.bind (em8_8.bind ((Emits.each ht).bind Emits.check))).cast ?_ (fun h => ?_)
  · simp only [decide_eq_true_eq, true_and]
    exact ⟨fun ⟨a, b, c⟩ => ⟨a, c, b⟩, fun ⟨a, c, b⟩ => ⟨a, b, c⟩⟩
  · have h := h.1
    simp only [decide_eq_true_eq] at h
    rw [UInt8.toNat_ofNat', Nat.mod_eq_of_lt (by omega), List.append_nil]; rfl

theorem emits_mixRest {g : LebGen} (flag : Bool) (m : MixPresentation)
    (hl : ∀ o, m.optionalFields = some o → o.remaining.length < 2 ^ 32) :
    Emits g (m.writeRest flag) ((∀ t, m.tags = some t → TagsOk t) ∧
      (flag = true → m.tags.isSome = true ∧ ∃ o, m.optionalFields = some o ∧ o.remaining.length + 2 = o.size.toNat)) (mixRestTable flag m) := by
  unfold MixPresentation.writeRest mixRestTable
  simp only [Wr.bind_eq]
  have h1 : Emits g (wMixTagsOption m.tags) (∀ t, m.tags = some t → TagsOk t) (match m.tags with
      | some t => [.u 8 t.length] ++ t.flatMap fun x => [.str x.1, .str x.2]
      | none => []) := by
    unfold wMixTagsOption
    cases m.tags with
    | none => exact Emits.ret.cast (by simp) (fun _ => rfl)
    | some t => exact (emits_tags t).cast (by simp) (fun _ => rfl)
  have h2 : Emits g (wMixOptional m) (m.tags.isSome = true ∧ ∃ o, m.optionalFields = some o ∧ o.remaining.length + 2 = o.size.toNat)
      (match m.optionalFields with
      | some o => [.leb o.size, .u 8 o.loudspeakerRenderer.toNat, .u 8 o.binauralRenderer.toNat, .bytes o.remaining]
      | none => []) := by
    unfold wMixOptional
    simp only [Wr.bind_eq]
    revert hl
    cases m.optionalFields with
    | none => intro _; exact (Emits.check.bind (Emits.fail (t := []))).cast (by simp) (fun h => h.2.elim)
    | some o =>
      intro hl
      have hl := hl o rfl
      unfold MixOptionalFields.write
      simp only [Wr.bind_eq]
      refine (Emits.check.bind (Emits.uleb.bind (em8_8.bind (em8_8.bind (Emits.check.bind Emits.bytes))))).cast ?_ (fun _ => rfl)
      simp only [beq_iff_eq, true_and, and_true, Option.some.injEq, exists_eq_left', ← UInt64.toNat_inj]
      rw [UInt64.toNat_ofNat', Nat.mod_eq_of_lt (by omega), UInt64.toNat_sub, UInt32.toNat_toUInt64]
      have := o.size.toNat_lt
      have e2 : (2 : UInt64).toNat = 2 := rfl
      rw [e2]
      constructor
      · rintro ⟨a, b⟩; exact ⟨a, by omega⟩
      · rintro ⟨a, b⟩; exact ⟨a, by omega⟩
  refine (h1.bind (emits_when h2)).cast Iff.rfl (fun _ => ?_)
  cases flag <;> cases m.optionalFields <;> rfl

theorem emits_mix {g : LebGen} (flag : Bool) (m : MixPresentation) (hm : ∀ s ∈ m.subMixes, SubMixMade s)
    (hl : ∀ o, m.optionalFields = some o → o.remaining.length < 2 ^ 32) :
    Emits g (m.write flag) (MixOk g flag m) (mixTable g flag m) := by
  unfold MixPresentation.write MixPresentation.writeMain mixTable
  simp only [Wr.bind_eq]
  refine ((Emits.uleb.bind (Emits.uleb.bind (Emits.check.bind (Emits.check.bind ((emits_strings _).bind (Emits.check.bind
    ((emits_strings _).bind (Emits.uleb.bind (Emits.check.bind (Emits.check.bind
    (Emits.each fun s hs => emits_subMix m.countLabel s (hm s hs)))))))))))).bind (emits_mixRest flag m hl)).cast ?_ (fun _ => by simp)
  simp only [true_and, decide_eq_true_eq, beq_iff_eq, bne_iff_ne, ne_eq, ← UInt32.toNat_inj, ofNat_toNat32]
  constructor
  · rintro ⟨⟨a, b, c, d, e, f⟩, h, i⟩
    exact ⟨a, ⟨b, c⟩, d, e, f, h, i⟩
  · rintro ⟨a, ⟨b, c⟩, d, e, f, h, i⟩
    exact ⟨⟨a, b, c, d, e, f⟩, h, i⟩

/-- **C30 (mix presentation).** OBU type 2; the type specific flag announces optional fields. -/
theorem C30_mix_presentation (g : LebGen) (h : ObuHeader) (m : MixPresentation) (footer bytes : List UInt8)
    (hm : ∀ s ∈ m.subMixes, SubMixMade s) (hl : ∀ o, m.optionalFields = some o → o.remaining.length < 2 ^ 32) :
    Writes g (wObu { h with obuType := ObuType.mixPresentation } (m.write h.typeSpecificFlag) footer) bytes ↔
      MixOk g h.typeSpecificFlag m ∧ IsObu g { h with obuType := 2 } (mixTable g h.typeSpecificFlag m) footer bytes :=
  writes_obu footer bytes (emits_mix h.typeSpecificFlag m hm hl)

/-- Not vacuous: the presentation of C11 with two layouts, a rendering parameter, tags and optional fields. -/
example : (∀ s ∈ exampleMix.subMixes, SubMixMade s) ∧
    ∃ bytes, MixOk .minimum true exampleMix ∧ IsObu .minimum exampleMixHeader (mixTable .minimum true exampleMix) [5, 6] bytes := by
  have hm : ∀ s ∈ exampleMix.subMixes, SubMixMade s := by
    intro s hs
    simp only [exampleMix, List.mem_singleton] at hs
    subst hs
    refine ⟨fun e he => ?_, fun s h => absurd h (by simp)⟩
    simp only [List.mem_singleton] at he
    subst he
    refine ⟨fun p hp => ?_, fun s h => absurd h (by simp)⟩
    simp only [List.mem_singleton] at hp
    subst hp
    exact fun s h => absurd h (by simp)
  refine ⟨hm, ?_⟩
  obtain ⟨bytes, h⟩ : ∃ bytes, Writes .minimum (wObu exampleMixHeader (exampleMix.write exampleMixHeader.typeSpecificFlag) [5, 6]) bytes :=
    (Writes.exists (by decide +kernel) (by decide +kernel)).imp fun _ h => h.1
  exact ⟨bytes, (C30_mix_presentation .minimum exampleMixHeader exampleMix [5, 6] bytes hm (by
    intro o ho
    simp only [exampleMix, Option.some.injEq] at ho
    subst ho
    decide)).mp h⟩

end Iamf.Props
