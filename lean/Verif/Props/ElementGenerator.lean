import Verif.Cli.ElementGenerator
import Verif.Props.CodecGenerator
import Verif.Props.AudioElement
import Verif.Props.WireElement
import Verif.Props.AmbisonicsMixer
import Verif.Props.Params
/-
  C62: audio elements from metadata.
-/
namespace Iamf.Props
open Iamf

/-! ### Specification -/

/-- The subblocks of a parameter, if its definition has them: all of one duration but the last, or of the durations listed. -/
def SaysSchedule (m : DefinitionMetadata) : Option SubblockSchedule → Prop
  | none => m.mode = true
  | some s => m.mode = false ∧
    if m.constantSubblockDuration ≠ 0 then
      s.duration = m.duration ∧ s.constantSubblockDuration = m.constantSubblockDuration ∧ s.subblockDurations = [] ∧
      m.constantSubblockDuration ≤ m.duration ∧ 1 ≤ s.numSubblocks.toNat ∧ s.numSubblocks.toNat ≤ 192000 ∧
      (s.numSubblocks.toNat - 1) * m.constantSubblockDuration.toNat < m.duration.toNat ∧
      m.duration.toNat ≤ s.numSubblocks.toNat * m.constantSubblockDuration.toNat
    else
      s.constantSubblockDuration = 0 ∧ s.subblockDurations = m.subblockDurations ∧
      s.numSubblocks.toNat = m.subblockDurations.length ∧ 1 ≤ m.subblockDurations.length ∧ m.subblockDurations.length ≤ 192000 ∧
      (∀ d ∈ m.subblockDurations, d ≠ 0) ∧ s.duration.toNat = (m.subblockDurations.map UInt32.toNat).sum

/-- The part that all parameter definitions have. -/
structure SaysBase (m : DefinitionMetadata) (b : ParamBase) : Prop where
  id : b.id = m.id
  rate : b.rate = m.rate
  reserved : b.reserved.toNat = m.reserved.toNat
  schedule : SaysSchedule m b.schedule

/-- The definition covers exactly one frame. -/
def CoversFrame (samplesPerFrame : UInt32) (b : ParamBase) : Prop := ∃ s, b.schedule = some s ∧ s.duration = samplesPerFrame

/-- A parameter of an element: types are 2 for demixing, 3 for recon gain and 256 for an extension, whose bytes are all there is to it. -/
def SaysParam (samplesPerFrame : UInt32) (m : ElementParamMetadata) (p : ParamDef) : Prop :=
  m.deprecatedType = false ∧
  ((∃ (d : DemixingDefinitionMetadata) (x : DefaultDemixingInfo), m.type = some 2 ∧ m.content = .demixing d ∧ p.spec = .demixing x ∧
      SaysBase d.definition p.base ∧ CoversFrame samplesPerFrame p.base ∧
      x.info.dmixpMode.toNat + 1 = d.mode.toNat ∧ x.info.dmixpMode.toNat < 8 ∧ x.info.reserved.toNat = d.modeReserved.toNat ∧
      x.defaultW.toNat = d.defaultW.toNat ∧ x.reservedForFutureUse.toNat = d.reserved.toNat) ∨
    (∃ (d : DefinitionMetadata), m.type = some 3 ∧ m.content = .reconGain d ∧ p.spec = .reconGain [] ∧
      SaysBase d p.base ∧ CoversFrame samplesPerFrame p.base) ∨
    (∃ (bytes : List UInt8), m.type = some 256 ∧ p = ⟨⟨0, 0, 0, none⟩, .extended 4294967295 bytes⟩ ∧
      (m.content = .extension bytes ∨ bytes = [] ∧ ∀ b, m.content ≠ .extension b)))

/-- A layer: layouts are numbered from 1 in metadata. -/
structure SaysLayerConfig (m : LayerConfigMetadata) (l : ChannelLayer) : Prop where
  current : m.deprecatedLayout = false
  layout : l.layout.toNat + 1 = m.layout.toNat
  known : l.layout.toNat ≤ 10 ∨ l.layout.toNat = 14 ∨ l.layout.toNat = 15
  expanded : ∀ e, l.expanded = some e ↔ l.layout.toNat = 15 ∧ e.toNat + 1 = m.expanded.toNat
  expansion : l.layout.toNat = 15 → 1 ≤ m.expanded.toNat ∧ m.expanded.toNat ≤ 20
  gainPresent : m.outputGainPresent.toNat = l.outputGainPresent.toNat
  reconPresent : m.reconGainPresent.toNat = l.reconGainPresent.toNat
  reservedA : l.reservedA.toNat = m.reservedA.toNat
  substreams : l.substreamCount.toNat = m.substreamCount.toNat
  coupled : l.coupledSubstreamCount.toNat = m.coupledSubstreamCount.toNat
  gain : l.outputGainPresent = true → l.outputGainFlag.toNat = m.outputGainFlag.toNat ∧ l.reservedB.toNat = m.reservedB.toNat ∧
    l.outputGain.toInt = m.outputGain.toInt
  noGain : l.outputGainPresent = false → l.outputGainFlag = 0 ∧ l.reservedB = 0 ∧ l.outputGain = 0

/-- The codec keeps all samples: FLAC and LPCM. -/
def Lossless (c : CodecConfig) : Prop := c.codecId.toNat = 0x664c6143 ∨ c.codecId.toNat = 0x6970636d

/-- A channel based element. -/
structure SaysScalable (m : ElementMetadata) (codec : CodecConfigObu) (reserved : UInt32) (layers : List LayerConfigMetadata)
    (e : ElementWithData) (ls : List ChannelLayer) : Prop where
  config : m.config = .scalable reserved layers
  obu : e.obu = ⟨m.id, 0, m.reserved.toUInt8, m.codecConfigId, m.substreamIds, e.obu.params, .scalable ⟨0, ls⟩⟩
  each : List.Forall₂ SaysLayerConfig layers ls
  number : 1 ≤ layers.length ∧ layers.length ≤ 6
  substreams : (layers.map fun l => l.substreamCount.toNat).sum = m.substreamIds.length
  different : m.substreamIds.Nodup
  binaural : (∃ l ∈ layers, l.layout.toNat = 10) → layers.length = 1
  params : List.Forall₂ (SaysParam codec.config.numSamplesPerFrame) m.params e.obu.params
  reconFlags : ∀ i l, layers[i]? = some l → (l.reconGainPresent.toNat = 1 ↔ 0 < i ∧ ¬ Lossless codec.config)
  reconGain : (∃ p ∈ m.params, p.type = some 3) ↔ 1 < layers.length ∧ ¬ Lossless codec.config
  data : finalizeScalable m.substreamIds ⟨0, ls⟩ = .ok e.data

/-- Ambisonics: counts and mappings are copied, and presets are those of C59. -/
def SaysAmbisonics (codecId : UInt32) (m : AmbisonicsMetadata) (c : Ambisonics) : Prop := match m with
  | .mono out sub mapping => ∃ x : AmbisonicsMono, c = .mono x ∧ out.toNat = mapping.length ∧ x.substreamCount.toNat = sub.toNat ∧
      x.channelMapping.map UInt8.toNat = mapping.map UInt32.toNat ∧ UsableAmbisonics sub.toNat c
  | .projection out sub coupled matrix => ∃ x : AmbisonicsProjection, c = .projection x ∧ x.outputChannelCount.toNat = out.toNat ∧
      x.substreamCount.toNat = sub.toNat ∧ x.coupledSubstreamCount.toNat = coupled.toNat ∧
      x.demixingMatrix.map Int16.toInt = matrix.map Int32.toInt ∧ UsableAmbisonics sub.toNat c
  | .preset p => ∃ q : AmbisonicsPreset, p.toNat = presetOrder q + 1 ∧ (IsMixed codecId q → c = .projection thirdOrderProjection) ∧
      (¬ IsMixed codecId q → c = .mono ⟨UInt8.ofNat ((presetOrder q + 1) ^ 2), (List.range ((presetOrder q + 1) ^ 2)).map UInt8.ofNat⟩)
  | .unset => False

/-- A scene based element. -/
structure SaysScene (m : ElementMetadata) (codec : CodecConfigObu) (a : AmbisonicsMetadata) (e : ElementWithData) (c : Ambisonics) : Prop where
  config : m.config = .ambisonics a
  obu : e.obu = ⟨m.id, 1, m.reserved.toUInt8, m.codecConfigId, m.substreamIds, e.obu.params, .ambisonics c⟩
  ambisonics : SaysAmbisonics codec.config.codecId a c
  substreams : c.numSubstreams.toNat = m.substreamIds.length
  different : m.substreamIds.Nodup
  params : List.Forall₂ (SaysParam codec.config.numSamplesPerFrame) m.params e.obu.params
  labels : finalizeAmbisonics e.obu = .ok e.data.labels
  data : e.data = ⟨e.data.labels, [], []⟩

/-- An element with one or two objects.  It has no parameters, whatever the metadata say. -/
structure SaysObjects (m : ElementMetadata) (n : UInt32) (ext : List UInt8) (s : UInt32) (e : ElementWithData) : Prop where
  config : m.config = .objects n ext
  number : n.toNat % 256 = 1 ∨ n.toNat % 256 = 2
  substream : m.substreamIds = [s]
  obu : e.obu = ⟨m.id, 2, m.reserved.toUInt8, m.codecConfigId, [s], [], .objects ⟨n.toUInt8, ext⟩⟩
  data : e.data = ⟨[(s, if n.toNat % 256 = 1 then [.object0] else [.object0, .object1])], [], []⟩

/-- The element says what the metadata say: types are 1 for channels, 2 for scenes and 3 for objects. -/
structure SaysElement (codecs : List (UInt32 × CodecConfigObu)) (m : ElementMetadata) (o : GeneratedElement) : Prop where
  header : SaysHeader ObuType.audioElement m.header o.header
  element : ∃ codec, codecs.lookup m.codecConfigId = some codec ∧
    o.element.codec = some ⟨codec.config, codec.outputRate, codec.inputRate, codec.bitDepth⟩ ∧
    ((m.type.toNat = 1 ∧ ∃ reserved layers ls, SaysScalable m codec reserved layers o.element ls) ∨
      (m.type.toNat = 2 ∧ ∃ a c, SaysScene m codec a o.element c) ∨
      (m.type.toNat = 3 ∧ ∃ n ext s, SaysObjects m n ext s o.element))

/-- Sizes that a message can have, and frames that are not empty. -/
structure PlausibleElement (codecs : List (UInt32 × CodecConfigObu)) (m : ElementMetadata) : Prop where
  frames : ∀ codec, codecs.lookup m.codecConfigId = some codec → codec.config.numSamplesPerFrame ≠ 0
  layers : ∀ r ls, m.config = .scalable r ls → ls.length ≤ 255
  substreams : m.substreamIds.length ≤ 255
  durations : ∀ p ∈ m.params, (∀ d, p.content = .demixing d → d.definition.subblockDurations.length < 4294967296) ∧
    ∀ d, p.content = .reconGain d → d.subblockDurations.length < 4294967296

/-! ### Casts -/

private theorem bind_ok {α β : Type} (x : Except Err α) (f : α → Except Err β) (b : β) :
    (x >>= f) = .ok b ↔ ∃ a, x = .ok a ∧ f a = .ok b := by
  cases x with
  | error e => exact ⟨fun h => by simp [bind, Except.bind] at h, fun ⟨a, h, _⟩ => by simp at h⟩
  | ok a => exact ⟨fun h => ⟨a, rfl, h⟩, fun ⟨a', h, h'⟩ => by cases h; exact h'⟩

private theorem castU8_ok (x : UInt32) (y : UInt8) : castU8 x = .ok y ↔ y.toNat = x.toNat := by
  unfold castU8
  have hx := y.toNat_lt
  by_cases h : x ≤ 255
  · rw [if_pos h]
    have h' : x.toNat ≤ 255 := h
    simp only [Except.ok.injEq]
    rw [← UInt8.toNat_inj, UInt32.toNat_toUInt8]
    omega
  · rw [if_neg h]
    have h' : ¬ x.toNat ≤ 255 := h
    exact ⟨fun h => by simp at h, fun h => by omega⟩

private theorem castUInt8_ok (x : UInt32) (y : UInt8) : castUInt8 x = .ok y ↔ y.toNat = x.toNat := castU8_ok x y

private theorem castS16_ok (x : Int32) (y : Int16) : castS16 x = .ok y ↔ y.toInt = x.toInt := by
  unfold castS16
  have h1 := y.le_toInt
  have h2 := y.toInt_lt
  have e1 : (-32768 ≤ x) ↔ -32768 ≤ x.toInt := by rw [Int32.le_iff_toInt_le]; rfl
  have e2 : (x ≤ 32767) ↔ x.toInt ≤ 32767 := by rw [Int32.le_iff_toInt_le]; rfl
  simp only [e1, e2]
  by_cases h : -32768 ≤ x.toInt ∧ x.toInt ≤ 32767
  · rw [if_pos h]
    simp only [Except.ok.injEq]
    rw [← Int16.toInt_inj, Int32.toInt_toInt16]
    rw [Int.bmod_eq_of_le (by omega) (by omega)]
    exact eq_comm
  · rw [if_neg h]
    exact ⟨fun h => by simp at h, fun h => by omega⟩

private theorem castBool_ok (x : UInt32) (b : Bool) : castBool x = .ok b ↔ x.toNat = b.toNat := by
  unfold castBool
  by_cases h : x ≤ 1
  · rw [if_pos h]
    have h' : x.toNat ≤ 1 := h
    simp only [Except.ok.injEq]
    have e : (x == 1) = true ↔ x.toNat = 1 := by rw [beq_iff_eq, ← UInt32.toNat_inj]; rfl
    cases b with
    | true => exact e
    | false => rw [← Bool.not_eq_true, e]; simp only [Bool.toNat_false]; omega
  · rw [if_neg h]
    have h' : ¬ x.toNat ≤ 1 := h
    have := b.toNat_le
    exact ⟨fun h => by simp at h, fun h => by omega⟩

private theorem castAll_ok {α β : Type} (f : α → Except Err β) (R : α → β → Prop) (h : ∀ x y, f x = .ok y ↔ R x y) :
    ∀ (xs : List α) (ys : List β), castAll f xs = .ok ys ↔ List.Forall₂ R xs ys := by
  intro xs
  induction xs with
  | nil =>
    intro ys
    simp only [castAll, Except.ok.injEq, List.forall₂_nil_left_iff]
    exact eq_comm
  | cons x xs ih =>
    intro ys
    simp only [castAll, bind_ok, h, ih, Except.ok.injEq, List.forall₂_cons_left_iff]
    constructor
    · rintro ⟨y, h1, ys', h2, rfl⟩; exact ⟨y, ys', h1, h2, rfl⟩
    · rintro ⟨y, ys', h1, h2, rfl⟩; exact ⟨y, h1, ys', h2, rfl⟩

/-! ### Parameter definitions -/

private theorem durations_accepted (l : List UInt32) : ∀ (acc t : UInt32), (∀ d ∈ l, d ≠ 0) → acc.toNat + (l.map UInt32.toNat).sum = t.toNat →
    SubblockSchedule.sumDurations l acc = .ok t := by
  induction l with
  | nil =>
    intro acc t _ h
    have : acc = t := UInt32.toNat_inj.mp (by simpa using h)
    rw [this]
    rfl
  | cons d l ih =>
    intro acc t hne h
    rw [List.map_cons, List.sum_cons] at h
    have ht := t.toNat_lt
    have hs : (acc + d).toNat = acc.toNat + d.toNat := by rw [UInt32.toNat_add]; omega
    have hadd : addUint32CheckOverflow acc d = .ok (acc + d) := by
      unfold addUint32CheckOverflow
      rw [if_neg (by omega), Except.ok.injEq]
      refine UInt32.toNat_inj.mp ?_
      rw [hs, UInt32.toNat_ofNat']
      omega
    simp only [SubblockSchedule.sumDurations]
    rw [if_neg (hne d (List.mem_cons_self ..)), hadd]
    exact ih _ _ (fun x hx => hne x (List.mem_cons_of_mem _ hx)) (by omega)

private theorem schedule_ok (m : DefinitionMetadata) (hl : m.subblockDurations.length < 4294967296) (s : Option SubblockSchedule) :
    scheduleFromMetadata m = .ok s ↔ SaysSchedule m s := by
  unfold scheduleFromMetadata SaysSchedule
  cases hm : m.mode with
  | true => cases s <;> simp
  | false =>
    by_cases hc : m.constantSubblockDuration ≠ 0
    · simp only [Bool.false_eq_true, if_false, hc, ne_eq, not_false_eq_true, if_true, bind_ok, Except.ok.injEq]
      constructor
      · rintro ⟨s', h1, rfl⟩
        obtain ⟨e1, e2, e3, -, -, ec, e4, e5, e6, e7⟩ := SubblockSchedule.createConstant_ok h1
        exact ⟨trivial, e1, e2, e3, UInt32.le_iff_toNat_le.mpr ec, e4, e5, e6, e7⟩
      · cases s with
        | none => exact fun h => absurd h (by simp)
        | some s =>
          rintro ⟨-, h1, h2, h3, hle, h4, h5, h6, h7⟩
          rw [UInt32.le_iff_toNat_le] at hle
          have hpos : 0 < m.constantSubblockDuration.toNat := by
            rcases Nat.eq_zero_or_pos m.constantSubblockDuration.toNat with h | h
            · exact absurd (UInt32.toNat_inj.mp h) hc
            · exact h
          obtain ⟨s', hs'⟩ := (C18_constant_accepts_iff m.duration m.constantSubblockDuration).1.mpr
            ⟨hpos, hle, Nat.le_trans h7 (Nat.mul_le_mul_right _ h5)⟩
          obtain ⟨e1, e2, e3, -, -, -, e4, e5, e6, e7⟩ := SubblockSchedule.createConstant_ok hs'
          have hn : s'.numSubblocks.toNat = s.numSubblocks.toNat := by
            have a1 : ¬ s'.numSubblocks.toNat < s.numSubblocks.toNat := fun h => by
              have : s'.numSubblocks.toNat * m.constantSubblockDuration.toNat ≤ (s.numSubblocks.toNat - 1) * m.constantSubblockDuration.toNat :=
                Nat.mul_le_mul_right _ (by omega)
              omega
            have a2 : ¬ s.numSubblocks.toNat < s'.numSubblocks.toNat := fun h => by
              have : s.numSubblocks.toNat * m.constantSubblockDuration.toNat ≤ (s'.numSubblocks.toNat - 1) * m.constantSubblockDuration.toNat :=
                Nat.mul_le_mul_right _ (by omega)
              omega
            omega
          refine ⟨s', hs', ?_⟩
          obtain ⟨a, b', c, d⟩ := s
          obtain ⟨a', b'', c', d'⟩ := s'
          simp only at *
          rw [e1, e2, e3, h1, h2, h3, UInt32.toNat_inj.mp hn]
    · simp only [Bool.false_eq_true, if_false, hc, bind_ok, Except.ok.injEq]
      constructor
      · rintro ⟨s', h1, rfl⟩
        exact ⟨trivial, SubblockSchedule.createVariable_ok hl h1⟩
      · cases s with
        | none => exact fun h => absurd h (by simp)
        | some s =>
          rintro ⟨-, h1, h2, h3, h4, h5, h6, h7⟩
          have hs := durations_accepted m.subblockDurations 0 s.duration h6 (by rw [h7]; simp)
          have hnum : (UInt32.ofNat m.subblockDurations.length).toNat = m.subblockDurations.length := by
            rw [UInt32.toNat_ofNat']; omega
          refine ⟨s, ?_, rfl⟩
          unfold SubblockSchedule.createVariable
          simp only
          rw [if_pos, hnum, List.take_length, hs]
          · obtain ⟨a, b', c, d⟩ := s
            simp only at *
            have : UInt32.ofNat m.subblockDurations.length = c := UInt32.toNat_inj.mp (by rw [hnum, h3])
            rw [h1, h2, this]
          · simp only [inRange32, Bool.and_eq_true, decide_eq_true_eq, UInt32.le_iff_toNat_le, hnum]
            exact ⟨h4, h5⟩

private theorem base_ok (m : DefinitionMetadata) (hl : m.subblockDurations.length < 4294967296) (b : ParamBase) :
    baseFromMetadata m = .ok b ↔ SaysBase m b := by
  unfold baseFromMetadata
  simp only [bind_ok, castU8_ok, schedule_ok m hl, Except.ok.injEq]
  constructor
  · rintro ⟨r, hr, s, hs, rfl⟩; exact ⟨rfl, rfl, hr, hs⟩
  · rintro ⟨h1, h2, h3, h4⟩
    refine ⟨b.reserved, h3, b.schedule, h4, ?_⟩
    obtain ⟨i, r, rs, s⟩ := b
    simp only at h1 h2
    rw [h1, h2]

private theorem covers_iff (n : UInt32) (hn : n ≠ 0) (b : ParamBase) : b.duration = n ↔ CoversFrame n b := by
  unfold ParamBase.duration CoversFrame
  cases b.schedule with
  | none => exact ⟨fun h => absurd h.symm hn, fun ⟨s, h, _⟩ => by simp at h⟩
  | some s => simp

private theorem mode_ok (m : UInt32) (y : UInt8) : dmixpModeFromProto m = .ok y ↔ y.toNat + 1 = m.toNat ∧ y.toNat < 8 := by
  unfold dmixpModeFromProto
  by_cases h : 1 ≤ m ∧ m ≤ 8
  · rw [if_pos h]
    have h1 : 1 ≤ m.toNat := h.1
    have h2 : m.toNat ≤ 8 := h.2
    simp only [Except.ok.injEq]
    have e : (m - 1).toNat = m.toNat - 1 := UInt32.toNat_sub_of_le m 1 h.1
    rw [← UInt8.toNat_inj, UInt32.toNat_toUInt8, e]
    omega
  · rw [if_neg h]
    have h' : ¬ (1 ≤ m.toNat ∧ m.toNat ≤ 8) := h
    exact ⟨fun h => by simp at h, fun h => by omega⟩

private theorem empty_base (b : ParamBase) : ¬ SaysBase .empty b := by
  rintro ⟨-, -, -, h⟩
  revert h
  unfold SaysSchedule
  cases b.schedule with
  | none => simp [DefinitionMetadata.empty]
  | some s => simp [DefinitionMetadata.empty]

private theorem param_ok (n : UInt32) (hn : n ≠ 0) (m : ElementParamMetadata)
    (hl : (∀ d, m.content = .demixing d → d.definition.subblockDurations.length < 4294967296) ∧
      ∀ d, m.content = .reconGain d → d.subblockDurations.length < 4294967296) (p : ParamDef) :
    paramFromMetadata n m = .ok p ↔ SaysParam n m p := by
  have hd : ∀ q, demixingFromMetadata n m.content.asDemixing = .ok q ↔ ∃ d x, m.content = .demixing d ∧ q.spec = .demixing x ∧
      SaysBase d.definition q.base ∧ CoversFrame n q.base ∧
      x.info.dmixpMode.toNat + 1 = d.mode.toNat ∧ x.info.dmixpMode.toNat < 8 ∧ x.info.reserved.toNat = d.modeReserved.toNat ∧
      x.defaultW.toNat = d.defaultW.toNat ∧ x.reservedForFutureUse.toNat = d.reserved.toNat := by
    intro q
    have key : ∀ d : DemixingDefinitionMetadata, d.definition.subblockDurations.length < 4294967296 →
        (demixingFromMetadata n d = .ok q ↔ ∃ x, q.spec = .demixing x ∧
        SaysBase d.definition q.base ∧ CoversFrame n q.base ∧
        x.info.dmixpMode.toNat + 1 = d.mode.toNat ∧ x.info.dmixpMode.toNat < 8 ∧ x.info.reserved.toNat = d.modeReserved.toNat ∧
        x.defaultW.toNat = d.defaultW.toNat ∧ x.reservedForFutureUse.toNat = d.reserved.toNat) := by
      intro d hdl
      unfold demixingFromMetadata generateDemixing
      simp only [bind_ok, base_ok _ hdl, castU8_ok, castUInt8_ok, mode_ok, Except.ok.injEq]
      constructor
      · rintro ⟨b, hb, i, ⟨mo, ⟨m1, m2⟩, r, hr, rfl⟩, w, hw, rs, hrs, h⟩
        split at h
        · simp at h
        next hdur =>
          rw [Except.ok.injEq] at h
          subst h
          exact ⟨_, rfl, hb, (covers_iff n hn b).mp (Decidable.not_not.mp hdur), m1, m2, hr, hw, hrs⟩
      · rintro ⟨x, hx, hb, hcv, m1, m2, hr, hw, hrs⟩
        refine ⟨q.base, hb, x.info, ⟨x.info.dmixpMode, ⟨m1, m2⟩, x.info.reserved, hr, rfl⟩, x.defaultW, hw, x.reservedForFutureUse, hrs, ?_⟩
        rw [if_neg (Decidable.not_not.mpr ((covers_iff n hn _).mpr hcv))]
        obtain ⟨qb, qs⟩ := q
        simp only at hx
        rw [hx]
    cases hc : m.content with
    | demixing d =>
      simp only [ElementParamContent.asDemixing]
      rw [key d (hl.1 d hc)]
      constructor
      · rintro ⟨x, h⟩; exact ⟨d, x, rfl, h⟩
      · rintro ⟨d', x, h, h'⟩; cases h; exact ⟨x, h'⟩
    | _ =>
      simp only [ElementParamContent.asDemixing]
      rw [key _ (by simp [DefinitionMetadata.empty])]
      constructor
      · rintro ⟨x, -, hb, -⟩; exact absurd hb (empty_base _)
      · rintro ⟨d', x, h, -⟩; simp at h
  have hr : ∀ q, reconGainFromMetadata n m.content.asReconGain = .ok q ↔ ∃ d, m.content = .reconGain d ∧ q.spec = .reconGain [] ∧
      SaysBase d q.base ∧ CoversFrame n q.base := by
    intro q
    have key : ∀ d : DefinitionMetadata, d.subblockDurations.length < 4294967296 →
        (reconGainFromMetadata n d = .ok q ↔ q.spec = .reconGain [] ∧ SaysBase d q.base ∧ CoversFrame n q.base) := by
      intro d hdl
      unfold reconGainFromMetadata
      simp only [bind_ok, base_ok _ hdl]
      constructor
      · rintro ⟨b, hb, h⟩
        split at h
        · simp at h
        next hdur =>
          rw [Except.ok.injEq] at h
          subst h
          exact ⟨rfl, hb, (covers_iff n hn b).mp (Decidable.not_not.mp hdur)⟩
      · rintro ⟨hs, hb, hcv⟩
        refine ⟨q.base, hb, ?_⟩
        rw [if_neg (Decidable.not_not.mpr ((covers_iff n hn _).mpr hcv))]
        obtain ⟨qb, qs⟩ := q
        simp only at hs
        rw [hs]
    cases hc : m.content with
    | reconGain d =>
      simp only [ElementParamContent.asReconGain]
      rw [key d (hl.2 d hc)]
      constructor
      · exact fun h => ⟨d, rfl, h⟩
      · rintro ⟨d', h, h'⟩; cases h; exact h'
    | _ =>
      simp only [ElementParamContent.asReconGain]
      rw [key _ (by simp [DefinitionMetadata.empty])]
      constructor
      · rintro ⟨-, hb, -⟩; exact absurd hb (empty_base _)
      · rintro ⟨d', h, -⟩; simp at h
  unfold paramFromMetadata SaysParam
  cases m.deprecatedType with
  | true => simp
  | false =>
    simp only [Bool.false_eq_true, if_false, true_and]
    cases m.type with
    | none => simp
    | some t =>
      simp only [Option.some.injEq]
      by_cases h2 : t = 2
      · subst h2
        simp only [if_true, hd, true_and, (by decide : ¬ (2 : UInt32) = 3), (by decide : ¬ (2 : UInt32) = 256), false_and, exists_false, or_false]
      by_cases h3 : t = 3
      · subst h3
        simp only [h2, if_false, if_true, hr, true_and, (by decide : ¬ (3 : UInt32) = 256), false_and, exists_false, or_false, false_or]
      by_cases h4 : t = 256
      · subst h4
        simp only [h2, h3, if_false, if_true, false_and, exists_false, false_or, true_and, Except.ok.injEq]
        constructor
        · rintro rfl
          refine ⟨_, rfl, ?_⟩
          cases m.content <;> simp [ElementParamContent.asExtension]
        · rintro ⟨b, rfl, h | ⟨rfl, h⟩⟩
          · rw [h]; rfl
          · cases hc : m.content with
            | extension b => exact absurd hc (h b)
            | _ => rfl
      · simp [h2, h3, h4]

private theorem params_ok (n : UInt32) (hn : n ≠ 0) : ∀ (ms : List ElementParamMetadata)
    (_ : ∀ p ∈ ms, (∀ d, p.content = .demixing d → d.definition.subblockDurations.length < 4294967296) ∧
      ∀ d, p.content = .reconGain d → d.subblockDurations.length < 4294967296) (ps : List ParamDef),
    paramsFromMetadata n ms = .ok ps ↔ List.Forall₂ (SaysParam n) ms ps := by
  intro ms
  induction ms with
  | nil =>
    intro _ ps
    simp only [paramsFromMetadata, Except.ok.injEq, List.forall₂_nil_left_iff]
    exact eq_comm
  | cons m ms ih =>
    intro hl ps
    simp only [paramsFromMetadata, bind_ok, param_ok n hn m (hl m (List.mem_cons_self ..)), ih (fun p hp => hl p (List.mem_cons_of_mem _ hp)),
      Except.ok.injEq, List.forall₂_cons_left_iff]
    constructor
    · rintro ⟨y, h1, ys', h2, rfl⟩; exact ⟨y, ys', h1, h2, rfl⟩
    · rintro ⟨y, ys', h1, h2, rfl⟩; exact ⟨y, h1, ys', h2, rfl⟩

/-! ### Channel based elements -/

private theorem layout_ok (m : LayerConfigMetadata) (y : UInt8) : layoutFromProto m = .ok y ↔
    m.deprecatedLayout = false ∧ y.toNat + 1 = m.layout.toNat ∧ (y.toNat ≤ 10 ∨ y.toNat = 14 ∨ y.toNat = 15) := by
  unfold layoutFromProto
  cases m.deprecatedLayout with
  | true => simp
  | false =>
    simp only [Bool.false_eq_true, if_false, true_and]
    by_cases h : (1 ≤ m.layout ∧ m.layout ≤ 11) ∨ m.layout = 15 ∨ m.layout = 16
    · rw [if_pos h]
      have h' : (1 ≤ m.layout.toNat ∧ m.layout.toNat ≤ 11) ∨ m.layout.toNat = 15 ∨ m.layout.toNat = 16 := by
        rcases h with ⟨h1, h2⟩ | h | h
        · exact .inl ⟨h1, h2⟩
        · rw [h]; decide
        · rw [h]; decide
      have hle : (1 : UInt32) ≤ m.layout := UInt32.le_iff_toNat_le.mpr (by show 1 ≤ m.layout.toNat; omega)
      have e : (m.layout - 1).toNat = m.layout.toNat - 1 := UInt32.toNat_sub_of_le m.layout 1 hle
      simp only [Except.ok.injEq]
      rw [← UInt8.toNat_inj, UInt32.toNat_toUInt8, e]
      omega
    · rw [if_neg h]
      refine ⟨fun h => by simp at h, fun ⟨h1, h2⟩ => absurd ?_ h⟩
      rcases h2 with h2 | h2 | h2
      · refine .inl ⟨UInt32.le_iff_toNat_le.mpr ?_, UInt32.le_iff_toNat_le.mpr ?_⟩
        · show 1 ≤ m.layout.toNat; omega
        · show m.layout.toNat ≤ 11; omega
      · exact .inr (.inl (UInt32.toNat_inj.mp (by show m.layout.toNat = 15; omega)))
      · exact .inr (.inr (UInt32.toNat_inj.mp (by show m.layout.toNat = 16; omega)))

private theorem expanded_ok (x : UInt32) (y : UInt8) : expandedFromProto x = .ok y ↔ y.toNat + 1 = x.toNat ∧ 1 ≤ x.toNat ∧ x.toNat ≤ 20 := by
  unfold expandedFromProto
  by_cases h : 1 ≤ x ∧ x ≤ 20
  · rw [if_pos h]
    have h1 : 1 ≤ x.toNat := h.1
    have h2 : x.toNat ≤ 20 := h.2
    have e : (x - 1).toNat = x.toNat - 1 := UInt32.toNat_sub_of_le x 1 h.1
    simp only [Except.ok.injEq]
    rw [← UInt8.toNat_inj, UInt32.toNat_toUInt8, e]
    omega
  · rw [if_neg h]
    have h' : ¬ (1 ≤ x.toNat ∧ x.toNat ≤ 20) := h
    exact ⟨fun h => by simp at h, fun h => by omega⟩

private theorem expansion_ok (layout : UInt8) (x : UInt32) (y : Option UInt8) : layerExpansion layout x = .ok y ↔
    (∀ e, y = some e ↔ layout.toNat = 15 ∧ e.toNat + 1 = x.toNat) ∧ (layout.toNat = 15 → 1 ≤ x.toNat ∧ x.toNat ≤ 20) := by
  have h15 : layout = kLayoutExpanded ↔ layout.toNat = 15 := by rw [← UInt8.toNat_inj]; rfl
  unfold layerExpansion
  simp only [h15]
  by_cases h : layout.toNat = 15
  · simp only [h, if_true, bind_ok, expanded_ok, Except.ok.injEq, true_and, true_implies]
    constructor
    · rintro ⟨a, ⟨h1, h2⟩, rfl⟩
      refine ⟨fun e => ?_, h2⟩
      rw [Option.some.injEq, ← UInt8.toNat_inj]
      omega
    · rintro ⟨h1, h2⟩
      have e1 : (UInt8.ofNat (x.toNat - 1)).toNat + 1 = x.toNat := by rw [UInt8.toNat_ofNat']; omega
      exact ⟨_, ⟨e1, h2⟩, ((h1 _).mpr e1).symm⟩
  · simp only [h, if_false, Except.ok.injEq, false_and, iff_false, false_implies, and_true]
    cases y with
    | none => simp
    | some e => simp

private theorem gain_ok (present : Bool) (m : LayerConfigMetadata) (g : UInt8 × UInt8 × Int16) : layerGainFromMetadata present m = .ok g ↔
    (present = true → g.1.toNat = m.outputGainFlag.toNat ∧ g.2.1.toNat = m.reservedB.toNat ∧ g.2.2.toInt = m.outputGain.toInt) ∧
    (present = false → g.1 = 0 ∧ g.2.1 = 0 ∧ g.2.2 = 0) := by
  unfold layerGainFromMetadata
  obtain ⟨a, b, c⟩ := g
  cases present with
  | true =>
    simp only [if_true, bind_ok, castU8_ok, castS16_ok, Except.ok.injEq, Prod.mk.injEq, true_implies, Bool.true_eq_false, false_implies, and_true]
    constructor
    · rintro ⟨f, h1, r, h2, g, h3, rfl, rfl, rfl⟩; exact ⟨h1, h2, h3⟩
    · rintro ⟨h1, h2, h3⟩; exact ⟨a, h1, b, h2, c, h3, rfl, rfl, rfl⟩
  | false =>
    simp only [Bool.false_eq_true, if_false, Except.ok.injEq, Prod.mk.injEq, false_implies, true_implies, true_and]
    exact ⟨fun ⟨h1, h2, h3⟩ => ⟨h1.symm, h2.symm, h3.symm⟩, fun ⟨h1, h2, h3⟩ => ⟨h1.symm, h2.symm, h3.symm⟩⟩

private theorem layer_ok (m : LayerConfigMetadata) (l : ChannelLayer) : layerFromMetadata m = .ok l ↔ SaysLayerConfig m l := by
  unfold layerFromMetadata
  simp only [bind_ok, layout_ok, expansion_ok, castBool_ok, castU8_ok, gain_ok, Except.ok.injEq]
  constructor
  · rintro ⟨y, ⟨h1, h2, h3⟩, x, ⟨h4, h5⟩, gp, h6, rp, h7, ra, h8, sc, h9, cc, h10, g, ⟨h11, h12⟩, rfl⟩
    exact ⟨h1, h2, h3, h4, h5, h6, h7, h8, h9, h10, h11, h12⟩
  · rintro ⟨h1, h2, h3, h4, h5, h6, h7, h8, h9, h10, h11, h12⟩
    exact ⟨l.layout, ⟨h1, h2, h3⟩, l.expanded, ⟨h4, h5⟩, l.outputGainPresent, h6, l.reconGainPresent, h7, l.reservedA, h8, l.substreamCount, h9,
      l.coupledSubstreamCount, h10, (l.outputGainFlag, l.reservedB, l.outputGain), ⟨h11, h12⟩, rfl⟩

private theorem layers_ok : ∀ (ms : List LayerConfigMetadata) (ls : List ChannelLayer),
    layersFromMetadata ms = .ok ls ↔ List.Forall₂ SaysLayerConfig ms ls := by
  intro ms
  induction ms with
  | nil =>
    intro ls
    simp only [layersFromMetadata, Except.ok.injEq, List.forall₂_nil_left_iff]
    exact eq_comm
  | cons m ms ih =>
    intro ls
    simp only [layersFromMetadata, bind_ok, layer_ok, ih, Except.ok.injEq, List.forall₂_cons_left_iff]
    constructor
    · rintro ⟨y, h1, ys', h2, rfl⟩; exact ⟨y, ys', h1, h2, rfl⟩
    · rintro ⟨y, ys', h1, h2, rfl⟩; exact ⟨y, h1, ys', h2, rfl⟩

private theorem lossless_iff (c : CodecConfig) : c.isLossless = true ↔ Lossless c := by
  unfold CodecConfig.isLossless Lossless
  simp only [Bool.or_eq_true, beq_iff_eq, ← UInt32.toNat_inj]
  exact Iff.rfl

private theorem flags_ok (lossless : Bool) : ∀ (ls : List ChannelLayer) (ms : List LayerConfigMetadata) (k : Nat) (_ : List.Forall₂ SaysLayerConfig ms ls),
    reconFlagsOk lossless k ls = true ↔ ∀ i l, ms[i]? = some l → (l.reconGainPresent.toNat = 1 ↔ 0 < k + i ∧ lossless = false) := by
  intro ls
  induction ls with
  | nil => intro ms k h; cases h; simp [reconFlagsOk]
  | cons l ls ih =>
    intro ms k h
    cases h with
    | cons h1 h2 =>
      rename_i m ms'
      simp only [reconFlagsOk, Bool.and_eq_true, ih ms' (k + 1) h2]
      have e : (l.reconGainPresent == (!k == 0 && !lossless)) = true ↔ (m.reconGainPresent.toNat = 1 ↔ 0 < k ∧ lossless = false) := by
        rw [h1.reconPresent]
        rcases Nat.eq_zero_or_pos k with rfl | hk
        · cases l.reconGainPresent <;> cases lossless <;> simp
        · have : (k == 0) = false := by simp; omega
          rw [this]
          cases l.reconGainPresent <;> cases lossless <;> simp [hk]
      rw [e]
      constructor
      · rintro ⟨a, b⟩ i x hx
        cases i with
        | zero => simp only [List.getElem?_cons_zero, Option.some.injEq] at hx; subst hx; exact a
        | succ i =>
          rw [List.getElem?_cons_succ] at hx
          rw [b i x hx, Nat.add_assoc, Nat.add_comm 1 i]
      · intro a
        refine ⟨a 0 m rfl, fun i x hx => ?_⟩
        rw [a (i + 1) x (by rw [List.getElem?_cons_succ]; exact hx), Nat.add_assoc, Nat.add_comm 1 i]

private theorem recon_param {n : UInt32} {ms : List ElementParamMetadata} {ps : List ParamDef} (h : List.Forall₂ (SaysParam n) ms ps) :
    ps.any (fun p => p.spec.type == 2) = true ↔ ∃ p ∈ ms, p.type = some 3 := by
  induction h with
  | nil => simp
  | @cons m p ms ps hmp _ ih =>
    rw [List.any_cons, Bool.or_eq_true, ih]
    have e : (p.spec.type == 2) = true ↔ m.type = some 3 := by
      obtain ⟨-, ⟨d, x, h1, -, h2, -⟩ | ⟨d, h1, -, h2, -⟩ | ⟨b, h1, h2, -⟩⟩ := hmp
      · rw [h1, h2]; simp [ParamSpecific.type]
      · rw [h1, h2]; simp [ParamSpecific.type]
      · rw [h1, h2]; simp [ParamSpecific.type]
    rw [e]
    simp

private theorem defined_ok (c : CodecConfig) {n : UInt32} {lm : List LayerConfigMetadata} {ls : List ChannelLayer} {ms : List ElementParamMetadata}
    {ps : List ParamDef} (hl : List.Forall₂ SaysLayerConfig lm ls) (hp : List.Forall₂ (SaysParam n) ms ps) :
    reconGainDefined c.isLossless ls ps = true ↔
      (∀ i l, lm[i]? = some l → (l.reconGainPresent.toNat = 1 ↔ 0 < i ∧ ¬ Lossless c)) ∧
      ((∃ p ∈ ms, p.type = some 3) ↔ 1 < lm.length ∧ ¬ Lossless c) := by
  unfold reconGainDefined
  have hn : c.isLossless = false ↔ ¬ Lossless c := by rw [← lossless_iff, Bool.not_eq_true]
  rw [Bool.and_eq_true, flags_ok _ _ _ 0 hl, ← recon_param hp]
  simp only [hn, Nat.zero_add]
  refine and_congr Iff.rfl ?_
  rw [beq_iff_eq, Bool.eq_iff_iff, Bool.and_eq_true, Bool.not_eq_true', hn, decide_eq_true_eq, hl.length_eq]
  exact iff_congr Iff.rfl and_comm

private theorem sums {lm : List LayerConfigMetadata} {ls : List ChannelLayer} (h : List.Forall₂ SaysLayerConfig lm ls) :
    (ls.map fun x => x.substreamCount.toNat).sum = (lm.map fun x => x.substreamCount.toNat).sum ∧
    ((∃ x ∈ ls, x.layout.toNat = 9) ↔ ∃ x ∈ lm, x.layout.toNat = 10) := by
  induction h with
  | nil => simp
  | @cons m l ms ls h _ ih =>
    refine ⟨by simp only [List.map_cons, List.sum_cons, ih.1, h.substreams], ?_⟩
    simp only [List.mem_cons, exists_eq_or_imp, ih.2]
    have := h.layout
    exact or_congr (by omega) Iff.rfl

private theorem channel_ok (m : ElementMetadata) (codec : CodecConfigObu) (hf : codec.config.numSamplesPerFrame ≠ 0)
    (hl : ∀ r ls, m.config = .scalable r ls → ls.length ≤ 255) (hs : m.substreamIds.length ≤ 255)
    (hd : ∀ p ∈ m.params, (∀ d, p.content = .demixing d → d.definition.subblockDurations.length < 4294967296) ∧
      ∀ d, p.content = .reconGain d → d.subblockDurations.length < 4294967296) (e : ElementWithData) :
    channelElementFromMetadata m codec = .ok e ↔
      e.codec = some ⟨codec.config, codec.outputRate, codec.inputRate, codec.bitDepth⟩ ∧ ∃ reserved layers ls, SaysScalable m codec reserved layers e ls := by
  unfold channelElementFromMetadata
  cases hc : m.config with
  | scalable r lm =>
    have hlm := hl r lm hc
    have hnum : (UInt32.ofNat m.substreamIds.length).toNat = m.substreamIds.length := by rw [UInt32.toNat_ofNat']; omega
    simp only [bind_ok, layers_ok, params_ok _ hf m.params hd]
    have hcreate : ∀ ls a, List.Forall₂ SaysLayerConfig lm ls → (AudioElement.createScalable m.id m.reserved.toUInt8 m.codecConfigId m.substreamIds ⟨0, ls⟩ = .ok a ↔
        m.substreamIds.Nodup ∧ ((1 ≤ lm.length ∧ lm.length ≤ 6) ∧ (lm.map fun l => l.substreamCount.toNat).sum = m.substreamIds.length ∧
          ((∃ l ∈ lm, l.layout.toNat = 10) → lm.length = 1)) ∧
        a = ⟨m.id, 0, m.reserved.toUInt8, m.codecConfigId, m.substreamIds, [], .scalable ⟨0, ls⟩⟩) := by
      intro ls a h
      have hv := scalable_valid_iff ⟨0, ls⟩ (UInt32.ofNat m.substreamIds.length) (by show ls.length < 256; rw [← h.length_eq]; omega)
      simp only at hv
      rw [hnum, (sums h).1, (sums h).2, ← h.length_eq] at hv
      unfold AudioElement.createScalable
      by_cases h1 : m.substreamIds.Nodup
      · by_cases h2 : ScalableLayout.valid ⟨0, ls⟩ (UInt32.ofNat m.substreamIds.length) = true
        · simp only [h1, decide_true, Bool.not_true, Bool.false_eq_true, if_false, h2, Except.ok.injEq, true_and]
          constructor
          · intro h; exact ⟨hv.mp h2, h.symm⟩
          · intro h; exact h.2.symm
        · simp only [h1, decide_true, Bool.not_true, Bool.false_eq_true, if_false, Bool.not_eq_true _ ▸ h2, Bool.not_false, if_true, true_and]
          exact ⟨fun h => by simp at h, fun h => absurd (hv.mpr h.1) h2⟩
      · simp only [h1, decide_false, Bool.not_false, if_true, false_and]
        exact ⟨fun h => by simp at h, fun h => h.elim⟩
    have htake : ∀ ls : List ChannelLayer, List.Forall₂ SaysLayerConfig lm ls → ls.take (ScalableLayout.numLayers ⟨0, ls⟩).toNat = ls := by
      intro ls h
      refine List.take_of_length_le ?_
      unfold ScalableLayout.numLayers
      rw [UInt8.toNat_ofNat', ← h.length_eq]
      omega
    constructor
    · rintro ⟨ls, h1, a, h2, ps, h3, h4⟩
      obtain ⟨n1, ⟨n2, n3, n4⟩, rfl⟩ := (hcreate ls a h1).mp h2
      rw [htake ls h1] at h4
      split at h4
      · simp at h4
      next hr =>
        simp only [Bool.not_eq_true', Bool.not_eq_false] at hr
        obtain ⟨r1, r2⟩ := (defined_ok codec.config h1 h3).mp hr
        obtain ⟨d, hd', h4⟩ := (bind_ok _ _ _).mp h4
        rw [Except.ok.injEq] at h4
        subst h4
        exact ⟨rfl, r, lm, ls, hc, rfl, h1, n2, n3, n1, n4, h3, r1, r2, hd'⟩
    · rintro ⟨hcod, r', lm', ls, h⟩
      have hcfg := h.config
      rw [hc] at hcfg
      cases hcfg
      refine ⟨ls, h.each, _, (hcreate ls _ h.each).mpr ⟨h.different, ⟨h.number, h.substreams, h.binaural⟩, rfl⟩, e.obu.params, h.params, ?_⟩
      rw [htake ls h.each, if_neg (by rw [(defined_ok codec.config h.each h.params).mpr ⟨h.reconFlags, h.reconGain⟩]; simp), bind_ok]
      refine ⟨e.data, h.data, ?_⟩
      have ho := h.obu
      obtain ⟨o, c, d⟩ := e
      simp only at ho hcod ⊢
      rw [ho, hcod]
      rfl
  | _ =>
    refine ⟨fun h => by simp at h, fun ⟨_, r', lm', ls, h⟩ => ?_⟩
    have hcfg := h.config
    rw [hc] at hcfg
    cases hcfg

/-! ### Scene based elements -/

private theorem squares (n : Nat) (hn : n < 256) : validateOutputChannelCount (UInt8.ofNat n) = .ok () ↔ ∃ order ≤ 14, n = (order + 1) ^ 2 := by
  revert n
  decide +kernel

private theorem erased (n : Nat) : ∀ l : List UInt8, l.length ≤ n → l.eraseDups.Nodup := by
  induction n with
  | zero => intro l hl; have : l = [] := List.length_eq_zero_iff.mp (by omega); subst this; simp
  | succ n ih =>
    intro l hl
    cases l with
    | nil => simp
    | cons a as =>
      rw [List.eraseDups_cons, List.nodup_cons]
      refine ⟨by simp [List.mem_eraseDups], ih _ ?_⟩
      have := List.length_filter_le (fun b => !b == a) as
      simp only [List.length_cons] at hl
      omega

private theorem erased_length {l : List UInt8} {n : Nat} (hb : ∀ i ∈ l, i.toNat < n) (hs : ∀ k < n, ∃ i ∈ l, i.toNat = k) :
    l.eraseDups.length = n := by
  have hnd : (l.eraseDups.map UInt8.toNat).Nodup := List.Nodup.map (fun a b h => UInt8.toNat_inj.mp h) (erased _ l (Nat.le_refl _))
  have e : (l.eraseDups.map UInt8.toNat).toFinset = Finset.range n := by
    ext x
    simp only [List.mem_toFinset, List.mem_map, List.mem_eraseDups, Finset.mem_range]
    constructor
    · rintro ⟨i, hi, rfl⟩; exact hb i hi
    · intro hx; exact hs x hx
  rw [← List.length_map (f := UInt8.toNat), ← List.toFinset_card_of_nodup hnd, e, Finset.card_range]

private theorem mono_create (s : UInt8) (mapping : List UInt8) (hl : mapping.length < 256) (x : AmbisonicsMono) :
    AmbisonicsMono.create s mapping = .ok x ↔ x = ⟨s, mapping⟩ ∧ UsableAmbisonics s.toNat (.mono ⟨s, mapping⟩) := by
  constructor
  · intro h
    have hx := AmbisonicsMono.create_ok h
    subst hx
    exact ⟨rfl, mono_usable ⟨h, hl⟩⟩
  · rintro ⟨rfl, h1, -, h2, h3, h4⟩
    simp only at h1 h3 h4
    have hle : s.toNat ≤ mapping.length := by
      have : Finset.range s.toNat ⊆ (mapping.map UInt8.toNat).toFinset := by
        intro k hk
        obtain ⟨i, hi, hik⟩ := h4 k (Finset.mem_range.mp hk)
        rw [List.mem_toFinset, List.mem_map]
        exact ⟨i, hi, hik⟩
      have h := Finset.card_le_card this
      rw [Finset.card_range] at h
      exact Nat.le_trans h (Nat.le_trans (List.toFinset_card_le _) (by rw [List.length_map]))
    have hlt : s.toNat ≤ 225 := by
      obtain ⟨o, ho, e⟩ := h1
      have : (o + 1) ^ 2 ≤ 15 ^ 2 := Nat.pow_le_pow_left (by omega) 2
      omega
    unfold AmbisonicsMono.create
    rw [(squares mapping.length hl).mpr h1]
    simp only
    rw [if_neg (by simp; omega), if_neg, if_neg]
    · simp only [ne_eq, Decidable.not_not]
      refine erased_length (fun i hi => ?_) (fun k hk => ?_)
      · rw [List.mem_filter] at hi
        rcases h3 i hi.1 with h | h
        · subst h; exact absurd hi.2 (by decide)
        · exact h
      · obtain ⟨i, hi, hik⟩ := h4 k hk
        refine ⟨i, List.mem_filter.mpr ⟨hi, ?_⟩, hik⟩
        simp only [bne_iff_ne, ne_eq]
        rintro rfl
        rw [← hik] at hk
        have : (255 : UInt8).toNat = 255 := rfl
        omega
    · simp only [monoMappingInBounds, Bool.not_eq_true', Bool.not_eq_false, List.all_eq_true, Bool.or_eq_true, beq_iff_eq, decide_eq_true_eq,
        UInt8.lt_iff_toNat_lt]
      exact h3

private theorem map_forall {α β : Type} (f : α → Nat) (g : β → Nat) : ∀ (xs : List α) (ys : List β),
    List.Forall₂ (fun x y => g y = f x) xs ys ↔ ys.map g = xs.map f := by
  intro xs
  induction xs with
  | nil => intro ys; simp
  | cons x xs ih =>
    intro ys
    cases ys with
    | nil => simp
    | cons y ys => rw [List.forall₂_cons, ih]; simp

private theorem map_forall_int {α β : Type} (f : α → Int) (g : β → Int) : ∀ (xs : List α) (ys : List β),
    List.Forall₂ (fun x y => g y = f x) xs ys ↔ ys.map g = xs.map f := by
  intro xs
  induction xs with
  | nil => intro ys; simp
  | cons x xs ih =>
    intro ys
    cases ys with
    | nil => simp
    | cons y ys => rw [List.forall₂_cons, ih]; simp

private theorem mono_ok (out sub : UInt32) (mapping : List UInt32) (x : AmbisonicsMono) : monoFromMetadata out sub mapping = .ok x ↔
    out.toNat = mapping.length ∧ x.substreamCount.toNat = sub.toNat ∧ x.channelMapping.map UInt8.toNat = mapping.map UInt32.toNat ∧
    UsableAmbisonics sub.toNat (.mono x) := by
  unfold monoFromMetadata
  have hall := castAll_ok castU8 (fun x y => y.toNat = x.toNat) castU8_ok
  by_cases h : mapping.length = out.toNat
  · rw [if_neg (by simp [h])]
    simp only [bind_ok, castU8_ok, hall, map_forall]
    constructor
    · rintro ⟨o, ho, s, hs, l, hm, hc⟩
      have hlen : l.length = mapping.length := by simpa using congrArg List.length hm
      have ho' := o.toNat_lt
      obtain ⟨rfl, hu⟩ := (mono_create s l (by omega) x).mp hc
      rw [hs] at hu
      exact ⟨h.symm, hs, hm, hu⟩
    · rintro ⟨-, hs, hm, hu⟩
      have hlen : x.channelMapping.length = mapping.length := by simpa using congrArg List.length hm
      have hlt : mapping.length < 256 := by
        obtain ⟨o, ho, e⟩ := hu.1
        have : (o + 1) ^ 2 ≤ 15 ^ 2 := Nat.pow_le_pow_left (by omega) 2
        omega
      refine ⟨UInt8.ofNat out.toNat, by rw [UInt8.toNat_ofNat']; omega, x.substreamCount, hs, x.channelMapping, hm, ?_⟩
      rw [← hs] at hu
      exact (mono_create _ _ (by omega) x).mpr ⟨rfl, hu⟩
  · rw [if_pos (by simpa using h)]
    exact ⟨fun h => by simp at h, fun h' => absurd h'.1.symm h⟩

private theorem projection_create (o s c : UInt8) (m : List Int16) (x : AmbisonicsProjection) :
    AmbisonicsProjection.create o s c m = .ok x ↔ x = ⟨o, s, c, m⟩ ∧ UsableAmbisonics s.toNat (.projection ⟨o, s, c, m⟩) := by
  have hsq : validateOutputChannelCount o = .ok () ↔ ∃ order ≤ 14, o.toNat = (order + 1) ^ 2 := by
    rw [← squares o.toNat o.toNat_lt, UInt8.ofNat_toNat]
  unfold AmbisonicsProjection.create projectionCountsStatus UsableAmbisonics
  by_cases h1 : validateOutputChannelCount o = .ok ()
  · rw [h1]
    simp only [← hsq, h1, true_and, gt_iff_lt, UInt8.lt_iff_toNat_lt]
    by_cases h2 : s.toNat < c.toNat
    · simp only [if_pos h2]
      exact ⟨fun h => by simp at h, fun h => by omega⟩
    · simp only [if_neg h2]
      by_cases h3 : 1 ≤ s.toNat + c.toNat ∧ s.toNat + c.toNat ≤ o.toNat
      · have h3' : (!(decide (1 ≤ s.toNat + c.toNat) && decide (s.toNat + c.toNat ≤ o.toNat))) = false := by simp [h3]
        simp only [h3', Bool.false_eq_true, if_false]
        by_cases h4 : m.length = (s.toNat + c.toNat) * o.toNat
        · rw [if_neg (by simp [h4]), Except.ok.injEq]
          exact ⟨fun h => ⟨h.symm, by omega, h3.1, h3.2, h4⟩, fun h => h.1.symm⟩
        · rw [if_pos h4]
          exact ⟨fun h => by simp at h, fun h => absurd h.2.2.2.2 h4⟩
      · have h3' : (!(decide (1 ≤ s.toNat + c.toNat) && decide (s.toNat + c.toNat ≤ o.toNat))) = true := by
          rw [Bool.not_eq_true', Bool.and_eq_false_iff, decide_eq_false_iff_not, decide_eq_false_iff_not]
          omega
        simp only [h3', if_true]
        exact ⟨fun h => by simp at h, fun h => absurd ⟨h.2.2.1, h.2.2.2.1⟩ h3⟩
  · cases hv : validateOutputChannelCount o with
    | ok u => exact absurd hv h1
    | error e =>
      simp only [← hsq, hv]
      exact ⟨fun h => by simp at h, fun h => by simp at h⟩

private theorem projection_ok (out sub coupled : UInt32) (matrix : List Int32) (x : AmbisonicsProjection) :
    projectionFromMetadata out sub coupled matrix = .ok x ↔ x.outputChannelCount.toNat = out.toNat ∧ x.substreamCount.toNat = sub.toNat ∧
      x.coupledSubstreamCount.toNat = coupled.toNat ∧ x.demixingMatrix.map Int16.toInt = matrix.map Int32.toInt ∧
      UsableAmbisonics sub.toNat (.projection x) := by
  unfold projectionFromMetadata
  have hall := castAll_ok castS16 (fun x y => y.toInt = x.toInt) castS16_ok
  constructor
  · intro h
    split at h
    · simp at h
    · simp only [bind_ok, castU8_ok, hall, map_forall_int] at h
      obtain ⟨o, ho, s, hs, c, hc, l, hm, h⟩ := h
      obtain ⟨rfl, hu⟩ := (projection_create o s c l x).mp h
      rw [hs] at hu
      exact ⟨ho, hs, hc, hm, hu⟩
  · rintro ⟨ho, hs, hc, hm, hu⟩
    have hlen : x.demixingMatrix.length = matrix.length := by simpa using congrArg List.length hm
    have hml := hu.2.2.2.2.2
    have b1 := x.outputChannelCount.toNat_lt
    have b2 := x.substreamCount.toNat_lt
    have b3 := x.coupledSubstreamCount.toNat_lt
    have hadd : (sub + coupled).toNat = sub.toNat + coupled.toNat := by rw [UInt32.toNat_add]; omega
    have hmul : ((sub + coupled) * out).toNat = (sub.toNat + coupled.toNat) * out.toNat := by
      rw [UInt32.toNat_mul, hadd]
      have : (sub.toNat + coupled.toNat) * out.toNat ≤ 512 * 256 := Nat.mul_le_mul (by omega) (by omega)
      omega
    have hsize : (matrix.length : Int) = ((sub + coupled) * out).toInt32.toInt := by
      have hb : (sub.toNat + coupled.toNat) * out.toNat ≤ 512 * 256 := Nat.mul_le_mul (by omega) (by omega)
      have e : ((sub + coupled) * out).toInt32.toInt = Int.bmod (((sub + coupled) * out).toNat : Int) (2 ^ 32) :=
        BitVec.toInt_eq_toNat_bmod ((sub + coupled) * out).toBitVec
      rw [e, hmul, ← hlen, hml, hc, ho, Int.bmod_eq_of_le (by omega) (by omega)]
    rw [if_neg (by simp [hsize])]
    simp only [bind_ok, castU8_ok, hall, map_forall_int]
    rw [← hs] at hu
    exact ⟨_, ho, _, hs, _, hc, _, hm, (projection_create _ _ _ _ x).mpr ⟨rfl, hu⟩⟩

private theorem preset_ok (codec : CodecConfigObu) (p : UInt32) (c : Ambisonics) : presetFromMetadata codec p = .ok c ↔
    ∃ q : AmbisonicsPreset, p.toNat = presetOrder q + 1 ∧ (IsMixed codec.config.codecId q → c = .projection thirdOrderProjection) ∧
      (¬ IsMixed codec.config.codecId q → c = .mono ⟨UInt8.ofNat ((presetOrder q + 1) ^ 2), (List.range ((presetOrder q + 1) ^ 2)).map UInt8.ofNat⟩) := by
  have hq : ∀ q, presetOfProto p.toNat = some q ↔ p.toNat = presetOrder q + 1 := by
    intro q
    unfold presetOfProto
    split <;> rename_i h <;> try rw [h]
    all_goals cases q <;> simp [presetOrder]
    all_goals omega
  unfold presetFromMetadata
  cases hp : presetOfProto p.toNat with
  | none =>
    refine ⟨fun h => by simp at h, fun ⟨q, h, _⟩ => ?_⟩
    rw [(hq q).mpr h] at hp
    simp at hp
  | some q =>
    simp only [bind_ok, Except.ok.injEq]
    obtain ⟨x, hx, -, -, -, -, h1, h2⟩ := C59_presets codec.config.codecId q codec.config.numSamplesPerFrame.toNat
    have hinj : ∀ q', p.toNat = presetOrder q' + 1 → q' = q := by
      intro q' h
      have := (hq q').mpr h
      rw [hp, Option.some.injEq] at this
      exact this.symm
    constructor
    · rintro ⟨y, hy, rfl⟩
      rw [hx, Except.ok.injEq] at hy
      subst hy
      exact ⟨q, (hq q).mp hp, fun h => (h1 h).1, fun h => (h2 h).1⟩
    · rintro ⟨q', h, h3, h4⟩
      obtain rfl := hinj q' h
      refine ⟨x, hx, ?_⟩
      by_cases hm : IsMixed codec.config.codecId q'
      · rw [h3 hm, (h1 hm).1]
      · rw [h4 hm, (h2 hm).1]

private theorem ambisonics_ok (codec : CodecConfigObu) (a : AmbisonicsMetadata) (c : Ambisonics) :
    ambisonicsFromMetadata codec a = .ok c ↔ SaysAmbisonics codec.config.codecId a c := by
  cases a with
  | mono out sub mapping =>
    simp only [ambisonicsFromMetadata, SaysAmbisonics, bind_ok, mono_ok, Except.ok.injEq]
    constructor
    · rintro ⟨x, ⟨h1, h2, h3, h4⟩, rfl⟩; exact ⟨x, rfl, h1, h2, h3, h4⟩
    · rintro ⟨x, rfl, h1, h2, h3, h4⟩; exact ⟨x, ⟨h1, h2, h3, h4⟩, rfl⟩
  | projection out sub coupled matrix =>
    simp only [ambisonicsFromMetadata, SaysAmbisonics, bind_ok, projection_ok, Except.ok.injEq]
    constructor
    · rintro ⟨x, ⟨h1, h2, h3, h4⟩, rfl⟩; exact ⟨x, rfl, h1, h2, h3, h4⟩
    · rintro ⟨x, rfl, h1, h2, h3, h4⟩; exact ⟨x, ⟨h1, h2, h3, h4⟩, rfl⟩
  | preset p => exact preset_ok codec p c
  | unset => simp [ambisonicsFromMetadata, SaysAmbisonics]

private theorem scene_ok (m : ElementMetadata) (codec : CodecConfigObu) (hf : codec.config.numSamplesPerFrame ≠ 0)
    (hs : m.substreamIds.length ≤ 255)
    (hd : ∀ p ∈ m.params, (∀ d, p.content = .demixing d → d.definition.subblockDurations.length < 4294967296) ∧
      ∀ d, p.content = .reconGain d → d.subblockDurations.length < 4294967296) (e : ElementWithData) :
    sceneElementFromMetadata m codec = .ok e ↔
      e.codec = some ⟨codec.config, codec.outputRate, codec.inputRate, codec.bitDepth⟩ ∧ ∃ a c, SaysScene m codec a e c := by
  unfold sceneElementFromMetadata
  cases hc : m.config with
  | ambisonics a =>
    have hcreate : ∀ c x, AudioElement.createAmbisonics m.id m.reserved.toUInt8 m.codecConfigId m.substreamIds c = .ok x ↔
        m.substreamIds.Nodup ∧ c.numSubstreams.toNat = m.substreamIds.length ∧
          x = ⟨m.id, 1, m.reserved.toUInt8, m.codecConfigId, m.substreamIds, [], .ambisonics c⟩ := by
      intro c x
      unfold AudioElement.createAmbisonics
      by_cases h1 : m.substreamIds.Nodup
      · have hn : UInt8.ofNat m.substreamIds.length = c.numSubstreams ↔ c.numSubstreams.toNat = m.substreamIds.length := by
          rw [← UInt8.toNat_inj, UInt8.toNat_ofNat', Nat.mod_eq_of_lt (by omega)]
          exact eq_comm
        simp only [h1, decide_true, Bool.not_true, Bool.false_eq_true, if_false, ne_eq, hn, true_and]
        by_cases h2 : c.numSubstreams.toNat = m.substreamIds.length
        · rw [if_neg (by simp [h2]), Except.ok.injEq]
          exact ⟨fun h => ⟨h2, h.symm⟩, fun h => h.2.symm⟩
        · rw [if_pos h2]
          exact ⟨fun h => by simp at h, fun h => absurd h.1 h2⟩
      · simp only [h1, decide_false, Bool.not_false, if_true, false_and]
        exact ⟨fun h => by simp at h, fun h => h.elim⟩
    simp only [bind_ok, ambisonics_ok, hcreate, params_ok _ hf m.params hd, Except.ok.injEq]
    constructor
    · rintro ⟨c, h1, x, ⟨h2, h3, rfl⟩, ps, h4, l, h5, rfl⟩
      exact ⟨rfl, a, c, hc, rfl, h1, h3, h2, h4, h5, rfl⟩
    · rintro ⟨hcod, a', c, h⟩
      have hcfg := h.config
      rw [hc] at hcfg
      cases hcfg
      have hl := h.labels
      rw [h.obu] at hl
      refine ⟨c, h.ambisonics, _, ⟨h.different, h.substreams, rfl⟩, e.obu.params, h.params, e.data.labels, hl, ?_⟩
      have ho := h.obu
      have hdt := h.data
      obtain ⟨o, c', d⟩ := e
      simp only at ho hcod hdt ⊢
      rw [hcod, ← ho, ← hdt]
      rfl
  | _ =>
    refine ⟨fun h => by simp at h, fun ⟨_, a, c, h⟩ => ?_⟩
    have hcfg := h.config
    rw [hc] at hcfg
    cases hcfg

/-! ### Object based elements -/

private theorem objects_ok (m : ElementMetadata) (codec : CodecConfigObu) (e : ElementWithData) :
    objectsElementFromMetadata m codec = .ok e ↔
      e.codec = some ⟨codec.config, codec.outputRate, codec.inputRate, codec.bitDepth⟩ ∧ ∃ n ext s, SaysObjects m n ext s e := by
  have hcreate : ∀ (n : UInt32) ext c, ObjectsConfig.create n.toUInt8 ext = .ok c ↔ (n.toNat % 256 = 1 ∨ n.toNat % 256 = 2) ∧ c = ⟨n.toUInt8, ext⟩ := by
    intro n ext c
    unfold ObjectsConfig.create
    have e : (n.toUInt8 > 2 ∨ n.toUInt8 = 0) ↔ ¬ (n.toNat % 256 = 1 ∨ n.toNat % 256 = 2) := by
      rw [gt_iff_lt, UInt8.lt_iff_toNat_lt, ← UInt8.toNat_inj, UInt32.toNat_toUInt8]
      show 2 < n.toNat % 256 ∨ n.toNat % 256 = 0 ↔ _
      omega
    simp only [e]
    by_cases h : n.toNat % 256 = 1 ∨ n.toNat % 256 = 2
    · rw [if_neg (not_not.mpr h), Except.ok.injEq]
      exact ⟨fun h' => ⟨h, h'.symm⟩, fun h' => h'.2.symm⟩
    · rw [if_pos h]
      exact ⟨fun h' => by simp at h', fun h' => absurd h'.1 h⟩
  have e1 : ∀ n : UInt32, n.toUInt8 = 1 ↔ n.toNat % 256 = 1 := by
    intro n; rw [← UInt8.toNat_inj, UInt32.toNat_toUInt8]; rfl
  have e2 : ∀ n : UInt32, n.toUInt8 = 2 ↔ n.toNat % 256 = 2 := by
    intro n; rw [← UInt8.toNat_inj, UInt32.toNat_toUInt8]; rfl
  unfold objectsElementFromMetadata
  simp only [bind_ok, hcreate]
  constructor
  · rintro ⟨c, ⟨hn, rfl⟩, h⟩
    have hc : m.config = .objects m.config.asObjects.1 m.config.asObjects.2 := by
      revert hn
      cases m.config <;> simp [ElementConfigMetadata.asObjects]
    split at h
    next s hs =>
      simp only [bind_ok, AudioElement.createObjects, Except.ok.injEq] at h
      obtain ⟨a, rfl, l, hl, rfl⟩ := h
      refine ⟨rfl, _, _, s, hc, hn, hs, rfl, ?_⟩
      simp only [finalizeObjects, ne_eq, not_true_eq_false, if_false, e1, e2] at hl
      rcases hn with hn | hn
      · rw [if_pos hn, Except.ok.injEq] at hl
        rw [if_pos hn, hl]
      · rw [if_neg (by omega), if_pos hn, Except.ok.injEq] at hl
        rw [if_neg (by omega), hl]
    · simp at h
  · rintro ⟨hcod, n, ext, s, h⟩
    have hc := h.config
    refine ⟨⟨n.toUInt8, ext⟩, ⟨by rw [hc]; exact h.number, by rw [hc]; rfl⟩, ?_⟩
    rw [h.substream]
    simp only [bind_ok, AudioElement.createObjects, Except.ok.injEq]
    refine ⟨_, rfl, [(s, if n.toNat % 256 = 1 then [.object0] else [.object0, .object1])], ?_, ?_⟩
    · simp only [finalizeObjects, ne_eq, not_true_eq_false, if_false, e1, e2]
      rcases h.number with hn | hn
      · rw [if_pos hn, if_pos hn]
      · rw [if_neg (by omega), if_pos hn, if_neg (by omega)]
    · have ho := h.obu
      have hdt := h.data
      obtain ⟨o, c', d⟩ := e
      simp only at ho hcod hdt ⊢
      rw [hcod, ho, hdt]
      rfl

/-! ### Elements -/

private theorem header_ok (t : ObuType) (m : HeaderMetadata) (h : ObuHeader) : h = headerFromMetadata t m ↔ SaysHeader t m h := by
  unfold headerFromMetadata
  constructor
  · rintro rfl
    refine ⟨rfl, rfl, rfl, rfl, rfl, fun bytes => ?_⟩
    cases m.extensionFlag <;> simp [eq_comm]
  · rintro ⟨h1, h2, h3, h4, h5, h6⟩
    obtain ⟨a, b, c, d, e, f⟩ := h
    simp only at h1 h2 h3 h4 h5 h6
    subst h1 h2 h3 h4 h5
    congr 1
    cases f with
    | none =>
      cases hf : m.extensionFlag with
      | false => rfl
      | true => exact absurd ((h6 m.extensionBytes).mpr ⟨hf, rfl⟩) (by simp)
    | some bytes =>
      obtain ⟨e1, e2⟩ := (h6 bytes).mp rfl
      rw [e1, e2]
      rfl

/-- **C62 (one element).** From metadata of a plausible size an audio element is made exactly if no element with that id was made before and
the metadata can be said by an element, and then the element says them: its header, its ids, its codec config, every field of every layer,
of the ambisonics or of the objects, and its parameters in order, each of which covers one frame.  Layers above the first, and only those,
have recon gains, if and only if the codec is lossy, and then and only then is there a recon gain parameter. -/
theorem C62_element (codecs : List (UInt32 × CodecConfigObu)) (found : List (UInt32 × GeneratedElement)) (m : ElementMetadata)
    (hm : PlausibleElement codecs m) (o : GeneratedElement) :
    generateElementObu codecs found m = .ok o ↔ (∀ x ∈ found, x.1 ≠ m.id) ∧ SaysElement codecs m o := by
  have h1 : m.type = 1 ↔ m.type.toNat = 1 := by rw [← UInt32.toNat_inj]; rfl
  have h2 : m.type = 2 ↔ m.type.toNat = 2 := by rw [← UInt32.toNat_inj]; rfl
  have h3 : m.type = 3 ↔ m.type.toNat = 3 := by rw [← UInt32.toNat_inj]; rfl
  have key : ∀ codec, codecs.lookup m.codecConfigId = some codec → ∀ e, (elementFromMetadata m codec = .ok e ↔
      e.codec = some ⟨codec.config, codec.outputRate, codec.inputRate, codec.bitDepth⟩ ∧
      ((m.type.toNat = 1 ∧ ∃ reserved layers ls, SaysScalable m codec reserved layers e ls) ∨
      (m.type.toNat = 2 ∧ ∃ a c, SaysScene m codec a e c) ∨
      (m.type.toNat = 3 ∧ ∃ n ext s, SaysObjects m n ext s e))) := by
    intro codec hc e
    unfold elementFromMetadata
    simp only [h1, h2, h3]
    by_cases t1 : m.type.toNat = 1
    · simp only [t1, if_true, true_and, (by decide : ¬ (1 = 2)), (by decide : ¬ (1 = 3)), false_and, or_false]
      exact channel_ok m codec (hm.frames codec hc) hm.layers hm.substreams hm.durations e
    by_cases t2 : m.type.toNat = 2
    · simp only [t2, (by decide : ¬ (2 = 1)), if_false, if_true, true_and, (by decide : ¬ (2 = 3)), false_and, or_false, false_or]
      exact scene_ok m codec (hm.frames codec hc) hm.substreams hm.durations e
    by_cases t3 : m.type.toNat = 3
    · simp only [t3, (by decide : ¬ (3 = 1)), (by decide : ¬ (3 = 2)), if_false, if_true, true_and, false_and, false_or]
      exact objects_ok m codec e
    · simp [t1, t2, t3]
  unfold generateElementObu
  by_cases hf : found.any (fun x => x.1 == m.id) = true
  · rw [if_pos hf]
    refine ⟨fun h => by simp at h, fun h => ?_⟩
    rw [List.any_eq_true] at hf
    obtain ⟨x, hx, hxe⟩ := hf
    exact absurd (beq_iff_eq.mp hxe) (h.1 x hx)
  · rw [if_neg hf]
    have hfr : ∀ x ∈ found, x.1 ≠ m.id := by
      intro x hx he
      exact hf (List.any_eq_true.mpr ⟨x, hx, beq_iff_eq.mpr he⟩)
    cases hc : codecs.lookup m.codecConfigId with
    | none =>
      refine ⟨fun h => by simp at h, fun ⟨_, _, codec, h, _⟩ => ?_⟩
      rw [hc] at h
      simp at h
    | some codec =>
      simp only [bind_ok, key codec hc, Except.ok.injEq]
      constructor
      · rintro ⟨e, ⟨h, h'⟩, rfl⟩
        exact ⟨hfr, (header_ok _ _ _).mp rfl, codec, hc, h, h'⟩
      · rintro ⟨-, hh, codec', hc', h, h'⟩
        rw [hc, Option.some.injEq] at hc'
        subst hc'
        exact ⟨o.element, ⟨h, h'⟩, by rw [← (header_ok _ _ _).mpr hh]⟩

/-- **C62 (all elements).** Elements are made from a list of metadata exactly if all ids are different and each of the metadata can be said by
an element; then there is one element for each, in order, that says them. -/
theorem C62_elements (codecs : List (UInt32 × CodecConfigObu)) (ms : List ElementMetadata) (hm : ∀ m ∈ ms, PlausibleElement codecs m)
    (out : List (UInt32 × GeneratedElement)) :
    generateElementObus codecs ms [] = .ok out ↔ (ms.map fun m => m.id).Nodup ∧
      List.Forall₂ (fun m x => x.1 = m.id ∧ SaysElement codecs m x.2) ms out := by
  have key : ∀ (ms : List ElementMetadata) (found : List (UInt32 × GeneratedElement)), (∀ m ∈ ms, PlausibleElement codecs m) → ∀ out,
      (generateElementObus codecs ms found = .ok out ↔ (ms.map fun m => m.id).Nodup ∧ (∀ m ∈ ms, ∀ x ∈ found, x.1 ≠ m.id) ∧
        ∃ new, out = found ++ new ∧ List.Forall₂ (fun m x => x.1 = m.id ∧ SaysElement codecs m x.2) ms new) := by
    intro ms
    induction ms with
    | nil =>
      intro found _ out
      simp only [generateElementObus, Except.ok.injEq, List.map_nil, List.nodup_nil, true_and, List.not_mem_nil, false_implies, implies_true,
        List.forall₂_nil_left_iff]
      constructor
      · rintro rfl; exact ⟨[], by simp, rfl⟩
      · rintro ⟨new, rfl, rfl⟩; simp
    | cons m ms ih =>
      intro found hm out
      simp only [generateElementObus, bind_ok, C62_element codecs found m (hm m (List.mem_cons_self ..)),
        ih _ (fun x hx => hm x (List.mem_cons_of_mem _ hx)), List.map_cons, List.nodup_cons, List.forall₂_cons_left_iff]
      constructor
      · rintro ⟨e, ⟨h1, h2⟩, h3, h4, new, rfl, h5⟩
        refine ⟨⟨?_, h3⟩, ?_, (m.id, e) :: new, by simp, (m.id, e), new, ⟨rfl, h2⟩, h5, rfl⟩
        · intro h
          obtain ⟨m', hm', he⟩ := List.mem_map.mp h
          exact h4 m' hm' (m.id, e) (List.mem_append_right _ (List.mem_singleton.mpr rfl)) he.symm
        · intro m' hm' x hx
          rcases List.mem_cons.mp hm' with rfl | hm'
          · exact h1 x hx
          · exact h4 m' hm' x (List.mem_append_left _ hx)
      · rintro ⟨⟨h1, h2⟩, h3, new, rfl, x, new', ⟨h4, h5⟩, h6, rfl⟩
        obtain ⟨i, e⟩ := x
        simp only at h4 h5
        subst h4
        refine ⟨e, ⟨h3 m (List.mem_cons_self ..), h5⟩, h2, ?_, new', by simp, h6⟩
        intro m' hm' x hx
        rcases List.mem_append.mp hx with hx | hx
        · exact h3 m' (List.mem_cons_of_mem _ hm') x hx
        · rw [List.mem_singleton] at hx
          subst hx
          intro h
          exact h1 (List.mem_map.mpr ⟨m', hm', h.symm⟩)
  rw [key ms [] hm out]
  simp

private theorem schedule_made {m : DefinitionMetadata} (hl : m.subblockDurations.length < 4294967296) {b : ParamBase} (h : SaysBase m b) :
    ∀ s, b.schedule = some s → s.Made := by
  intro s hs
  have h' := (schedule_ok m hl _).mpr h.schedule
  rw [hs] at h'
  unfold scheduleFromMetadata at h'
  split at h'
  · simp at h'
  · split at h'
    · simp only [bind_ok, Except.ok.injEq, Option.some.injEq] at h'
      obtain ⟨s', h1, rfl⟩ := h'
      exact .inl ⟨_, _, h1⟩
    · simp only [bind_ok, Except.ok.injEq, Option.some.injEq] at h'
      obtain ⟨s', h1, rfl⟩ := h'
      exact .inr ⟨_, hl, h1⟩

private theorem param_made {n : UInt32} {m : ElementParamMetadata}
    (hl : (∀ d, m.content = .demixing d → d.definition.subblockDurations.length < 4294967296) ∧
      ∀ d, m.content = .reconGain d → d.subblockDurations.length < 4294967296) {p : ParamDef} (h : SaysParam n m p) : ElementParameter p := by
  obtain ⟨-, ⟨d, x, -, hc, hs, hb, -⟩ | ⟨d, -, hc, hs, hb, -⟩ | ⟨b, -, rfl, -⟩⟩ := h
  · exact ⟨schedule_made (hl.1 d hc) hb, .inl ⟨x, hs⟩⟩
  · exact ⟨schedule_made (hl.2 d hc) hb, .inr (.inl ⟨_, hs⟩)⟩
  · exact ⟨fun s hs => by simp at hs, .inr (.inr ⟨_, _, rfl, by decide, by decide⟩)⟩

private theorem params_made {n : UInt32} {ms : List ElementParamMetadata} {ps : List ParamDef} (h : List.Forall₂ (SaysParam n) ms ps)
    (hl : ∀ p ∈ ms, (∀ d, p.content = .demixing d → d.definition.subblockDurations.length < 4294967296) ∧
      ∀ d, p.content = .reconGain d → d.subblockDurations.length < 4294967296) : ∀ p ∈ ps, ElementParameter p := by
  induction h with
  | nil => simp
  | @cons m p ms ps h _ ih =>
    intro q hq
    rcases List.mem_cons.mp hq with rfl | hq
    · exact param_made (hl m (List.mem_cons_self ..)) h
    · exact ih (fun x hx => hl x (List.mem_cons_of_mem _ hx)) q hq

/-- Elements made from metadata are as the library builds them. -/
theorem metadata_element_built (codecs : List (UInt32 × CodecConfigObu)) (m : ElementMetadata) (hm : PlausibleElement codecs m)
    (o : GeneratedElement) (ho : SaysElement codecs m o) : BuiltElement o.element.obu := by
  obtain ⟨codec, hc, -, ⟨-, r, lm, ls, h⟩ | ⟨-, a, c, h⟩ | ⟨-, n, ext, s, h⟩⟩ := ho.element
  · have hlen := h.each.length_eq
    have hnum : (UInt32.ofNat m.substreamIds.length).toNat = m.substreamIds.length := by
      have := hm.substreams
      rw [UInt32.toNat_ofNat']; omega
    rw [h.obu]
    refine BuiltElement.scalable m.id m.reserved.toUInt8 m.codecConfigId m.substreamIds ⟨0, ls⟩
      ⟨m.id, 0, m.reserved.toUInt8, m.codecConfigId, m.substreamIds, [], .scalable ⟨0, ls⟩⟩ o.element.obu.params ?_ (by
        show ls.length ≤ 255
        have := h.number.2
        omega) (params_made h.params hm.durations)
    have hv := (scalable_valid_iff ⟨0, ls⟩ (UInt32.ofNat m.substreamIds.length) (by show ls.length < 256; have := h.number.2; omega)).mpr (by
      show (1 ≤ ls.length ∧ ls.length ≤ 6) ∧ (ls.map fun x => x.substreamCount.toNat).sum = (UInt32.ofNat m.substreamIds.length).toNat ∧
        ((∃ x ∈ ls, x.layout.toNat = 9) → ls.length = 1)
      rw [hnum, (sums h.each).1, (sums h.each).2, ← hlen]
      exact ⟨h.number, h.substreams, h.binaural⟩)
    unfold AudioElement.createScalable
    rw [if_neg (by simp [h.different]), if_neg (by simp [hv])]
  · have hcr : AudioElement.createAmbisonics m.id m.reserved.toUInt8 m.codecConfigId m.substreamIds c =
        .ok ⟨m.id, 1, m.reserved.toUInt8, m.codecConfigId, m.substreamIds, [], .ambisonics c⟩ := by
      unfold AudioElement.createAmbisonics
      have hn : UInt8.ofNat m.substreamIds.length = c.numSubstreams := by
        have := hm.substreams
        rw [← UInt8.toNat_inj, UInt8.toNat_ofNat', Nat.mod_eq_of_lt (by omega), h.substreams]
      rw [if_neg (by simp [h.different]), if_neg (by simp [hn])]
    have hus : ∃ k, UsableAmbisonics k c := by
      have ha := h.ambisonics
      cases a with
      | mono out sub mapping => obtain ⟨x, -, -, -, -, hu⟩ := ha; exact ⟨_, hu⟩
      | projection out sub coupled matrix => obtain ⟨x, -, -, -, -, -, hu⟩ := ha; exact ⟨_, hu⟩
      | preset p =>
        obtain ⟨q, -, h1, h2⟩ := ha
        by_cases hq : IsMixed codec.config.codecId q
        · rw [h1 hq]
          exact ⟨8, ⟨3, by decide, rfl⟩, rfl, by decide, by decide, by decide, by decide +kernel⟩
        · rw [h2 hq]
          refine ⟨(presetOrder q + 1) ^ 2, ?_⟩
          cases q <;> (unfold UsableAmbisonics presetOrder; refine ⟨?_, by decide, by decide, by decide, by decide +kernel⟩)
          · exact ⟨0, by decide, rfl⟩
          · exact ⟨1, by decide, rfl⟩
          · exact ⟨2, by decide, rfl⟩
          · exact ⟨3, by decide, rfl⟩
      | unset => exact ha.elim
    obtain ⟨k, hu⟩ := hus
    rw [h.obu]
    cases c with
    | mono x =>
      have hk : x.substreamCount.toNat = k := hu.2.1
      have hlt : x.channelMapping.length < 256 := by
        obtain ⟨o, ho, e⟩ := hu.1
        have : (o + 1) ^ 2 ≤ 15 ^ 2 := Nat.pow_le_pow_left (by omega) 2
        omega
      exact BuiltElement.mono m.id m.reserved.toUInt8 m.codecConfigId m.substreamIds x.substreamCount x.channelMapping x _ o.element.obu.params
        ((mono_create _ _ hlt x).mpr ⟨rfl, by rw [hk]; exact hu⟩) hcr (by omega) (params_made h.params hm.durations)
    | projection x =>
      have hk : x.substreamCount.toNat = k := hu.2.1
      exact BuiltElement.projection m.id m.reserved.toUInt8 m.codecConfigId m.substreamIds x.outputChannelCount x.substreamCount
        x.coupledSubstreamCount x.demixingMatrix x _ o.element.obu.params
        ((projection_create _ _ _ _ x).mpr ⟨rfl, by rw [hk]; exact hu⟩) hcr (params_made h.params hm.durations)
  · rw [h.obu]
    refine BuiltElement.objects m.id m.reserved.toUInt8 m.codecConfigId s n.toUInt8 ext ⟨n.toUInt8, ext⟩
      ⟨m.id, 2, m.reserved.toUInt8, m.codecConfigId, [s], [], .objects ⟨n.toUInt8, ext⟩⟩ [] ?_ rfl (by simp)
    unfold ObjectsConfig.create
    rw [if_neg]
    rw [gt_iff_lt, UInt8.lt_iff_toNat_lt, ← UInt8.toNat_inj, UInt32.toNat_toUInt8]
    show ¬ (2 < n.toNat % 256 ∨ n.toNat % 256 = 0)
    have := h.number
    omega

/-- **C62 (in the bitstream).** If an element that was made from metadata can be written, a reader gets it back: header, element (apart from
fields that the bitstream does not carry) and footer. -/
theorem C62_written_element_is_read (codecs : List (UInt32 × CodecConfigObu)) (m : ElementMetadata) (hm : PlausibleElement codecs m)
    (o : GeneratedElement) (ho : SaysElement codecs m o) (he : m.header.trimEnd = 0) (hs : m.header.trimStart = 0)
    (g : LebGen) (footer bytes : List UInt8) (hw : Writes g (wObu o.header o.element.obu.write footer) bytes) :
    ReadsBack (rObu fun _ => AudioElement.read) bytes (o.header, carriedElement o.element.obu, footer) := by
  refine C10_audio_element_round_trip g o.header o.element.obu footer bytes (by rw [ho.header.trimEnd, he]) (by rw [ho.header.trimStart, hs])
    (metadata_element_built codecs m hm o ho) hw

/-! ### Examples and findings -/

private def opusConfig : CodecConfigObu :=
  ⟨⟨0, false, false, 0, 0, none⟩, ⟨7, 0x4f707573, 960, -4, .opus ⟨1, 2, 312, 48000, 0, 0⟩⟩, 48000, 48000, 32⟩

private def frameDefinition (id : UInt32) : DefinitionMetadata := ⟨id, 48000, false, 0, 960, 960, []⟩

/-- Stereo and 5.1 over it in Opus, with demixing and recon gain parameters and an output gain. -/
private def twoLayers : ElementMetadata :=
  ⟨300, 1, 0, 7, [1, 2, 3, 4],
    [⟨false, some 2, .demixing ⟨frameDefinition 998, 2, 0, 10, 0⟩⟩, ⟨false, some 3, .reconGain (frameDefinition 999)⟩],
    .scalable 0 [⟨false, 2, 0, 0, 0, 1, 1, 0, 0, 0, 0⟩, ⟨false, 3, 1, 1, 0, 3, 1, 32, 0, -256, 0⟩],
    ⟨false, false, false, 0, 0, []⟩⟩

/-- Not vacuous: such an element is made, and it says what the metadata say. -/
theorem C62_example : PlausibleElement [(7, opusConfig)] twoLayers ∧
    ∃ o, generateElementObu [(7, opusConfig)] [] twoLayers = .ok o ∧ SaysElement [(7, opusConfig)] twoLayers o ∧
      o.element.obu = ⟨300, 0, 0, 7, [1, 2, 3, 4],
        [⟨⟨998, 48000, 0, some ⟨960, 960, 1, []⟩⟩, .demixing ⟨⟨1, 0⟩, 10, 0⟩⟩, ⟨⟨999, 48000, 0, some ⟨960, 960, 1, []⟩⟩, .reconGain []⟩],
        .scalable ⟨0, [⟨1, false, false, 0, 1, 1, 0, 0, 0, none⟩, ⟨2, true, true, 0, 3, 1, 32, 0, -256, none⟩]⟩⟩ ∧
      o.element.data.labels = [(1, [.l2, .r2]), (2, [.l5, .r5]), (3, [.centre]), (4, [.lfe])] := by
  have hp : PlausibleElement [(7, opusConfig)] twoLayers := by
    refine ⟨fun codec h => ?_, fun r ls h => ?_, by decide, fun p hp => ?_⟩
    · have : codec = opusConfig := by
        have e : List.lookup twoLayers.codecConfigId [(7, opusConfig)] = some opusConfig := rfl
        rw [e, Option.some.injEq] at h
        exact h.symm
      rw [this]
      decide
    · cases h
      decide
    · simp only [twoLayers, List.mem_cons, List.not_mem_nil, or_false] at hp
      rcases hp with rfl | rfl
      · exact ⟨fun d h => (by cases h; decide), fun d h => (by cases h)⟩
      · exact ⟨fun d h => (by cases h), fun d h => (by cases h; decide)⟩
  cases h : generateElementObu [(7, opusConfig)] [] twoLayers with
  | error e =>
    have : (match generateElementObu [(7, opusConfig)] [] twoLayers with | .ok _ => true | .error _ => false) = true := by decide +kernel
    rw [h] at this
    simp at this
  | ok o =>
    have h1 : (match generateElementObu [(7, opusConfig)] [] twoLayers with
      | .ok o => o.element.obu == ⟨300, 0, 0, 7, [1, 2, 3, 4],
        [⟨⟨998, 48000, 0, some ⟨960, 960, 1, []⟩⟩, .demixing ⟨⟨1, 0⟩, 10, 0⟩⟩, ⟨⟨999, 48000, 0, some ⟨960, 960, 1, []⟩⟩, .reconGain []⟩],
        .scalable ⟨0, [⟨1, false, false, 0, 1, 1, 0, 0, 0, none⟩, ⟨2, true, true, 0, 3, 1, 32, 0, -256, none⟩]⟩⟩ &&
        o.element.data.labels == [(1, [.l2, .r2]), (2, [.l5, .r5]), (3, [.centre]), (4, [.lfe])]
      | .error _ => false) = true := by decide +kernel
    rw [h, Bool.and_eq_true, beq_iff_eq, beq_iff_eq] at h1
    exact ⟨hp, o, rfl, ((C62_element _ _ _ hp o).mp h).2, h1.1, h1.2⟩

/-- **C62 (finding).** Parameters of an element with objects are dropped, whatever they are, and there is no error. -/
theorem C62_objects_lose_parameters (codecs : List (UInt32 × CodecConfigObu)) (found : List (UInt32 × GeneratedElement)) (m : ElementMetadata)
    (h : m.type = 3) (ps : List ElementParamMetadata) :
    generateElementObu codecs found ⟨m.id, m.type, m.reserved, m.codecConfigId, m.substreamIds, ps, m.config, m.header⟩ =
      generateElementObu codecs found m := by
  obtain ⟨a, b, c, d, e, f, g, i⟩ := m
  simp only at h
  subst h
  rfl

/-- **C62 (finding).** The reserved bits of a channel layout are dropped. -/
theorem C62_reserved_bits_of_layouts_are_dropped (codecs : List (UInt32 × CodecConfigObu)) (found : List (UInt32 × GeneratedElement))
    (m : ElementMetadata) (r r' : UInt32) (layers : List LayerConfigMetadata) :
    generateElementObu codecs found ⟨m.id, m.type, m.reserved, m.codecConfigId, m.substreamIds, m.params, .scalable r layers, m.header⟩ =
      generateElementObu codecs found ⟨m.id, m.type, m.reserved, m.codecConfigId, m.substreamIds, m.params, .scalable r' layers, m.header⟩ := rfl

/-- **C62 (finding).** The reserved bits of elements are narrowed to 8 bits. -/
theorem C62_reserved_bits_are_narrowed (codecs : List (UInt32 × CodecConfigObu)) (found : List (UInt32 × GeneratedElement)) (m : ElementMetadata)
    (r : UInt32) (h : r.toNat % 256 = m.reserved.toNat % 256) :
    generateElementObu codecs found ⟨m.id, m.type, r, m.codecConfigId, m.substreamIds, m.params, m.config, m.header⟩ =
      generateElementObu codecs found m := by
  have : r.toUInt8 = m.reserved.toUInt8 := by rw [← UInt8.toNat_inj, UInt32.toNat_toUInt8, UInt32.toNat_toUInt8]; exact h
  unfold generateElementObu elementFromMetadata channelElementFromMetadata sceneElementFromMetadata objectsElementFromMetadata
  simp only [this]

private def manyObjects (n : UInt32) : ElementMetadata :=
  ⟨300, 3, 0, 7, [1], [], .objects n [], ⟨false, false, false, 0, 0, []⟩⟩

/-- **C62 (finding).** 257 objects are taken for one object; 3 objects are refused. -/
theorem C62_objects_are_counted_in_a_byte :
    generateElementObu [(7, opusConfig)] [] (manyObjects 257) = .ok ⟨⟨1, false, false, 0, 0, none⟩,
      ⟨⟨300, 2, 0, 7, [1], [], .objects ⟨1, []⟩⟩, some ⟨opusConfig.config, 48000, 48000, 32⟩, ⟨[(1, [.object0])], [], []⟩⟩⟩ ∧
    generateElementObu [(7, opusConfig)] [] (manyObjects 3) = .error .invalidArgument := by
  decide +kernel

/-- Ambisonics of first order with a demixing parameter that covers a frame in two subblocks. -/
private def twoSubblocks : ElementMetadata :=
  ⟨300, 2, 0, 7, [1, 2, 3, 4], [⟨false, some 2, .demixing ⟨⟨998, 48000, false, 0, 0, 0, [480, 480]⟩, 2, 0, 10, 0⟩⟩],
    .ambisonics (.mono 4 4 [0, 1, 2, 3]), ⟨false, false, false, 0, 0, []⟩⟩

/-- **C62 (finding).** A parameter of an element with more than one subblock in a frame passes here, but the element cannot be written. -/
theorem C62_two_subblocks_are_not_written :
    ∃ e : ElementWithData, generateElementObu [(7, opusConfig)] [] twoSubblocks = .ok ⟨⟨1, false, false, 0, 0, none⟩, e⟩ ∧
      ((wObu ⟨1, false, false, 0, 0, none⟩ e.obu.write []).run (WBuf.empty .minimum)).1 = .error .invalidArgument := by
  refine ⟨⟨⟨300, 1, 0, 7, [1, 2, 3, 4], [⟨⟨998, 48000, 0, some ⟨960, 0, 2, [480, 480]⟩⟩, .demixing ⟨⟨1, 0⟩, 10, 0⟩⟩],
      .ambisonics (.mono ⟨4, [0, 1, 2, 3]⟩)⟩, some ⟨opusConfig.config, 48000, 48000, 32⟩,
      ⟨[(1, [.a 0]), (2, [.a 1]), (3, [.a 2]), (4, [.a 3])], [], []⟩⟩, by decide +kernel, by decide +kernel⟩

/-! For the generator of mix presentations. -/
theorem metadata_castU8 (x : UInt32) (y : UInt8) : castU8 x = .ok y ↔ y.toNat = x.toNat := castU8_ok x y
theorem metadata_castS16 (x : Int32) (y : Int16) : castS16 x = .ok y ↔ y.toInt = x.toInt := castS16_ok x y
theorem metadata_base (m : DefinitionMetadata) (hl : m.subblockDurations.length < 4294967296) (b : ParamBase) :
    baseFromMetadata m = .ok b ↔ SaysBase m b := base_ok m hl b
theorem metadata_empty (b : ParamBase) : ¬ SaysBase .empty b := empty_base b
theorem metadata_header (t : ObuType) (m : HeaderMetadata) (h : ObuHeader) : h = headerFromMetadata t m ↔ SaysHeader t m h := header_ok t m h
theorem metadata_schedule {m : DefinitionMetadata} (hl : m.subblockDurations.length < 4294967296) {b : ParamBase} (h : SaysBase m b) :
    ∀ s, b.schedule = some s → s.Made := schedule_made hl h

end Iamf.Props
