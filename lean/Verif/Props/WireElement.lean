import Verif.Props.WireParams
/-
  C30 for audio elements.
-/
namespace Iamf.Props
open Iamf

/-- A `size()` narrowed to 32 bits; for fewer than 2^32 entries this is the size itself. -/
def count32 (n : Nat) : Nat := n % 2 ^ 32

theorem ofNat_toNat32 (n : Nat) : (UInt32.ofNat n).toNat = count32 n := UInt32.toNat_ofNat'

/-- One layer of scalable_channel_layout_config(). -/
def layerTable (c : ChannelLayer) : List Field :=
  [.u 4 c.layout.toNat, .u 1 c.outputGainPresent.toNat, .u 1 c.reconGainPresent.toNat, .u 2 c.reservedA.toNat,
    .u 8 c.substreamCount.toNat, .u 8 c.coupledSubstreamCount.toNat] ++
  ((if c.outputGainPresent then [.u 6 c.outputGainFlag.toNat, .u 2 c.reservedB.toNat, .s 16 c.outputGain.toInt] else []) ++
  (if c.layout.toNat = 15 then (match c.expanded with
      | some e => [.u 8 e.toNat]
      | none => []) else []))

/-- The expanded layout (15) names which one. -/
def LayerOk (c : ChannelLayer) : Prop := c.layout.toNat = 15 → c.expanded.isSome = true

theorem emits_layer {g : LebGen} (c : ChannelLayer) : Emits g c.write (LayerOk c) (layerTable c) := by
  unfold ChannelLayer.write layerTable
  simp only [Wr.bind_eq, Wr.pure_eq]
  have h15 : c.layout = kLayoutExpanded ↔ c.layout.toNat = 15 := by rw [← UInt8.toNat_inj]; rfl
  have hg : Emits g (if c.outputGainPresent = true then (wU8 c.outputGainFlag 6).bind fun _ => (wU8 c.reservedB 2).bind fun _ =>
      wS16 c.outputGain else Wr.ret ()) True
      (if c.outputGainPresent then [.u 6 c.outputGainFlag.toNat, .u 2 c.reservedB.toNat, .s 16 c.outputGain.toInt] else []) :=
    (Emits.ite (fun _ => em8_6.bind (em8_2.bind Emits.s16)) (fun _ => Emits.ret)).cast (by simp) (fun _ => rfl)
  have he : Emits g (if c.layout = kLayoutExpanded then (match c.expanded with
      | none => Wr.fail .invalidArgument
      | some e => wU8 e 8) else Wr.ret ()) (LayerOk c) (if c.layout.toNat = 15 then (match c.expanded with
      | some e => [.u 8 e.toNat]
      | none => []) else []) := by
    unfold LayerOk
    by_cases h : c.layout = kLayoutExpanded
    · rw [if_pos h, if_pos (h15.mp h)]
      cases c.expanded with
      | none => exact (Emits.fail (t := [])).cast (by simp [h15.mp h]) (fun h => h.elim)
      | some e => exact em8_8.cast (by simp) (fun _ => rfl)
    · rw [if_neg h, if_neg (mt h15.mpr h)]
      exact Emits.ret.cast (by simp [mt h15.mpr h]) (fun _ => rfl)
  exact (em8_4.bind (Emits.bool.bind (Emits.bool.bind (em8_2.bind (em8_8.bind (em8_8.bind (hg.bind he))))))).cast
    (by simp) (fun _ => rfl)

/-- scalable_channel_layout_config() -/
def scalableTable (c : ScalableLayout) : List Field :=
  [.u 3 c.layers.length, .u 5 c.reserved.toNat] ++ c.layers.flatMap layerTable

/-- One to six layers, whose substreams are those of the element; binaural (9) is alone. -/
structure ScalableOk (c : ScalableLayout) (numSubstreams : Nat) : Prop where
  layers : 1 ≤ c.layers.length ∧ c.layers.length ≤ 6
  substreams : (c.layers.map fun x => x.substreamCount.toNat).sum = numSubstreams
  binaural : (∃ x ∈ c.layers, x.layout.toNat = 9) → c.layers.length = 1
  expanded : ∀ x ∈ c.layers, LayerOk x

theorem cumulative_toNat (l : List ChannelLayer) (hl : l.length < 256) :
    (cumulativeSubstreams l).toNat = (l.map fun x => x.substreamCount.toNat).sum ∧
      (l.map fun x => x.substreamCount.toNat).sum ≤ 255 * l.length := by
  have hb : ∀ l : List ChannelLayer, (l.map fun x => x.substreamCount.toNat).sum ≤ 255 * l.length := by
    intro l
    induction l with
    | nil => simp
    | cons x xs ih =>
      have := x.substreamCount.toNat_lt
      simp only [List.map_cons, List.sum_cons, List.length_cons]; omega
  have gen : ∀ (l : List ChannelLayer) (acc : UInt32), acc.toNat + 255 * l.length < 4294967296 →
      (l.foldl (fun acc c => acc + c.substreamCount.toUInt32) acc).toNat = acc.toNat + (l.map fun x => x.substreamCount.toNat).sum := by
    intro l
    induction l with
    | nil => intro acc _; simp
    | cons x xs ih =>
      intro acc h
      have hx := x.substreamCount.toNat_lt
      simp only [List.length_cons] at h
      have e : (acc + x.substreamCount.toUInt32).toNat = acc.toNat + x.substreamCount.toNat := by
        rw [UInt32.toNat_add, UInt8.toNat_toUInt32]; omega
      rw [List.foldl_cons, ih _ (by rw [e]; omega), e]
      simp only [List.map_cons, List.sum_cons]; omega
  refine ⟨?_, hb l⟩
  unfold cumulativeSubstreams
  rw [gen l 0 (by show 0 + _ < _; omega)]
  show 0 + _ = _
  omega

theorem scalable_valid_iff (c : ScalableLayout) (n : UInt32) (hl : c.layers.length < 256) :
    c.valid n = true ↔ (1 ≤ c.layers.length ∧ c.layers.length ≤ 6) ∧
      (c.layers.map fun x => x.substreamCount.toNat).sum = n.toNat ∧
      ((∃ x ∈ c.layers, x.layout.toNat = 9) → c.layers.length = 1) := by
  unfold ScalableLayout.valid
  have hn : c.numLayers.toNat = c.layers.length := by
    unfold ScalableLayout.numLayers; rw [UInt8.toNat_ofNat']; omega
  simp only [Bool.and_eq_true, Bool.not_eq_true', Bool.or_eq_false_iff, beq_eq_false_iff_ne, ne_eq, decide_eq_false_iff_not,
    ← UInt8.toNat_inj, UInt8.lt_iff_toNat_lt, gt_iff_lt, hn, beq_iff_eq, ← UInt32.toNat_inj, (cumulative_toNat c.layers hl).1,
    UInt8.reduceToNat, Bool.and_eq_false_iff, and_assoc]
  refine and_congr (by omega) (and_congr (by omega) (and_congr Iff.rfl ?_))
  have h1 : (c.numLayers != 1) = false ↔ c.layers.length = 1 := by
    rw [bne_eq_false_iff_eq, ← UInt8.toNat_inj, hn]; rfl
  have h2 : (c.layers.any fun x => x.layout == kLayoutBinaural) = true ↔ ∃ x ∈ c.layers, x.layout.toNat = 9 := by
    simp only [List.any_eq_true, beq_iff_eq, ← UInt8.toNat_inj]; rfl
  rw [h1, ← h2]
  cases (c.layers.any fun x => x.layout == kLayoutBinaural) <;> simp

theorem emits_scalable {g : LebGen} (c : ScalableLayout) (n : UInt32) (hl : c.layers.length < 256) :
    Emits g (c.write n) (ScalableOk c n.toNat) (scalableTable c) := by
  unfold ScalableLayout.write scalableTable
  simp only [Wr.bind_eq]
  refine (Emits.check.bind (em8_3.bind (em8_5.bind (Emits.each fun x _ => emits_layer x)))).cast ?_ (fun _ => ?_)
  · rw [scalable_valid_iff c n hl]
    exact ⟨fun ⟨⟨a, b, c⟩, _, _, d⟩ => ⟨a, b, c, d⟩, fun ⟨a, b, c, d⟩ => ⟨⟨a, b, c⟩, trivial, trivial, d⟩⟩
  · have hn : c.numLayers.toNat = c.layers.length := by
      unfold ScalableLayout.numLayers; rw [UInt8.toNat_ofNat']; omega
    rw [hn]; rfl

/-- ambisonics_config() -/
def ambisonicsTable : Ambisonics → List Field
  | .mono c => [.leb 0, .u 8 c.channelMapping.length, .u 8 c.substreamCount.toNat, .bytes c.channelMapping]
  | .projection c => [.leb 1, .u 8 c.outputChannelCount.toNat, .u 8 c.substreamCount.toNat, .u 8 c.coupledSubstreamCount.toNat] ++
      c.demixingMatrix.map fun x => .s 16 x.toInt

theorem emits_ambisonics {g : LebGen} (c : Ambisonics) (hl : ∀ m, c = .mono m → m.channelMapping.length < 256) :
    Emits g c.write True (ambisonicsTable c) := by
  cases c with
  | mono c =>
    unfold Ambisonics.write AmbisonicsMono.write ambisonicsTable
    simp only [Wr.bind_eq]
    refine (Emits.uleb.bind (em8_8.bind (em8_8.bind Emits.bytes))).cast (by simp) (fun _ => ?_)
    rw [UInt8.toNat_ofNat', Nat.mod_eq_of_lt (hl c rfl)]; rfl
  | projection c =>
    unfold Ambisonics.write AmbisonicsProjection.write ambisonicsTable
    simp only [Wr.bind_eq]
    refine (Emits.uleb.bind (em8_8.bind (em8_8.bind (em8_8.bind (Emits.each (P := fun _ => True)
      (t := fun x : Int16 => [.s 16 x.toInt]) fun x _ => Emits.s16))))).cast (by simp) (fun _ => ?_)
    rw [List.map_eq_flatMap]; rfl

/-- objects_config(): its size in bytes, the number of objects, extension bytes. -/
def objectsTable (c : ObjectsConfig) : List Field :=
  [.u 8 (count32 (c.extension.length + 1)), .u 8 c.numObjects.toNat, .bytes c.extension]

theorem emits_objects {g : LebGen} (c : ObjectsConfig) : Emits g c.write True (objectsTable c) := by
  unfold ObjectsConfig.write objectsTable
  refine Emits.cast (by em_auto) ?_ ?_
  · simp
  · intro _; rw [ofNat_toNat32]; rfl

/-- The configuration that belongs to the element's type: 0 channels, 1 scene, 2 objects, 3 to 7 reserved. -/
def elementConfigTable : ElementConfig → List Field
  | .scalable c => scalableTable c
  | .ambisonics c => ambisonicsTable c
  | .objects c => objectsTable c
  | .extension b => [.leb (UInt32.ofNat b.length), .bytes b]

/-- The configuration is that of the type, and fits the number of substreams. -/
def ElementConfigOk (type numSubstreams : Nat) : ElementConfig → Prop
  | .scalable c => type = 0 ∧ ScalableOk c numSubstreams
  | .ambisonics c => type = 1 ∧ c.numSubstreams.toNat = numSubstreams
  | .objects _ => type = 2
  | .extension _ => 3 ≤ type

/-- Sizes that the C++ types and factories guarantee. -/
def ElementConfigSmall : ElementConfig → Prop
  | .scalable c => c.layers.length < 256
  | .ambisonics (.mono c) => c.channelMapping.length < 256
  | _ => True

theorem emits_elementConfig {g : LebGen} (a : AudioElement) (hs : ElementConfigSmall a.config) :
    Emits g a.writeConfig (ElementConfigOk a.elementType.toNat (count32 a.substreamIds.length) a.config) (elementConfigTable a.config) := by
  unfold AudioElement.writeConfig
  have k0 : a.elementType = 0 ↔ a.elementType.toNat = 0 := by rw [← UInt8.toNat_inj]; rfl
  have k1 : a.elementType = 1 ↔ a.elementType.toNat = 1 := by rw [← UInt8.toNat_inj]; rfl
  have k2 : a.elementType = 2 ↔ a.elementType.toNat = 2 := by rw [← UInt8.toNat_inj]; rfl
  rw [← ofNat_toNat32]
  by_cases h0 : a.elementType = 0
  · rw [if_pos h0]
    have e := k0.mp h0
    revert hs
    cases a.config with
    | scalable c => intro hs; exact (emits_scalable c _ hs).cast (by simp [ElementConfigOk, e]) (fun _ => rfl)
    | _ => intro _; exact (Emits.fail (t := [])).cast (by simp [ElementConfigOk, e]) (fun h => h.elim)
  rw [if_neg h0]
  by_cases h1 : a.elementType = 1
  · rw [if_pos h1]
    have e := k1.mp h1
    revert hs
    cases a.config with
    | ambisonics c =>
      intro hs
      simp only [Wr.bind_eq]
      refine (Emits.check.bind (emits_ambisonics c ?_)).cast ?_ (fun _ => rfl)
      · intro m hm; subst hm; exact hs
      · simp only [ElementConfigOk, e, true_and, beq_iff_eq, ← UInt32.toNat_inj, UInt8.toNat_toUInt32, and_true]
        exact eq_comm
    | _ => intro _; exact (Emits.fail (t := [])).cast (by simp [ElementConfigOk, e]) (fun h => h.elim)
  rw [if_neg h1]
  by_cases h2 : a.elementType = 2
  · rw [if_pos h2]
    have e := k2.mp h2
    cases a.config with
    | objects c => exact (emits_objects c).cast (by simp [ElementConfigOk, e]) (fun _ => rfl)
    | _ => exact (Emits.fail (t := [])).cast (by simp [ElementConfigOk, e]) (fun h => h.elim)
  rw [if_neg h2]
  have f0 := mt k0.mpr h0
  have f1 := mt k1.mpr h1
  have f2 := mt k2.mpr h2
  cases a.config with
  | extension b => exact (emits_sized b).cast (by simp only [ElementConfigOk, true_iff]; omega) (fun _ => rfl)
  | _ => exact (Emits.fail (t := [])).cast (by simp only [ElementConfigOk, false_iff]; omega) (fun h => h.elim)

/-- audio_element_obu() -/
def audioElementTable (a : AudioElement) : List Field :=
  [.leb a.elementId, .u 3 a.elementType.toNat, .u 5 a.reserved.toNat, .leb a.codecConfigId,
    .leb (UInt32.ofNat a.substreamIds.length)] ++ (a.substreamIds.map .leb ++
    ([.leb (UInt32.ofNat a.params.length)] ++ ((a.params.flatMap fun p => [.leb p.spec.type] ++ paramDefTable p) ++
    elementConfigTable a.config)))

/-- At most 256 parameters, of different types and none of them a mix gain; all of them and the configuration allowed. -/
structure AudioElementOk (a : AudioElement) : Prop where
  number : count32 a.params.length ≤ 256
  types : (a.params.map fun p => p.spec.type).Nodup
  noMixGain : ∀ p ∈ a.params, p.spec.type.toNat ≠ 0
  params : ∀ p ∈ a.params, ParamDefOk p
  config : ElementConfigOk a.elementType.toNat (count32 a.substreamIds.length) a.config

theorem emits_audioElement {g : LebGen} (a : AudioElement) (hs : ElementConfigSmall a.config) (hm : ∀ p ∈ a.params, p.Made) :
    Emits g a.write (AudioElementOk a) (audioElementTable a) := by
  unfold AudioElement.write audioElementTable
  simp only [Wr.bind_eq]
  have hp : ∀ p ∈ a.params, Emits g (wElementParam p) (p.spec.type.toNat ≠ 0 ∧ ParamDefOk p) ([.leb p.spec.type] ++ paramDefTable p) := by
    intro p hp
    unfold wElementParam
    simp only [Wr.bind_eq]
    refine (Emits.uleb.bind (Emits.check.bind (emits_paramDef p (hm p hp)))).cast ?_ (fun _ => rfl)
    simp [← UInt32.toNat_inj]
  refine (Emits.check.bind (Emits.uleb.bind (em8_3.bind (em8_5.bind (Emits.uleb.bind (Emits.uleb.bind
    ((Emits.each (P := fun _ => True) (t := fun x : UInt32 => [.leb x]) fun x _ => Emits.uleb).bind (Emits.check.bind
    (Emits.uleb.bind ((Emits.each hp).bind (emits_elementConfig a hs))))))))))).cast ?_ (fun _ => ?_)
  · unfold uniqueParamTypes
    rw [ofNat_toNat32]
    simp only [decide_eq_true_eq, Bool.not_eq_true', decide_eq_false_iff_not, gt_iff_lt, Nat.not_lt,
      show kMaxNumParameters = 256 from rfl, true_and, implies_true]
    exact ⟨fun ⟨a, b, c, d⟩ => ⟨b, a, fun p hp => (c p hp).1, fun p hp => (c p hp).2, d⟩,
      fun ⟨b, a, c, c', d⟩ => ⟨a, b, fun p hp => ⟨c p hp, c' p hp⟩, d⟩⟩
  · rw [List.map_eq_flatMap]; rfl

/-- **C30 (audio element).** OBU type 1. -/
theorem C30_audio_element (g : LebGen) (h : ObuHeader) (a : AudioElement) (footer bytes : List UInt8)
    (hs : ElementConfigSmall a.config) (hm : ∀ p ∈ a.params, p.Made) :
    Writes g (wObu { h with obuType := ObuType.audioElement } a.write footer) bytes ↔
      AudioElementOk a ∧ IsObu g { h with obuType := 1 } (audioElementTable a) footer bytes :=
  writes_obu footer bytes (emits_audioElement a hs hm)

/-- Not vacuous: mono and stereo layers with a demixing parameter. -/
def elementExample : AudioElement := ⟨5, 0, 0, 2, [7, 8], [⟨⟨30, 48000, 0, some ⟨960, 960, 1, []⟩⟩, .demixing ⟨⟨5, 0⟩, 3, 0⟩⟩],
  .scalable ⟨0, [⟨0, false, false, 0, 1, 0, 0, 0, 0, none⟩, ⟨1, true, true, 0, 1, 0, 32, 0, -256, none⟩]⟩⟩
example : AudioElementOk elementExample ∧ ElementConfigSmall elementExample.config ∧ ∀ p ∈ elementExample.params, p.Made := by
  refine ⟨⟨by decide, by decide, by decide, ?_, rfl, ⟨by decide, rfl, by simp, ?_⟩⟩, (by decide : (2 : Nat) < 256), ?_⟩
  · intro p hp
    simp only [elementExample, List.mem_singleton] at hp
    subst hp
    exact ⟨⟨by decide, fun _ => ⟨_, rfl, by decide, rfl⟩⟩, by decide⟩
  · intro x hx
    simp only [List.mem_cons, List.not_mem_nil, or_false] at hx
    rcases hx with rfl | rfl <;> exact fun h => absurd h (by decide)
  · intro p hp s hs
    simp only [elementExample, List.mem_singleton] at hp
    subst hp
    simp only [Option.some.injEq] at hs
    subst hs
    exact .inl ⟨960, 960, by decide +kernel⟩
example : IsObu .minimum ⟨1, false, false, 0, 0, none⟩ (audioElementTable elementExample) []
    [0x08, 29, 5, 0, 2, 2, 7, 8, 1, 1, 30, 0x80, 0xf7, 2, 0, 0xc0, 7, 0xc0, 7, 0xa0, 0x30, 0x40, 0, 1, 0, 0x1c, 1, 0, 0x80, 0xff, 0] :=
  ⟨by decide, by decide, by decide +kernel, by decide +kernel⟩

end Iamf.Props
