import Verif.Obu.AudioElementProofs
import Verif.Props.Params
import Mathlib.Data.Finset.Card
import Mathlib.Data.Finset.Range
/-
  Properties of Audio Element OBUs: C10.
-/
namespace Iamf.Props
open Iamf

/-! ## C10: audio elements -/

/-- A parameter definition of an audio element as its class holds it: demixing, recon gain, or an extended
definition of another type; a schedule, if any, comes from one of the factories. -/
def ElementParameter (p : ParamDef) : Prop :=
  (∀ s, p.base.schedule = some s → s.Made) ∧
  ((∃ d, p.spec = .demixing d) ∨ (∃ f, p.spec = .reconGain f) ∨ ∃ t b, p.spec = .extended t b ∧ t ≠ 1 ∧ t ≠ 2)

/-- The element was built by one of the factories from configurations that their own factories built, and then
given its parameters.  The two bounds of 255 are necessary: see the findings below. -/
inductive BuiltElement : AudioElement → Prop
  | scalable (id : UInt32) (rs : UInt8) (cc : UInt32) (ids : List UInt32) (c : ScalableLayout) (a : AudioElement)
      (ps : List ParamDef) (h : AudioElement.createScalable id rs cc ids c = .ok a) (hl : c.layers.length ≤ 255)
      (hp : ∀ p ∈ ps, ElementParameter p) : BuiltElement { a with params := ps }
  | mono (id : UInt32) (rs : UInt8) (cc : UInt32) (ids : List UInt32) (s : UInt8) (m : List UInt8) (c : AmbisonicsMono)
      (a : AudioElement) (ps : List ParamDef) (hc : AmbisonicsMono.create s m = .ok c)
      (h : AudioElement.createAmbisonics id rs cc ids (.mono c) = .ok a) (hl : m.length ≤ 255)
      (hp : ∀ p ∈ ps, ElementParameter p) : BuiltElement { a with params := ps }
  | projection (id : UInt32) (rs : UInt8) (cc : UInt32) (ids : List UInt32) (o s k : UInt8) (m : List Int16)
      (c : AmbisonicsProjection) (a : AudioElement) (ps : List ParamDef)
      (hc : AmbisonicsProjection.create o s k m = .ok c)
      (h : AudioElement.createAmbisonics id rs cc ids (.projection c) = .ok a)
      (hp : ∀ p ∈ ps, ElementParameter p) : BuiltElement { a with params := ps }
  | objects (id : UInt32) (rs : UInt8) (cc : UInt32) (sub : UInt32) (n : UInt8) (ext : List UInt8) (c : ObjectsConfig)
      (a : AudioElement) (ps : List ParamDef) (hc : ObjectsConfig.create n ext = .ok c)
      (h : AudioElement.createObjects id rs cc sub c = .ok a)
      (hp : ∀ p ∈ ps, ElementParameter p) : BuiltElement { a with params := ps }

/-- What the bitstream carries of a layer: the gain only if the layer says it has one, the expanded layout only
if the layout says so. -/
def carriedLayer (c : ChannelLayer) : ChannelLayer :=
  { c with
    outputGainFlag := if c.outputGainPresent then c.outputGainFlag else 0
    reservedB := if c.outputGainPresent then c.reservedB else 0
    outputGain := if c.outputGainPresent then c.outputGain else 0
    expanded := if c.layout = 15 then c.expanded else none }

/-- What the bitstream carries of an element. -/
def carriedElement (a : AudioElement) : AudioElement :=
  { a with
    params := a.params.map carriedDef
    config := match a.config with
      | .scalable c => .scalable ⟨c.reserved, c.layers.map carriedLayer⟩
      | c => c }

private theorem paramOk {p : ParamDef} (h : ElementParameter p) : ElementParamOk p := by
  obtain ⟨b, s⟩ := p
  obtain ⟨h1, ⟨d, hd⟩ | ⟨f, hf⟩ | ⟨t, b', ht, h2, h3⟩⟩ := h
  · simp only at hd; subst hd; exact ⟨h1, trivial⟩
  · simp only at hf; subst hf; exact ⟨h1, trivial⟩
  · simp only at ht; subst ht; exact ⟨h1, h2, h3⟩

theorem built_made {a : AudioElement} (h : BuiltElement a) : a.Made := by
  cases h with
  | scalable id rs cc ids c a ps h hl hp =>
    unfold AudioElement.createScalable at h
    split at h
    · simp at h
    next hn =>
      split at h
      · simp at h
      · simp only [Except.ok.injEq] at h
        subst h
        refine ⟨by simpa using hn, fun p hm => paramOk (hp p hm), by simp only; decide, ?_, ?_, ?_⟩
        · intro c' hc'; simp only [ElementConfig.scalable.injEq] at hc'; subst hc'; omega
        · intro c' hc'; simp at hc'
        · intro c' hc'; simp at hc'
  | mono id rs cc ids s m c a ps hc h hl hp =>
    have := AmbisonicsMono.create_ok hc
    subst this
    unfold AudioElement.createAmbisonics at h
    split at h
    · simp at h
    next hn =>
      split at h
      · simp at h
      · simp only [Except.ok.injEq] at h
        subst h
        refine ⟨by simpa using hn, fun p hm => paramOk (hp p hm), by simp only; decide, ?_, ?_, ?_⟩
        · intro c' hc'; simp at hc'
        · intro c' hc'; simp only [ElementConfig.ambisonics.injEq] at hc'; subst hc'; exact ⟨hc, by simp only; omega⟩
        · intro c' hc'; simp at hc'
  | projection id rs cc ids o s k m c a ps hc h hp =>
    have := AmbisonicsProjection.create_ok hc
    subst this
    unfold AudioElement.createAmbisonics at h
    split at h
    · simp at h
    next hn =>
      split at h
      · simp at h
      · simp only [Except.ok.injEq] at h
        subst h
        refine ⟨by simpa using hn, fun p hm => paramOk (hp p hm), by simp only; decide, ?_, ?_, ?_⟩
        · intro c' hc'; simp at hc'
        · intro c' hc'; simp only [ElementConfig.ambisonics.injEq] at hc'; subst hc'; exact hc
        · intro c' hc'; simp at hc'
  | objects id rs cc sub n ext c a ps hc h hp =>
    have hc' := hc
    unfold ObjectsConfig.create at hc
    split at hc
    · simp at hc
    · simp only [Except.ok.injEq] at hc
      subst hc
      simp only [AudioElement.createObjects, Except.ok.injEq] at h
      subst h
      refine ⟨by simp, fun p hm => paramOk (hp p hm), by simp only; decide, ?_, ?_, ?_⟩
      · intro c' hc'; simp at hc'
      · intro c' hc'; simp at hc'
      · intro c' hc''; simp only [ElementConfig.objects.injEq] at hc''; subst hc''; exact hc'

theorem normalized_carriedElement (a : AudioElement) (h : a.Made) : a.normalized = carriedElement a := by
  have hp : a.params.map ParamDef.normalized = a.params.map carriedDef := by
    refine List.map_congr_left fun p hp => ?_
    obtain ⟨b, s⟩ := p
    have := (h.params _ hp).2
    cases s <;> first | rfl | exact this.elim
  obtain ⟨id, ty, rs, cc, ids, ps, c⟩ := a
  simp only at hp
  unfold AudioElement.normalized carriedElement
  simp only [hp]
  cases c <;> rfl

/-- **C10 (round trip).** Every audio element built by the factories (scalable layout, ambisonics mono or
projection, objects) with any parameters: if writing the OBU succeeds, reading the bytes gives back the header,
the element (apart from fields that the bitstream does not carry, `carriedElement`) and the footer. -/
theorem C10_audio_element_round_trip (g : LebGen) (h : ObuHeader) (a : AudioElement) (footer bytes : List UInt8)
    (hte : h.trimEnd = 0) (hts : h.trimStart = 0) (ha : BuiltElement a)
    (hw : Writes g (wObu h a.write footer) bytes) :
    ReadsBack (rObu fun _ => AudioElement.read) bytes (h, carriedElement a, footer) := by
  have := ReadsBack.obu' (derived := fun _ => AudioElement.read) hte hts (AudioElement.rt g a footer (built_made ha)) hw
  rw [normalized_carriedElement a (built_made ha)] at this
  exact this

/-- An element with two layers (stereo, then 5.1 with recon gain and an output gain), a demixing definition, a
recon gain definition and an extended definition. -/
def exampleScalable : AudioElement :=
  ⟨300, 0, 0, 7, [1, 2, 3, 4], [⟨⟨1, 48000, 0, some ⟨8, 8, 1, []⟩⟩, .demixing ⟨⟨2, 0⟩, 10, 0⟩⟩,
      ⟨⟨2, 48000, 0, some ⟨8, 8, 1, []⟩⟩, .reconGain []⟩, ⟨⟨0, 0, 0, none⟩, .extended 20 [1, 2]⟩],
    .scalable ⟨0, [⟨1, false, false, 0, 1, 1, 0, 0, 0, none⟩, ⟨2, true, true, 0, 3, 1, 32, 0, -256, none⟩]⟩⟩

/-- Not vacuous: it is built by the factory, and it is written. -/
theorem exampleScalable_built : BuiltElement exampleScalable := by
  refine .scalable 300 0 7 [1, 2, 3, 4] ⟨0, [⟨1, false, false, 0, 1, 1, 0, 0, 0, none⟩,
    ⟨2, true, true, 0, 3, 1, 32, 0, -256, none⟩]⟩ { exampleScalable with params := [] } exampleScalable.params
    (by decide +kernel) (by decide) ?_
  intro p hp
  simp only [exampleScalable, List.mem_cons, List.not_mem_nil, or_false] at hp
  have hm : (SubblockSchedule.mk 8 8 1 []).Made := .inl ⟨8, 8, by decide +kernel⟩
  rcases hp with rfl | rfl | rfl
  · exact ⟨fun s hs => by simp only [Option.some.injEq] at hs; subst hs; exact hm, .inl ⟨_, rfl⟩⟩
  · exact ⟨fun s hs => by simp only [Option.some.injEq] at hs; subst hs; exact hm, .inr (.inl ⟨_, rfl⟩)⟩
  · exact ⟨fun s hs => by simp at hs, .inr (.inr ⟨_, _, rfl, by decide, by decide⟩)⟩
example : ∃ bytes, Writes .minimum (wObu ⟨1, false, false, 0, 0, none⟩ exampleScalable.write [5]) bytes :=
  ⟨_, ((wObu ⟨1, false, false, 0, 0, none⟩ exampleScalable.write [5]).run (WBuf.empty .minimum)).2,
    by decide +kernel, rfl, by decide +kernel⟩
/-- Not vacuous: first order ambisonics with a dropped channel, and projection with a coupled substream. -/
example : (AmbisonicsMono.create 3 [0, 2, 255, 1] = .ok ⟨3, [0, 2, 255, 1]⟩) ∧
    (∃ a, AudioElement.createAmbisonics 1 0 7 [10, 20, 30] (.mono ⟨3, [0, 2, 255, 1]⟩) = .ok a ∧
      ∃ bytes, Writes .minimum (wObu ⟨1, false, false, 0, 0, none⟩ a.write []) bytes) ∧
    (AmbisonicsProjection.create 4 1 1 [1, 2, 3, 4, 5, 6, 7, -8] = .ok ⟨4, 1, 1, [1, 2, 3, 4, 5, 6, 7, -8]⟩) ∧
    (∃ a, AudioElement.createAmbisonics 1 0 7 [10] (.projection ⟨4, 1, 1, [1, 2, 3, 4, 5, 6, 7, -8]⟩) = .ok a ∧
      ∃ bytes, Writes .minimum (wObu ⟨1, false, false, 0, 0, none⟩ a.write []) bytes) :=
  ⟨by decide +kernel,
   ⟨_, rfl, _, ((wObu ⟨1, false, false, 0, 0, none⟩ (AudioElement.write ⟨1, 1, 0, 7, [10, 20, 30], [], .ambisonics (.mono ⟨3, [0, 2, 255, 1]⟩)⟩) []).run
      (WBuf.empty .minimum)).2, by decide +kernel, rfl, by decide +kernel⟩,
   by decide +kernel,
   ⟨_, rfl, _, ((wObu ⟨1, false, false, 0, 0, none⟩ (AudioElement.write ⟨1, 1, 0, 7, [10], [], .ambisonics (.projection ⟨4, 1, 1, [1, 2, 3, 4, 5, 6, 7, -8]⟩)⟩) []).run
      (WBuf.empty .minimum)).2, by decide +kernel, rfl, by decide +kernel⟩⟩
/-- Not vacuous: two objects. -/
example : ∃ c, ObjectsConfig.create 2 [3] = .ok c ∧ ∃ a, AudioElement.createObjects 1 0 7 5 c = .ok a ∧
    ∃ bytes, Writes .minimum (wObu ⟨1, false, false, 0, 0, none⟩ a.write []) bytes :=
  ⟨_, rfl, _, rfl, _, ((wObu ⟨1, false, false, 0, 0, none⟩ (AudioElement.write ⟨1, 2, 0, 7, [5], [], .objects ⟨2, [3]⟩⟩) []).run
      (WBuf.empty .minimum)).2, by decide +kernel, rfl, by decide +kernel⟩

/-- Specification of a usable scalable layout for `n` substreams. -/
def UsableLayout (n : Nat) (c : ScalableLayout) : Prop :=
  1 ≤ c.layers.length ∧ c.layers.length ≤ 6 ∧ (c.layers.map fun l => l.substreamCount.toNat).sum = n ∧
  ((∃ l ∈ c.layers, l.layout = 9) → c.layers.length = 1)

/-- Specification of a usable ambisonics configuration for `n` substreams: the number of output channels is
`(order + 1) ^ 2`; in mono mode every channel is dropped (255) or names one of the substreams, and every substream is
named; in projection mode the demixing matrix has one entry per input and output channel. -/
def UsableAmbisonics (n : Nat) : Ambisonics → Prop
  | .mono c => (∃ order ≤ 14, c.channelMapping.length = (order + 1) ^ 2) ∧ c.substreamCount.toNat = n ∧ 1 ≤ n ∧
      (∀ i ∈ c.channelMapping, i = 255 ∨ i.toNat < n) ∧ (∀ k < n, ∃ i ∈ c.channelMapping, i.toNat = k)
  | .projection c => (∃ order ≤ 14, c.outputChannelCount.toNat = (order + 1) ^ 2) ∧ c.substreamCount.toNat = n ∧
      c.coupledSubstreamCount.toNat ≤ n ∧ 1 ≤ n + c.coupledSubstreamCount.toNat ∧
      n + c.coupledSubstreamCount.toNat ≤ c.outputChannelCount.toNat ∧
      c.demixingMatrix.length = (n + c.coupledSubstreamCount.toNat) * c.outputChannelCount.toNat

private theorem channelCount_square {c : UInt8} (h : validateOutputChannelCount c = .ok ()) :
    ∃ order ≤ 14, c.toNat = (order + 1) ^ 2 := by
  have hm : c ∈ ambisonicsChannelCounts := by
    unfold validateOutputChannelCount nextValidOutputChannelCount at h
    cases hf : ambisonicsChannelCounts.find? (fun v => decide (c ≤ v)) with
    | none => simp [hf] at h
    | some v =>
      simp only [hf] at h
      split at h
      next hv => rw [← hv]; exact List.mem_of_find?_eq_some hf
      · simp at h
  have : ∀ x ∈ ambisonicsChannelCounts, ∃ order ≤ 14, x.toNat = (order + 1) ^ 2 := by decide
  exact this c hm

private theorem nodup_eraseDups (n : Nat) : ∀ l : List UInt8, l.length ≤ n → l.eraseDups.Nodup := by
  induction n with
  | zero => intro l hl; have : l = [] := List.length_eq_zero_iff.mp (by omega); subst this; simp
  | succ n ih =>
    intro l hl
    cases l with
    | nil => simp
    | cons a as =>
      rw [List.eraseDups_cons, List.nodup_cons]
      refine ⟨by simp [List.mem_eraseDups], ih _ ?_⟩
      have := List.length_filter_le (fun b => !b == a) as
      simp only [List.length_cons] at hl
      omega

private theorem pigeonhole {l : List UInt8} {n : Nat} (hb : ∀ i ∈ l, i.toNat < n) (hl : l.eraseDups.length = n) :
    ∀ k < n, ∃ i ∈ l, i.toNat = k := by
  have hsub : (l.map UInt8.toNat).toFinset ⊆ Finset.range n := by
    intro x hx
    simp only [List.mem_toFinset, List.mem_map] at hx
    obtain ⟨i, hi, rfl⟩ := hx
    exact Finset.mem_range.mpr (hb i hi)
  have hcard : (Finset.range n).card ≤ (l.map UInt8.toNat).toFinset.card := by
    rw [Finset.card_range, ← hl]
    have hnd : (l.eraseDups.map UInt8.toNat).Nodup :=
      List.Nodup.map (fun a b h => UInt8.toNat_inj.mp h) (nodup_eraseDups _ l (Nat.le_refl _))
    have e : (l.map UInt8.toNat).toFinset = (l.eraseDups.map UInt8.toNat).toFinset := by
      ext x; simp [List.mem_eraseDups]
    rw [e, List.toFinset_card_of_nodup hnd, List.length_map]
  have heq := Finset.eq_of_subset_of_card_le hsub hcard
  intro k hk
  have : k ∈ (l.map UInt8.toNat).toFinset := by rw [heq]; exact Finset.mem_range.mpr hk
  simpa using this

theorem mono_usable {c : AmbisonicsMono} (h : c.Made) : UsableAmbisonics c.substreamCount.toNat (.mono c) := by
  obtain ⟨h, hlt⟩ := h
  unfold AmbisonicsMono.create at h
  split at h
  · simp at h
  next hv =>
    split at h
    · simp at h
    next hr =>
      split at h
      · simp at h
      next hb =>
        split at h
        · simp at h
        next hu =>
          obtain ⟨o, ho, hs⟩ := channelCount_square hv
          rw [UInt8.toNat_ofNat', Nat.mod_eq_of_lt (by omega)] at hs
          simp only [Bool.not_eq_true, Bool.not_eq_false', Bool.and_eq_true, decide_eq_true_eq] at hr
          simp only [monoMappingInBounds, Bool.not_eq_true, Bool.not_eq_false', List.all_eq_true, Bool.or_eq_true,
            beq_iff_eq, decide_eq_true_eq] at hb
          refine ⟨⟨o, ho, hs⟩, rfl, hr.1, fun i hi => ?_, ?_⟩
          · rcases hb i hi with h | h
            · exact .inl h
            · exact .inr (UInt8.lt_iff_toNat_lt.mp h)
          · intro k hk
            obtain ⟨i, hi, hik⟩ := pigeonhole (l := c.channelMapping.filter (fun i => i != 255)) (n := c.substreamCount.toNat)
              (fun i hi => by
                simp only [List.mem_filter, bne_iff_ne] at hi
                rcases hb i hi.1 with h | h
                · exact absurd h hi.2
                · exact UInt8.lt_iff_toNat_lt.mp h) (by simpa using hu) k hk
            exact ⟨i, List.mem_of_mem_filter hi, hik⟩

theorem projection_usable {c : AmbisonicsProjection} (h : c.Made) :
    UsableAmbisonics c.substreamCount.toNat (.projection c) := by
  obtain ⟨hs, hl⟩ := AmbisonicsProjection.made_ok h
  unfold projectionCountsStatus at hs
  split at hs
  · simp at hs
  next hv =>
    split at hs
    · simp at hs
    next hc =>
      split at hs
      · simp at hs
      next hr =>
        simp only [Bool.not_eq_true, Bool.not_eq_false', Bool.and_eq_true, decide_eq_true_eq] at hr
        have : ¬ c.substreamCount.toNat < c.coupledSubstreamCount.toNat := fun h => hc (UInt8.lt_iff_toNat_lt.mpr h)
        exact ⟨channelCount_square hv, rfl, by omega, hr.1, hr.2, hl⟩

private theorem foldl_sum (l : List ChannelLayer) (acc : UInt32) (h : acc.toNat + 255 * l.length < 4294967296) :
    (l.foldl (fun acc c => acc + c.substreamCount.toUInt32) acc).toNat =
      acc.toNat + (l.map fun x => x.substreamCount.toNat).sum := by
  induction l generalizing acc with
  | nil => simp
  | cons a as ih =>
    simp only [List.foldl_cons, List.map_cons, List.sum_cons, List.length_cons] at *
    have ha := a.substreamCount.toNat_lt
    have e : (acc + a.substreamCount.toUInt32).toNat = acc.toNat + a.substreamCount.toNat := by
      rw [UInt32.toNat_add, UInt8.toNat_toUInt32]; omega
    rw [ih _ (by rw [e]; omega), e]; omega

theorem layout_usable {c : ScalableLayout} {n : UInt32} (h : c.valid n = true) (hl : c.layers.length < 256) :
    UsableLayout n.toNat c := by
  have hn : c.numLayers.toNat = c.layers.length := by
    unfold ScalableLayout.numLayers; rw [UInt8.toNat_ofNat']; omega
  unfold ScalableLayout.valid at h
  simp only [Bool.and_eq_true, Bool.not_eq_true', Bool.or_eq_false_iff, beq_eq_false_iff_ne, decide_eq_false_iff_not,
    beq_iff_eq, Bool.and_eq_false_iff, bne_eq_false_iff_eq] at h
  obtain ⟨⟨⟨h0, h6⟩, hs⟩, hb⟩ := h
  have h0' : c.layers.length ≠ 0 := fun h => h0 (UInt8.toNat_inj.mp (by rw [hn, h]; rfl))
  have h6' : ¬ 6 < c.layers.length := fun h => h6 (UInt8.lt_iff_toNat_lt.mpr (by rw [hn]; exact h))
  refine ⟨by omega, by omega, ?_, ?_⟩
  · rw [← hs, cumulativeSubstreams, foldl_sum _ _ (by simp; omega)]; simp
  · rintro ⟨l, hl, h9⟩
    rcases hb with hb | hb
    · rw [List.any_eq_false] at hb
      exact absurd (by rw [h9]; rfl) (hb l hl)
    · rw [← hn, hb]; rfl

/-- **C10 (what was read is usable).** Whatever bytes the OBU consists of: if an audio element is read successfully,
its substream ids are pairwise different, no parameter type occurs twice, no parameter is a mix gain, and its
configuration is usable with exactly these substreams. -/
theorem C10_read_element_is_sound (src : List UInt8) (cap : Nat) (pv : Bool) (hc : 0 < cap)
    (h : ObuHeader) (a : AudioElement) (footer : List UInt8)
    (hr : ((rObu fun _ => AudioElement.read).run (RBuf.create cap src pv)).1 = .ok (h, a, footer)) :
    a.substreamIds.Nodup ∧ (a.params.map fun p => p.spec.type).Nodup ∧ (∀ p ∈ a.params, p.spec.type ≠ 0) ∧
    a.params.length ≤ 256 ∧ a.elementType.toNat < 8 ∧
    (a.elementType = 0 → ∃ c, a.config = .scalable c ∧ UsableLayout a.substreamIds.length c) ∧
    (a.elementType = 1 → ∃ c, a.config = .ambisonics c ∧ UsableAmbisonics a.substreamIds.length c) ∧
    (a.elementType = 2 → ∃ c, a.config = .objects c ∧ (c.numObjects = 1 ∨ c.numObjects = 2)) := by
  have href := C03_read_buffer_is_cursor (rObu fun _ => AudioElement.read) src cap pv (.inl hc)
  rw [href.1] at hr
  have := sf_obu (fun _ n _ => AudioElement.sf n) ⟨bytesBits src, 0, pv⟩
  rw [hr] at this
  obtain ⟨-, hn, hlt, ht, hp, hu, hps, c0, c1, c2, -⟩ := this
  simp only at hlt
  have hl : (UInt32.ofNat a.substreamIds.length).toNat = a.substreamIds.length := by
    rw [UInt32.toNat_ofNat']; omega
  refine ⟨hn, by simpa [uniqueParamTypes] using hu, fun p hp => (hps p hp).2, hp, ht, fun h => ?_, fun h => ?_, fun h => ?_⟩
  · obtain ⟨c, e, hv, hl8⟩ := c0 h
    have := layout_usable hv (by omega)
    rw [hl] at this
    exact ⟨c, e, this⟩
  · obtain ⟨c, e, hm, hs⟩ := c1 h
    have hs' := congrArg UInt32.toNat hs
    rw [hl, UInt8.toNat_toUInt32] at hs'
    refine ⟨c, e, ?_⟩
    rw [hs']
    cases c with
    | mono c => exact mono_usable hm
    | projection c => exact projection_usable hm
  · obtain ⟨c, e, hm⟩ := c2 h
    refine ⟨c, e, ?_⟩
    unfold ObjectsConfig.Made ObjectsConfig.create at hm
    split at hm
    · simp at hm
    next hn' =>
      have h1 : ¬ 2 < c.numObjects.toNat := fun h => hn' (.inl (UInt8.lt_iff_toNat_lt.mpr h))
      have h2 : c.numObjects.toNat ≠ 0 := fun h => hn' (.inr (UInt8.toNat_inj.mp h))
      have : c.numObjects.toNat = 1 ∨ c.numObjects.toNat = 2 := by omega
      rcases this with h | h
      · exact .inl (UInt8.toNat_inj.mp h)
      · exact .inr (UInt8.toNat_inj.mp h)

/-- Not vacuous: an ambisonics element is read. -/
example : ((rObu fun _ => AudioElement.read).run (RBuf.create 64
    [0x08, 15, 1, 0x20, 7, 3, 10, 20, 30, 0, 0, 4, 3, 0, 2, 255, 1] true)).1 =
    .ok (⟨1, false, false, 0, 0, none⟩, ⟨1, 1, 0, 7, [10, 20, 30], [], .ambisonics (.mono ⟨3, [0, 2, 255, 1]⟩)⟩, []) := by
  decide +kernel

/-! ### Findings -/

/-- **C10 (finding).** The configuration of an element of a reserved type (3 to 7) is dropped by the reader: whatever
is read successfully has an empty scalable layout instead, and can never be written again. -/
theorem C10_reserved_type_config_is_dropped (src : List UInt8) (cap : Nat) (pv : Bool) (hc : 0 < cap)
    (h : ObuHeader) (a : AudioElement) (footer : List UInt8) (ht : 3 ≤ a.elementType)
    (hr : ((rObu fun _ => AudioElement.read).run (RBuf.create cap src pv)).1 = .ok (h, a, footer)) :
    a.config = .scalable ⟨0, []⟩ ∧ ∀ g bytes, ¬ Writes g a.write bytes := by
  have href := C03_read_buffer_is_cursor (rObu fun _ => AudioElement.read) src cap pv (.inl hc)
  rw [href.1] at hr
  have := sf_obu (fun _ n _ => AudioElement.sf n) ⟨bytesBits src, 0, pv⟩
  rw [hr] at this
  obtain ⟨-, -, -, -, -, -, -, -, -, -, c3⟩ := this
  have h3 := UInt8.le_iff_toNat_le.mp ht
  have h3' : (3 : UInt8).toNat = 3 := rfl
  have n0 : a.elementType ≠ 0 := by intro he; rw [he] at h3; simp at h3
  have n1 : a.elementType ≠ 1 := by intro he; rw [he] at h3; simp at h3
  have n2 : a.elementType ≠ 2 := by intro he; rw [he] at h3; simp at h3
  have hcfg := c3 n0 n1 n2
  refine ⟨hcfg, fun g bytes hw => ?_⟩
  have he := hw.eval
  unfold AudioElement.write at he
  simp only [Wr.bind_eq] at he
  iterate 10
    rw [Wr.eval_bind_ok] at he
    obtain ⟨_, _, _, -, he, -⟩ := he
  unfold AudioElement.writeConfig at he
  rw [if_neg n0, if_neg n1, if_neg n2, hcfg] at he
  simp at he

/-- An extension element that is written and read: its three config bytes are gone, and writing what was read
terminates the process. -/
example : ∃ bytes a, Writes .minimum (wObu ⟨1, false, false, 0, 0, none⟩
      (AudioElement.write ⟨1, 5, 0, 7, [9], [], .extension [1, 2, 3]⟩) []) bytes ∧
    ((rObu fun _ => AudioElement.read).run (RBuf.create 64 bytes true)).1 = .ok (⟨1, false, false, 0, 0, none⟩, a, []) ∧
    a.config = .scalable ⟨0, []⟩ ∧ (a.write.run (WBuf.empty .minimum)).1 = .error .abort :=
  ⟨[0x08, 10, 1, 0xa0, 7, 1, 9, 0, 3, 1, 2, 3], ⟨1, 5, 0, 7, [9], [], .scalable ⟨0, []⟩⟩,
    ⟨((wObu ⟨1, false, false, 0, 0, none⟩ (AudioElement.write ⟨1, 5, 0, 7, [9], [], .extension [1, 2, 3]⟩) []).run
      (WBuf.empty .minimum)).2, by decide +kernel, rfl, by decide +kernel⟩, by decide +kernel, rfl, by decide +kernel⟩

/-- **C10 (finding).** A reserved ambisonics mode is not rejected: whatever follows the mode is not even looked at
(it would become the footer), and the element gets the default configuration, one mono channel. -/
theorem C10_reserved_ambisonics_mode_is_accepted (mode : UInt32) (h : 2 ≤ mode) (g : LebGen) (bytes : List UInt8)
    (hw : Writes g (wUleb mode) bytes) (i : Ambisonics) : ReadsBack (Ambisonics.read i) bytes i := by
  refine ReadsBack.of_rt ?_ hw
  unfold Ambisonics.read
  simp only [Rd.bind_eq, Rd.pure_eq]
  have h2 := UInt32.le_iff_toNat_le.mp h
  have e2 : (2 : UInt32).toNat = 2 := rfl
  refine (rt_Uleb g mode).map ?_
  rw [if_neg (by rintro rfl; simp at h2), if_neg (by rintro rfl; simp at h2)]
example : ∃ bytes, Writes .minimum (wUleb 2) bytes := ⟨[2], ⟨.minimum, [2], 8⟩, by decide +kernel, rfl, rfl⟩

/-- **C10 (finding).** The number of layers is narrowed to eight bits before it is validated, so a layout with 257
layers passes; what the writer produces is never read back. -/
theorem C10_many_layers_never_read_back (n : UInt32) (c : ScalableLayout) (h : 8 ≤ c.layers.length) (bytes : List UInt8) :
    ¬ ReadsBack (ScalableLayout.read n) bytes c := by
  intro hr
  have := (hr [] 1 true (by decide)).1
  rw [(C03_read_buffer_is_cursor (ScalableLayout.read n) (bytes ++ []) 1 true (.inl (by decide))).1] at this
  have hs := ScalableLayout.sf n ⟨bytesBits (bytes ++ []), 0, true⟩
  rw [this] at hs
  exact absurd hs.2 (by omega)

private theorem layers_ok (k : Nat) : ∃ bs, (wAll ChannelLayer.write
    (List.replicate k ⟨1, false, false, 0, 1, 0, 0, 0, 0, none⟩)).eval .minimum = (.ok (), bs) ∧ bs.length = 24 * k := by
  induction k with
  | zero => exact ⟨[], rfl, rfl⟩
  | succ k ih =>
    obtain ⟨bs, e, l⟩ := ih
    have h1 : (ChannelLayer.write ⟨1, false, false, 0, 1, 0, 0, 0, 0, none⟩).eval .minimum =
        (.ok (), ((ChannelLayer.write ⟨1, false, false, 0, 1, 0, 0, 0, 0, none⟩).eval .minimum).2) := by decide +kernel
    refine ⟨_, Wr.eval_bind_ok.mpr ⟨_, _, _, h1, e, rfl⟩, ?_⟩
    · rw [List.length_append, l]
      have : ((ChannelLayer.write ⟨1, false, false, 0, 1, 0, 0, 0, 0, none⟩).eval .minimum).2.length = 24 := by decide +kernel
      omega

/-- Not vacuous: 257 layers with one substream each are accepted by the factory's validation and written. -/
example : ∃ bytes, Writes .minimum
    ((ScalableLayout.mk 0 (List.replicate 257 ⟨1, false, false, 0, 1, 0, 0, 0, 0, none⟩)).write 257) bytes := by
  obtain ⟨bs, e, l⟩ := layers_ok 257
  have hv : (ScalableLayout.mk 0 (List.replicate 257 ⟨1, false, false, 0, 1, 0, 0, 0, 0, none⟩)).valid 257 = true := by
    decide +kernel
  have hn : (ScalableLayout.mk 0 (List.replicate 257 ⟨1, false, false, 0, 1, 0, 0, 0, 0, none⟩)).numLayers = 1 := by
    decide +kernel
  generalize List.replicate 257 (ChannelLayer.mk 1 false false 0 1 0 0 0 0 none) = layers at *
  have h0 : (Wr.check true).eval .minimum = (.ok (), []) := rfl
  have h1 : (wU8 1 3).eval .minimum = (.ok (), ((wU8 1 3).eval .minimum).2) := by decide +kernel
  have h2 : (wU8 0 5).eval .minimum = (.ok (), ((wU8 0 5).eval .minimum).2) := by decide +kernel
  have e' : ((ScalableLayout.mk 0 layers).write 257).eval .minimum =
      (.ok (), [] ++ (((wU8 1 3).eval .minimum).2 ++ (((wU8 0 5).eval .minimum).2 ++ bs))) := by
    unfold ScalableLayout.write
    rw [hv, hn]
    exact Wr.eval_bind_ok.mpr ⟨(), _, _, h0, Wr.eval_bind_ok.mpr ⟨(), _, _, h1, Wr.eval_bind_ok.mpr ⟨(), _, _, h2, e, rfl⟩, rfl⟩, rfl⟩
  obtain ⟨bytes, hw, -⟩ := Writes.exists (g := .minimum) (p := (ScalableLayout.mk 0 layers).write 257) (by rw [e']) (by
    rw [e']
    have h1 : ((wU8 1 3).eval .minimum).2.length = 3 := by decide +kernel
    have h2 : ((wU8 0 5).eval .minimum).2.length = 5 := by decide +kernel
    simp only [List.length_append, h1, h2, l, List.length_nil])
  exact ⟨bytes, hw⟩

/-- **C10 (finding).** The same narrowing in ambisonics mono mode: a mapping of 257 channels passes `Create`, and no
configuration with more than 255 channels is ever read back. -/
theorem C10_many_ambisonics_channels_never_read_back (c : AmbisonicsMono) (h : 256 ≤ c.channelMapping.length)
    (bytes : List UInt8) : ¬ ReadsBack AmbisonicsMono.read bytes c := by
  intro hr
  have := (hr [] 1 true (by decide)).1
  rw [(C03_read_buffer_is_cursor AmbisonicsMono.read (bytes ++ []) 1 true (.inl (by decide))).1] at this
  have hs := AmbisonicsMono.sf ⟨bytesBits (bytes ++ []), 0, true⟩
  rw [this] at hs
  exact absurd hs.2 (by omega)
example : AmbisonicsMono.create 1 (List.replicate 257 0) = .ok ⟨1, List.replicate 257 0⟩ := by decide +kernel

/-- **C10 (finding).** `CreateForAmbisonics` compares the number of substreams modulo 256: it accepts an element with
256 substreams too many, which then can never be written. -/
theorem C10_ambisonics_factory_accepts_unwritable (id : UInt32) (rs : UInt8) (cc : UInt32) (ids : List UInt32)
    (c : Ambisonics) (hn : ids.Nodup) (hl : ids.length = c.numSubstreams.toNat + 256) :
    ∃ a, AudioElement.createAmbisonics id rs cc ids c = .ok a ∧ ∀ g bytes, ¬ Writes g a.write bytes := by
  have hs := c.numSubstreams.toNat_lt
  refine ⟨⟨id, 1, rs, cc, ids, [], .ambisonics c⟩, ?_, fun g bytes hw => ?_⟩
  · unfold AudioElement.createAmbisonics
    have hd : decide ids.Nodup = true := by simpa using hn
    have hlen : UInt8.ofNat ids.length = c.numSubstreams := by
      apply UInt8.toNat_inj.mp; rw [UInt8.toNat_ofNat', hl]; omega
    simp [hd, hlen]
  · have he := hw.eval
    unfold AudioElement.write at he
    simp only [Wr.bind_eq] at he
    iterate 10
      rw [Wr.eval_bind_ok] at he
      obtain ⟨_, _, _, -, he, -⟩ := he
    unfold AudioElement.writeConfig at he
    rw [if_neg (by show (1 : UInt8) ≠ 0; decide), if_pos rfl] at he
    simp only [Wr.bind_eq] at he
    obtain ⟨hc, -⟩ := Wr.check_bind_ok he
    have := congrArg UInt32.toNat (eq_of_beq hc)
    rw [UInt32.toNat_ofNat', UInt8.toNat_toUInt32] at this
    omega
example : ((List.range 257).map UInt32.ofNat).Nodup ∧
    ((List.range 257).map UInt32.ofNat).length = (Ambisonics.mono ⟨1, [0]⟩).numSubstreams.toNat + 256 := by
  refine ⟨List.Nodup.map_on ?_ List.nodup_range, by simp [Ambisonics.numSubstreams]⟩
  intro x hx y hy h
  have := congrArg UInt32.toNat h
  rw [UInt32.toNat_ofNat', UInt32.toNat_ofNat'] at this
  rw [List.mem_range] at hx hy
  omega

/-- **C10 (finding).** The writer does not check that substream ids are different (the list is a public member), but
the reader does: this element is written and then rejected. -/
theorem C10_duplicate_substream_written_but_rejected :
    ∃ bytes, Writes .minimum (wObu ⟨1, false, false, 0, 0, none⟩ (AudioElement.write
      ⟨1, 2, 0, 7, [5, 5], [], .objects ⟨2, []⟩⟩) []) bytes ∧
    ((rObu fun _ => AudioElement.read).run (RBuf.create 64 bytes true)).1 = .error .invalidArgument :=
  ⟨[0x08, 9, 1, 0x40, 7, 2, 5, 5, 0, 1, 2], ⟨((wObu ⟨1, false, false, 0, 0, none⟩ (AudioElement.write
      ⟨1, 2, 0, 7, [5, 5], [], .objects ⟨2, []⟩⟩) []).run (WBuf.empty .minimum)).2, by decide +kernel, rfl,
    by decide +kernel⟩, by decide +kernel⟩

end Iamf.Props
