import Verif.Obu.MixProofs
import Verif.Props.AudioElement
/-
  Properties of Mix Presentation OBUs: C11.
-/
namespace Iamf.Props
open Iamf

/-! ## C11: mix presentations -/

/-- A definition of one of the six position types, as the C++ variant holds it. -/
def PositionDefinition (p : ParamDef) : Prop :=
  (∀ s, p.base.schedule = some s → s.Made) ∧
  ((∃ a e d, p.spec = .polar a e d) ∨ (∃ x y z, p.spec = .cart8 x y z) ∨ (∃ x y z, p.spec = .cart16 x y z) ∨
    (∃ a e d a' e' d', p.spec = .dualPolar a e d a' e' d') ∨ (∃ x y z x' y' z', p.spec = .dualCart8 x y z x' y' z') ∨
    ∃ x y z x' y' z', p.spec = .dualCart16 x y z x' y' z')

/-- A mix gain definition. -/
def MixGainDefinition (p : ParamDef) : Prop :=
  (∀ s, p.base.schedule = some s → s.Made) ∧ ∃ d, p.spec = .mixGain d

/-- An element gain offset as the factories make it. -/
inductive BuiltOffset : GainOffset → Prop
  | value (v : Int16) : BuiltOffset (.value v)
  | range (d mn mx : Int16) (c : GainOffset) (h : GainOffset.createRange d mn mx = .ok c) : BuiltOffset c
  | extension (t : UInt8) (b : List UInt8) (c : GainOffset) (h : GainOffset.createExtension t b = .ok c) : BuiltOffset c

/-- The parts of a mix presentation for which C++ offers only factories come from those factories. -/
def BuiltMix (m : MixPresentation) : Prop :=
  ∀ s ∈ m.subMixes, MixGainDefinition s.outputMixGain ∧
    ∀ e ∈ s.elements, MixGainDefinition e.mixGain ∧ (∀ p ∈ e.rendering.params, PositionDefinition p.definition) ∧
      ∀ x, e.rendering.gainOffset = some x → BuiltOffset x

/-- What the bitstream carries of the loudness: optional values only if `info_type` announces them. -/
def carriedLoudness (l : LoudnessInfo) : LoudnessInfo :=
  { l with
    truePeak := if l.infoType &&& 1 = 0 then 0 else l.truePeak
    anchors := if l.infoType &&& 2 = 0 then [] else l.anchors
    extension := if l.infoType &&& 0xfc = 0 then [] else l.extension }

def carriedRendering (c : RenderingConfig) : RenderingConfig :=
  { c with params := c.params.map fun p => ⟨carriedDef p.definition, []⟩ }

def carriedSubMix (s : SubMix) : SubMix :=
  { s with
    elements := s.elements.map fun e => { e with rendering := carriedRendering e.rendering }
    layouts := s.layouts.map fun l => { l with loudness := carriedLoudness l.loudness } }

/-- What the bitstream carries of a mix presentation: the optional fields only if the header announces them. -/
def carriedMix (flag : Bool) (m : MixPresentation) : MixPresentation :=
  { m with
    subMixes := m.subMixes.map carriedSubMix
    optionalFields := if flag then m.optionalFields else none }

private theorem builtOffset_made {x : GainOffset} (h : BuiltOffset x) : x.Made := by
  cases h with
  | value v => trivial
  | range d mn mx c h =>
    unfold GainOffset.createRange at h
    split at h
    next hr => simp only [Except.ok.injEq] at h; subst h; exact hr
    · simp at h
  | extension t b c h =>
    unfold GainOffset.createExtension at h
    split at h
    · simp at h
    next hr =>
      simp only [Except.ok.injEq] at h; subst h
      exact ⟨fun h => hr (.inl h), fun h => hr (.inr h)⟩

private theorem position_made {p : RenderingParam} (h : PositionDefinition p.definition) : p.Made := by
  refine ⟨h.1, ?_⟩
  rcases h.2 with ⟨_, _, _, h⟩ | ⟨_, _, _, h⟩ | ⟨_, _, _, h⟩ | ⟨_, _, _, _, _, _, h⟩ | ⟨_, _, _, _, _, _, h⟩ |
    ⟨_, _, _, _, _, _, h⟩ <;> rw [h] <;> rfl

theorem subMix_made {m : MixPresentation} (h : BuiltMix m) : ∀ s ∈ m.subMixes, s.Made := fun s hs =>
  ⟨fun e he =>
    ⟨⟨fun p hp => position_made (((h s hs).2 e he).2.1 p hp), fun x hx => builtOffset_made (((h s hs).2 e he).2.2 x hx)⟩,
      ((h s hs).2 e he).1.1, ((h s hs).2 e he).1.2⟩,
    (h s hs).1.1, (h s hs).1.2⟩

theorem normalized_carriedMix (flag : Bool) (m : MixPresentation) (h : BuiltMix m) :
    m.normalized flag = carriedMix flag m := by
  unfold MixPresentation.normalized carriedMix
  congr 1
  refine List.map_congr_left fun s hs => ?_
  unfold SubMix.normalized carriedSubMix
  congr 1
  · refine List.map_congr_left fun e he => ?_
    unfold SubMixElement.normalized carriedRendering
    congr 1
    unfold RenderingConfig.normalized
    congr 1
    refine List.map_congr_left fun p hp => ?_
    unfold RenderingParam.normalized
    congr 1
    have := position_made (((h s hs).2 e he).2.1 p hp)
    obtain ⟨⟨b, sp⟩, by'⟩ := p
    cases sp <;> first | rfl | simp [RenderingParam.Made, ParamSpecific.positional] at this
  · refine List.map_congr_left fun l _ => ?_
    unfold MixLayout.normalized carriedLoudness LoudnessInfo.normalized
    congr 1
    simp only [bne_iff_ne, ne_eq, ite_not]
    rfl

/-- **C11 (round trip).** Every mix presentation with at most 256 labels and 28 sub-mixes: if writing the OBU
succeeds, reading the bytes gives back the header, the presentation (apart from fields that the bitstream does not
carry, `carriedMix`) and the footer.  A footer is possible only behind tags. -/
theorem C11_mix_presentation_round_trip (g : LebGen) (h : ObuHeader) (m : MixPresentation) (footer bytes : List UInt8)
    (hte : h.trimEnd = 0) (hts : h.trimStart = 0) (hm : BuiltMix m) (hlab : m.countLabel ≤ 256)
    (hsub : m.subMixes.length ≤ 28) (hf : m.tags = none → footer = [])
    (hw : Writes g (wObu h (m.write h.optionalFieldsFlag) footer) bytes) :
    ReadsBack (rObu fun hd => MixPresentation.read hd.optionalFieldsFlag) bytes
      (h, carriedMix h.optionalFieldsFlag m, footer) := by
  have hmade : m.Made := ⟨hlab, hsub, subMix_made hm⟩
  have := ReadsBack.obu' (derived := fun hd => MixPresentation.read hd.optionalFieldsFlag) hte hts
    (MixPresentation.rt g h.optionalFieldsFlag m footer hmade hf) hw
  rw [normalized_carriedMix _ m hm] at this
  exact this

/-- A presentation with two labels, two sub-mixes, a polar position, a gain offset range, loudness of all kinds,
a reserved layout, tags and optional fields. -/
def exampleMix : MixPresentation :=
  ⟨42, 1, [[0x65, 0x6e]], [[0x41]],
    [⟨[⟨300, [[0x42]], ⟨1, 2, 0, [⟨⟨⟨7, 48000, 0, none⟩, .polar 200 (-95) 9⟩, [1]⟩], some (.range 0 (-256) 256), [9, 9]⟩,
          ⟨⟨8, 48000, 0, none⟩, .mixGain (-100)⟩⟩], ⟨⟨9, 48000, 0, none⟩, .mixGain 0⟩,
        [⟨⟨2, .soundSystem 0 0⟩, ⟨7, -5, -6, -7, [(1, 5), (2, 6)], [1, 2, 3]⟩⟩, ⟨⟨1, .other 33⟩, ⟨0, 1, 2, 3, [], [4]⟩⟩]⟩],
    some [([0x61], [0x62])], some ⟨3, 0, 1, [77]⟩⟩

def exampleMixHeader : ObuHeader := ⟨2, false, true, 0, 0, none⟩

theorem exampleMix_built : BuiltMix exampleMix := by
  intro s hs
  simp only [exampleMix, List.mem_singleton] at hs
  subst hs
  refine ⟨⟨by simp, _, rfl⟩, fun e he => ?_⟩
  simp only [List.mem_singleton] at he
  subst he
  refine ⟨⟨by simp, _, rfl⟩, fun p hp => ?_, fun x hx => ?_⟩
  · simp only [List.mem_singleton] at hp
    subst hp
    exact ⟨by simp, .inl ⟨_, _, _, rfl⟩⟩
  · simp only [Option.some.injEq] at hx
    subst hx
    exact .range 0 (-256) 256 _ (by decide)
example : exampleMixHeader.optionalFieldsFlag = true := by decide

example : ∃ bytes, Writes .minimum
    (wObu exampleMixHeader (exampleMix.write exampleMixHeader.optionalFieldsFlag) [5, 6]) bytes :=
  (Writes.exists (by decide +kernel) (by decide +kernel)).imp fun _ h => h.1

/-- A presentation as small as possible: one sub-mix, one element, a stereo layout; no tags. -/
def smallestMix : MixPresentation :=
  ⟨0, 0, [], [], [⟨[⟨0, [], ⟨0, 0, 0, [], none, []⟩, ⟨⟨1, 48000, 0, none⟩, .mixGain 0⟩⟩], ⟨⟨1, 48000, 0, none⟩, .mixGain 0⟩,
    [⟨⟨2, .soundSystem 0 0⟩, ⟨0, 0, 0, 0, [], []⟩⟩]⟩], none, none⟩

/-- **C11 (what was read is sound).** Whatever bytes the reader accepts as a mix presentation: there is at least one
sub-mix and at most 28, at most 256 labels, every list of annotations has one entry per label, languages are unique,
audio element ids are unique across the whole presentation, every sub-mix has an audio element and a stereo layout,
gain offsets have their default inside their range, and optional fields are there if the header announces them. -/
theorem C11_read_presentation_is_sound (src : List UInt8) (cap : Nat) (pv : Bool) (hc : 0 < cap) (h : ObuHeader)
    (m : MixPresentation) (footer : List UInt8)
    (hr : ((rObu fun hd => MixPresentation.read hd.optionalFieldsFlag).run (RBuf.create cap src pv)).1 = .ok (h, m, footer)) :
    m.subMixes ≠ [] ∧ m.subMixes.length ≤ 28 ∧ m.countLabel ≤ 256 ∧
    m.languages.length = m.countLabel.toNat ∧ m.annotations.length = m.countLabel.toNat ∧ m.languages.Nodup ∧
    (m.subMixes.flatMap fun s => s.elements.map fun e => e.id).Nodup ∧
    (∀ s ∈ m.subMixes, s.elements ≠ [] ∧ (∃ l ∈ s.layouts, l.layout.type = 2 ∧ ∃ r, l.layout.specific = .soundSystem 0 r) ∧
      ∀ e ∈ s.elements, e.annotations.length = m.countLabel.toNat ∧
        ∀ d mn mx, e.rendering.gainOffset = some (.range d mn mx) → mn.toInt ≤ d.toInt ∧ d.toInt ≤ mx.toInt) ∧
    (h.optionalFieldsFlag = true → m.tags.isSome = true ∧ m.optionalFields.isSome = true) := by
  have href := C03_read_buffer_is_cursor (rObu fun hd => MixPresentation.read hd.optionalFieldsFlag) src cap pv (.inl hc)
  rw [href.1] at hr
  have := sf_obuH (Q := fun hd m => MixPresentation.Read hd.optionalFieldsFlag m) (fun hd n _ => MixPresentation.sf _ n)
    ⟨bytesBits src, 0, pv⟩
  rw [hr] at this
  have hm : MixPresentation.Read h.optionalFieldsFlag m := this
  refine ⟨hm.nonempty, hm.made.subMixes, hm.made.labels, hm.languages.2, hm.annotations, hm.languages.1, hm.ids, ?_, hm.optional⟩
  intro s hs
  have hsub := hm.subs s hs
  refine ⟨hsub.nonempty, ?_, fun e he => ⟨hsub.labels e he, fun d mn mx hg => ?_⟩⟩
  · have := hsub.stereo
    unfold hasStereoLayout at this
    rw [List.any_eq_true] at this
    obtain ⟨l, hl, h2⟩ := this
    rw [Bool.and_eq_true, beq_iff_eq] at h2
    refine ⟨l, hl, h2.1, ?_⟩
    have h3 := h2.2
    split at h3
    next s r heq => rw [beq_iff_eq] at h3; rw [heq, h3]; exact ⟨r, rfl⟩
    · simp at h3
  · exact (hsub.made.elements e he).rendering.gain _ hg

example : ((rObu fun hd => MixPresentation.read hd.optionalFieldsFlag).run (RBuf.create 10
    [0x10, 28, 0, 0, 1, 1, 0, 0, 0, 1, 0x80, 0xf7, 2, 0x80, 0, 0, 1, 0x80, 0xf7, 2, 0x80, 0, 0, 1, 0xc0, 0, 0, 0, 0, 0] true)).1 =
    .ok (⟨2, false, false, 0, 0, none⟩, ⟨0, 0, [], [], [⟨[⟨0, [], ⟨0, 0, 0, [], none, []⟩, ⟨⟨1, 48000, 0, none⟩, .mixGain 0⟩⟩],
      ⟨⟨1, 48000, 0, none⟩, .mixGain 0⟩, [⟨⟨3, .other 0⟩, ⟨0, 0, 0, 0, [], []⟩⟩, ⟨⟨2, .soundSystem 0 0⟩, ⟨0, 0, 0, 0, [], []⟩⟩]⟩],
      none, none⟩, []) := by decide +kernel

/-- **C11 (finding).** The reader's limits are not the writer's: every mix presentation with more than 256 labels or
more than 28 sub-mixes that is written successfully is rejected with InvalidArgument when it is read back. -/
theorem C11_too_many_labels_or_sub_mixes_unreadable (g : LebGen) (flag : Bool) (m : MixPresentation) (bytes : List UInt8)
    (hw : Writes g (m.write flag) bytes) (hl : bytes.length ≤ 2097152) (hx : 256 < m.countLabel ∨ 28 < m.subMixes.length)
    (trailing : List UInt8) (cap : Nat) (pv : Bool) (hc : 0 < cap) (n : Int) :
    ((MixPresentation.read flag n).run (RBuf.create cap (bytes ++ trailing) pv)).1 = .error .invalidArgument := by
  rw [(C03_read_buffer_is_cursor (MixPresentation.read flag n) (bytes ++ trailing) cap pv (.inl hc)).1]
  refine MixPresentation.unreadable g flag m (bytesBits bytes) n hw.eval (by rw [bytesBits_length]; omega) hx _ (by simp) ?_
  simp only [RS.rest, List.drop_zero, bytesBits_append]
  exact List.prefix_append _ _

/-- **C11 (finding).** A footer behind a presentation without tags is taken for tags: the two presentations below,
one without tags and with footer `[0, 7]`, the other with empty tags and footer `[7]`, are written as the same bytes. -/
theorem C11_footer_without_tags_is_ambiguous :
    ∃ bytes, Writes .minimum (wObu ⟨2, false, false, 0, 0, none⟩ (smallestMix.write false) [0, 7]) bytes ∧
      Writes .minimum (wObu ⟨2, false, false, 0, 0, none⟩ (MixPresentation.write false { smallestMix with tags := some [] }) [7]) bytes := by
  refine ⟨[0x10, 30, 0, 0, 1, 1, 0, 0, 0, 1, 0x80, 0xf7, 2, 0x80, 0, 0, 1, 0x80, 0xf7, 2, 0x80, 0, 0, 1, 0x80, 0, 0, 0, 0, 0, 0, 7], ?_, ?_⟩
  · exact ⟨⟨.minimum, [0x10, 30, 0, 0, 1, 1, 0, 0, 0, 1, 0x80, 0xf7, 2, 0x80, 0, 0, 1, 0x80, 0xf7, 2, 0x80, 0, 0, 1, 0x80, 0, 0,
      0, 0, 0, 0, 7], 256⟩, by decide +kernel, rfl, rfl⟩
  · exact ⟨⟨.minimum, [0x10, 30, 0, 0, 1, 1, 0, 0, 0, 1, 0x80, 0xf7, 2, 0x80, 0, 0, 1, 0x80, 0xf7, 2, 0x80, 0, 0, 1, 0x80, 0, 0,
      0, 0, 0, 0, 7], 256⟩, by decide +kernel, rfl, rfl⟩

/-- **C11 (finding).** A rendering config whose extension holds a parameter of an unknown type is read as plain
extension bytes, but writing it back puts an additional parameter count in front: the bytes change on every copy. -/
theorem C11_unknown_rendering_parameter_not_preserved :
    (RenderingConfig.read.run (RBuf.create 8 [0, 4, 1, 0xc8, 1, 0] true)).1 = .ok ⟨0, 0, 0, [], none, [1, 0xc8, 1, 0]⟩ ∧
    Writes .minimum (RenderingConfig.write ⟨0, 0, 0, [], none, [1, 0xc8, 1, 0]⟩) [0, 5, 0, 1, 0xc8, 1, 0] :=
  ⟨by decide +kernel, ⟨⟨.minimum, [0, 5, 0, 1, 0xc8, 1, 0], 56⟩, by decide +kernel, rfl, rfl⟩⟩

/-- **C11 (finding).** The result of reading a rendering config depends on the data behind it: when the announced
parameter does not fit into the extension, the config is accepted at the end of the buffer (the parameter is then
taken for extension bytes) but rejected when enough data follows. -/
theorem C11_rendering_config_depends_on_following_data :
    (RenderingConfig.read.run (RBuf.create 8 [0, 2, 1, 3] true)).1 = .ok ⟨0, 0, 0, [], none, [1, 3]⟩ ∧
    (RenderingConfig.read.run (RBuf.create 8 [0, 2, 1, 3, 7, 1, 0x80, 0, 0, 0] true)).1 = .error .invalidArgument :=
  ⟨by decide +kernel, by decide +kernel⟩

/-- **C11 (finding).** The reader adds a stereo layout to a sub-mix that has none, and does not check the tags that
the writer insists on: a presentation that was read need not be writable. -/
theorem C11_read_tags_not_writable :
    (rMixTags.run (RBuf.create 30 (1 :: (contentLanguageName ++ [0, 0x65, 0])) true)).1 = .ok [(contentLanguageName, [0x65])] ∧
    ∀ g, ((wMixTags [(contentLanguageName, [0x65])]).run (WBuf.empty g)).1 = .error .invalidArgument := by
  refine ⟨by decide +kernel, fun g => ?_⟩
  rw [(Wr.run_empty g _).1]
  unfold wMixTags
  simp [Wr.eval_bind, Wr.check, eval_wU8_8, wAll, wMixTag]

/-- **C11 (finding).** A layout whose type does not match its contents ends the program when it is written. -/
theorem C11_mismatched_layout_aborts (g : LebGen) (s r : UInt8) (l : LoudnessInfo) :
    ((MixLayout.write ⟨⟨3, .soundSystem s r⟩, l⟩).run (WBuf.empty g)).1 = .error .abort ∧
    ((MixLayout.write ⟨⟨2, .other r⟩, l⟩).run (WBuf.empty g)).1 = .error .abort := by
  have key : ∀ t : UInt8, t.toNat < 2 ^ 2 → (wU8 t 2).eval g = (.ok (), natBits 2 t.toNat) := by
    intro t ht
    have := eval_wU8 g t 2 (by omega) (by omega)
    rw [if_pos ht] at this
    exact this
  constructor <;> rw [(Wr.run_empty g _).1] <;> unfold MixLayout.write <;>
    simp [Wr.eval_bind, SpecificLayout.write, key]

/-- **C11 (channels of a layout).** Binaural has two channels; every sound system of the standard has the sum of its
loudspeaker layers (upper + middle + lower, plus one or two LFEs); reserved layouts and systems have none. -/
theorem C11_channels_from_layout (l : Layout) (n : Int) (hl : (l.type = 2 ↔ ∃ s r, l.specific = .soundSystem s r)) :
    numChannelsFromLayout l = .ok n ↔
      (l.type = 3 ∧ n = 2) ∨
      (l.type = 2 ∧ ∃ s r, l.specific = .soundSystem s r ∧
        [2, 6, 8, 10, 11, 12, 14, 24, 8, 12, 10, 6, 1, 16, 17][s.toNat]? = some n) := by
  obtain ⟨t, sp⟩ := l
  simp only at hl
  unfold numChannelsFromLayout
  simp only
  by_cases h3 : t = 3
  · subst h3
    simp only [↓reduceIte, Except.ok.injEq, true_and, show ¬ ((3 : UInt8) = 2) by decide, false_and, or_false]
    exact eq_comm
  · rw [if_neg h3]
    by_cases h2 : t = 2
    · subst h2
      obtain ⟨s, r, rfl⟩ := hl.mp rfl
      simp only [↓reduceIte, h3, false_and, true_and, false_or, SpecificLayout.soundSystem.injEq]
      have key : ∀ s : UInt8, soundSystemChannels.lookup s =
          [2, 6, 8, 10, 11, 12, 14, 24, 8, 12, 10, 6, 1, 16, 17][s.toNat]? := by
        intro s
        by_cases hs : s.toNat < 15
        · have : s = 0 ∨ s = 1 ∨ s = 2 ∨ s = 3 ∨ s = 4 ∨ s = 5 ∨ s = 6 ∨ s = 7 ∨ s = 8 ∨ s = 9 ∨ s = 10 ∨ s = 11 ∨
              s = 12 ∨ s = 13 ∨ s = 14 := by
            simp only [← UInt8.toNat_inj]
            simp only [UInt8.reduceToNat]
            omega
          rcases this with rfl | rfl | rfl | rfl | rfl | rfl | rfl | rfl | rfl | rfl | rfl | rfl | rfl | rfl | rfl <;> rfl
        · rw [List.getElem?_eq_none (by simp; omega)]
          have hne : ∀ k : UInt8, k.toNat < 15 → (s == k) = false := by
            intro k hk
            rw [beq_eq_false_iff_ne]
            intro h; subst h; omega
          simp [soundSystemChannels, List.lookup, hne]
      rw [key]
      constructor
      · intro h
        refine ⟨s, r, ⟨rfl, rfl⟩, ?_⟩
        split at h
        next n' heq => simp only [Except.ok.injEq] at h; subst h; exact heq
        · simp at h
      · rintro ⟨s', r', ⟨rfl, rfl⟩, h⟩
        rw [h]
    · rw [if_neg h2]
      simp [h2, h3]

example : numChannelsFromLayout ⟨2, .soundSystem 13 0⟩ = .ok 16 := by decide

end Iamf.Props
