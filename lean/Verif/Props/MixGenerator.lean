import Verif.Cli.MixGenerator
import Verif.Props.ElementGenerator
import Verif.Props.Mix
import Mathlib.Data.List.Forall2
import Mathlib.Data.Rat.Floor
import Mathlib.Tactic.Linarith
import Mathlib.Tactic.NormNum
/-
  C63: mix presentations from metadata.
-/
namespace Iamf.Props
open Iamf

/-! ### Specification -/

/-- Only the lower bits of a number are kept: 16 of them, signed; 8 of them, signed; 8 of them, unsigned. -/
def Low16 (x : Int32) (y : Int16) : Prop := x.toInt % 65536 = y.toInt % 65536
def Low8 (x : Int32) (y : Int8) : Prop := x.toInt % 256 = y.toInt % 256
def LowU8 (x : Int32) (y : UInt8) : Prop := x.toInt % 256 = y.toNat

/-- A position: types are 4 to 9, and the message must be of the same kind. -/
def SaysPosition (m : RenderingParamMetadata) (p : ParamDef) : Prop :=
  (∃ d a e r a' e' r', m.type = 4 ∧ m.content = .polar d a e r ∧ SaysBase d p.base ∧ p.spec = .polar a' e' r' ∧
    Low16 a a' ∧ Low8 e e' ∧ LowU8 r r') ∨
  (∃ d x y z x' y' z', m.type = 5 ∧ m.content = .cart8 d x y z ∧ SaysBase d p.base ∧ p.spec = .cart8 x' y' z' ∧
    Low8 x x' ∧ Low8 y y' ∧ Low8 z z') ∨
  (∃ d x y z x' y' z', m.type = 6 ∧ m.content = .cart16 d x y z ∧ SaysBase d p.base ∧ p.spec = .cart16 x' y' z' ∧
    Low16 x x' ∧ Low16 y y' ∧ Low16 z z') ∨
  (∃ d a e r b f s a' e' r' b' f' s', m.type = 7 ∧ m.content = .dualPolar d a e r b f s ∧ SaysBase d p.base ∧
    p.spec = .dualPolar a' e' r' b' f' s' ∧ Low16 a a' ∧ Low8 e e' ∧ LowU8 r r' ∧ Low16 b b' ∧ Low8 f f' ∧ LowU8 s s') ∨
  (∃ d x y z u v w x' y' z' u' v' w', m.type = 8 ∧ m.content = .dualCart8 d x y z u v w ∧ SaysBase d p.base ∧
    p.spec = .dualCart8 x' y' z' u' v' w' ∧ Low8 x x' ∧ Low8 y y' ∧ Low8 z z' ∧ Low8 u u' ∧ Low8 v v' ∧ Low8 w w') ∨
  (∃ d x y z u v w x' y' z' u' v' w', m.type = 9 ∧ m.content = .dualCart16 d x y z u v w ∧ SaysBase d p.base ∧
    p.spec = .dualCart16 x' y' z' u' v' w' ∧ Low16 x x' ∧ Low16 y y' ∧ Low16 z z' ∧ Low16 u u' ∧ Low16 v v' ∧ Low16 w w')

/-- A gain in steps of 1/256 dB: as it is, or a finite number in range, rounded towards zero; nothing means zero. -/
def SaysQ : QMetadata → Int16 → Prop
  | .q78 v, q => q.toInt = v.toInt
  | .floating x, q => ∃ r : Rat, x = some r ∧ -128 ≤ r ∧ r ≤ 127 + 255 / 256 ∧
      (0 ≤ r → (q.toInt : Rat) ≤ r * 256 ∧ r * 256 < q.toInt + 1) ∧ (r ≤ 0 → (q.toInt : Rat) - 1 < r * 256 ∧ r * 256 ≤ q.toInt)
  | .unset, q => q = 0

/-- A gain offset: a value, or a range with the default in it. -/
def SaysOffset (m : OffsetMetadata) (g : GainOffset) : Prop :=
  (∃ v x, m = .value v ∧ g = .value x ∧ SaysQ v x) ∨
  ∃ d mn mx d' mn' mx', m = .range d mn mx ∧ g = .range d' mn' mx' ∧ SaysQ d d' ∧ SaysQ mn mn' ∧ SaysQ mx mx' ∧
    mn'.toInt ≤ d'.toInt ∧ d'.toInt ≤ mx'.toInt

/-- How an element is rendered: modes and profiles are numbered from 1 in metadata. -/
structure SaysRendering (m : RenderingMetadata) (c : RenderingConfig) : Prop where
  mode : c.headphonesMode.toNat + 1 = m.headphonesMode.toNat ∧ c.headphonesMode.toNat ≤ 3
  profile : c.binauralProfile.toNat + 1 = m.binauralProfile.toNat ∧ c.binauralProfile.toNat ≤ 3
  reserved : c.reserved.toNat = m.reserved.toNat
  params : List.Forall₂ (fun x p => SaysPosition x p.definition ∧ p.bytes = []) m.params c.params
  noOffset : m.gainOffset = none → c.gainOffset = none
  offset : ∀ o, m.gainOffset = some o → ∃ g, c.gainOffset = some g ∧ SaysOffset o g
  extension : c.extensionBytes = m.extensionBytes

/-- A mix gain. -/
def SaysMixGain (m : MixGainMetadata) (p : ParamDef) : Prop :=
  SaysBase m.definition p.base ∧ ∃ d, p.spec = .mixGain d ∧ d.toInt = m.default.toInt

/-- An audio element of a sub-mix: it has one annotation per language. -/
structure SaysSubMixElement (labels : Nat) (m : SubMixElementMetadata) (e : SubMixElement) : Prop where
  id : e.id = m.id
  annotations : e.annotations = m.annotations
  labels : m.annotations.length = labels
  rendering : SaysRendering m.rendering e.rendering
  gain : SaysMixGain m.mixGain e.mixGain

/-- A layout: types and sound systems are numbered from 1 in metadata, and loudspeakers need a message of their own. -/
def SaysLayout (m : MixLayoutMetadata) (l : Layout) : Prop :=
  (m.type = 3 ∧ ∃ s r s' r', m.specific = .ss s r ∧ l = ⟨2, .soundSystem s' r'⟩ ∧ s'.toNat + 1 = s.toNat ∧ s'.toNat ≤ 14 ∧
    r'.toNat = r.toNat) ∨
  ((m.type = 1 ∨ m.type = 2 ∨ m.type = 4) ∧ ∃ r, l.type.toNat + 1 = m.type.toNat ∧ l.specific = .other r ∧
    (∀ x, m.specific = .other x → r.toNat = x.toNat) ∧ ((∀ x, m.specific ≠ .other x) → r = 0))

/-- An anchor: elements are numbered from 1 in metadata. -/
def SaysAnchor (m : UInt32 × Int32) (a : UInt8 × Int16) : Prop :=
  a.1.toNat + 1 = m.1.toNat ∧ a.1.toNat ≤ 2 ∧ a.2.toInt = m.2.toInt

/-- Loudness: the types are bits, and those that are not listed have no value. -/
structure SaysLoudness (m : LoudnessMetadata) (l : LoudnessInfo) : Prop where
  known : ∀ t ∈ m.types, ∃ k < 8, t.toNat = 2 ^ k
  bits : ∀ k < 8, l.infoType.toNat.testBit k = true ↔ ∃ t ∈ m.types, t.toNat = 2 ^ k
  integrated : l.integratedLoudness.toInt = m.integratedLoudness.toInt
  digital : l.digitalPeak.toInt = m.digitalPeak.toInt
  peak : 1 ∈ m.types → l.truePeak.toInt = m.truePeak.toInt
  noPeak : 1 ∉ m.types → l.truePeak = 0
  anchors : 2 ∈ m.types → m.anchors.length ≤ 255 ∧ List.Forall₂ SaysAnchor m.anchors l.anchors
  noAnchors : 2 ∉ m.types → l.anchors = []
  extension : (∃ t ∈ m.types, 4 ≤ t.toNat) → l.extension = m.extension
  noExtension : (∀ t ∈ m.types, t.toNat < 4) → l.extension = []

/-- A sub-mix. -/
structure SaysSubMix (labels : Nat) (m : SubMixMetadata) (s : SubMix) : Prop where
  elements : List.Forall₂ (SaysSubMixElement labels) m.elements s.elements
  gain : SaysMixGain m.outputMixGain s.outputMixGain
  layouts : List.Forall₂ (fun x l => SaysLayout x l.layout ∧ SaysLoudness x.loudness l.loudness) m.layouts s.layouts

/-- The tag with which the encoder signs. -/
def encoderTag : List UInt8 × List UInt8 := ("iamf_encoder".toUTF8.toList, "GitHub/iamf-tools".toUTF8.toList)

/-- The tags: those of the metadata if they, or the one of the encoder, are wanted; that one is the last. -/
structure SaysTags (append : Bool) (m : MixMetadata) (t : Option (List (List UInt8 × List UInt8))) : Prop where
  none : m.includeTags = false → append = false → t = none
  own : m.includeTags = true → append = false → t = some m.tags ∧ m.tags.length ≤ 255
  signed : append = true → t = some (m.tags ++ [encoderTag]) ∧ m.tags.length ≤ 254

/-- A renderer: 1 is none, and 256 is the reserved one. -/
def SaysRenderer (m : UInt32) (r : UInt8) : Prop := m = 1 ∧ r = 0 ∨ m = 256 ∧ r = 255

/-- The optional fields: there are some exactly if the flag of the header is set, and then there are tags, too. -/
structure SaysFields (m : MixMetadata) (t : Option (List (List UInt8 × List UInt8))) (o : Option MixOptionalFields) : Prop where
  absent : m.header.trimmingStatusFlag = false → o = none
  present : m.header.trimmingStatusFlag = true → t.isSome = true ∧ ∃ f, o = some f ∧ f.size.toNat = m.remaining.length + 2 ∧
    SaysRenderer m.loudspeakerRenderer f.loudspeakerRenderer ∧ SaysRenderer m.binauralRenderer f.binauralRenderer ∧ f.remaining = m.remaining

/-- The presentation says what the metadata say. -/
structure SaysMix (append : Bool) (m : MixMetadata) (h : ObuHeader) (p : MixPresentation) : Prop where
  header : SaysHeader ObuType.mixPresentation m.header h
  id : p.id = m.id
  count : p.countLabel.toNat = m.languages.length
  languages : p.languages = m.languages
  annotations : p.annotations = m.annotations ∧ m.annotations.length = m.languages.length
  subMixes : List.Forall₂ (SaysSubMix m.languages.length) m.subMixes p.subMixes
  tags : SaysTags append m p.tags
  fields : SaysFields m p.tags p.optionalFields

/-- The definition of a position, if there is one. -/
def definitionOf : PositionMetadata → Option DefinitionMetadata
  | .polar d .. | .cart8 d .. | .cart16 d .. | .dualPolar d .. | .dualCart8 d .. | .dualCart16 d .. => some d
  | .bytes _ | .unset => none

/-- A size that a message can have. -/
def Short (d : DefinitionMetadata) : Prop := d.subblockDurations.length < 4294967296

/-- Sizes that a message can have. -/
structure PlausibleMix (m : MixMetadata) : Prop where
  languages : m.languages.length < 4294967296
  annotations : m.annotations.length < 4294967296
  definitions : ∀ s ∈ m.subMixes, Short s.outputMixGain.definition ∧ ∀ e ∈ s.elements, e.annotations.length < 4294967296 ∧
    Short e.mixGain.definition ∧ ∀ p ∈ e.rendering.params, ∀ d, definitionOf p.content = some d → Short d

/-! ### Proofs -/

private theorem bind_ok {α β : Type} (x : Except Err α) (f : α → Except Err β) (b : β) :
    (x >>= f) = .ok b ↔ ∃ a, x = .ok a ∧ f a = .ok b := by
  cases x with
  | error e => exact ⟨fun h => by simp [bind, Except.bind] at h, fun ⟨a, h, _⟩ => by simp at h⟩
  | ok a => exact ⟨fun h => ⟨a, rfl, h⟩, fun ⟨a', h, h'⟩ => by cases h; exact h'⟩

private theorem all_ok {α β : Type} (f : α → Except Err β) (R : α → β → Prop) :
    ∀ (xs : List α) (ys : List β), (∀ x ∈ xs, ∀ y, f x = .ok y ↔ R x y) → (castAll f xs = .ok ys ↔ List.Forall₂ R xs ys) := by
  intro xs
  induction xs with
  | nil =>
    intro ys _
    simp only [castAll, Except.ok.injEq, List.forall₂_nil_left_iff]
    exact eq_comm
  | cons x xs ih =>
    intro ys h
    have ih' := fun ys => ih ys fun x hx => h x (List.mem_cons_of_mem _ hx)
    have hx := h x List.mem_cons_self
    simp only [castAll, bind_ok, hx, ih', Except.ok.injEq, List.forall₂_cons_left_iff]
    constructor
    · rintro ⟨y, h1, ys', h2, rfl⟩; exact ⟨y, ys', h1, h2, rfl⟩
    · rintro ⟨y, ys', h1, h2, rfl⟩; exact ⟨y, h1, ys', h2, rfl⟩

private theorem low16 (x : Int32) (y : Int16) : x.toInt16 = y ↔ Low16 x y := by
  unfold Low16
  rw [← Int16.toInt_inj, Int32.toInt_toInt16]
  have h1 := y.le_toInt
  have h2 := y.toInt_lt
  generalize x.toInt = a at *
  generalize y.toInt = b at *
  norm_num [Int.bmod_def] at h1 h2 ⊢
  split <;> omega

private theorem low8 (x : Int32) (y : Int8) : x.toInt8 = y ↔ Low8 x y := by
  unfold Low8
  rw [← Int8.toInt_inj, Int32.toInt_toInt8]
  have h1 := y.le_toInt
  have h2 := y.toInt_lt
  generalize x.toInt = a at *
  generalize y.toInt = b at *
  norm_num [Int.bmod_def] at h1 h2 ⊢
  split <;> omega

private theorem lowU8 (x : Int32) (y : UInt8) : x.toUInt32.toUInt8 = y ↔ LowU8 x y := by
  unfold LowU8
  rw [← UInt8.toNat_inj, UInt32.toNat_toUInt8]
  have h1 : x.toInt = Int.bmod x.toUInt32.toNat 4294967296 := by
    have := BitVec.toInt_eq_toNat_bmod x.toUInt32.toBitVec
    exact this
  have := y.toNat_lt
  rw [h1]
  generalize x.toUInt32.toNat = a at *
  generalize y.toNat = b at *
  norm_num [Int.bmod_def]
  split <;> omega

private theorem polar_ok (c : PositionMetadata) (hd : ∀ d, definitionOf c = some d → Short d) (p : ParamDef) :
    polarFromMetadata c.asPolar = .ok p ↔ ∃ d a e r a' e' r', c = .polar d a e r ∧ SaysBase d p.base ∧ p.spec = .polar a' e' r' ∧
      Low16 a a' ∧ Low8 e e' ∧ LowU8 r r' := by
  unfold polarFromMetadata
  rw [bind_ok]
  obtain ⟨b, s⟩ := p
  cases c
  case polar d a e r =>
    simp only [PositionMetadata.asPolar, metadata_base d (hd d rfl), Except.ok.injEq, ParamDef.mk.injEq, PositionMetadata.polar.injEq]
    constructor
    · rintro ⟨b', hb, rfl, rfl⟩
      exact ⟨d, a, e, r, _, _, _, ⟨rfl, rfl, rfl, rfl⟩, hb, rfl, (low16 _ _).mp rfl, (low8 _ _).mp rfl, (lowU8 _ _).mp rfl⟩
    · rintro ⟨d, a, e, r, a', e', r', ⟨rfl, rfl, rfl, rfl⟩, hb, rfl, h1, h2, h3⟩
      rw [← low16] at h1; rw [← low8] at h2; rw [← lowU8] at h3
      subst h1 h2 h3
      exact ⟨b, hb, rfl, rfl⟩
  all_goals
    simp only [PositionMetadata.asPolar, metadata_base .empty (by decide)]
    constructor
    · rintro ⟨b', hb, -⟩; exact absurd hb (metadata_empty _)
    · rintro ⟨_, _, _, _, _, _, _, h, -⟩; cases h

private theorem cart8_ok (c : PositionMetadata) (hd : ∀ d, definitionOf c = some d → Short d) (p : ParamDef) :
    cart8FromMetadata c.asCart8 = .ok p ↔ ∃ d x y z x' y' z', c = .cart8 d x y z ∧ SaysBase d p.base ∧ p.spec = .cart8 x' y' z' ∧
      Low8 x x' ∧ Low8 y y' ∧ Low8 z z' := by
  unfold cart8FromMetadata
  rw [bind_ok]
  obtain ⟨b, s⟩ := p
  cases c
  case cart8 d a e r =>
    simp only [PositionMetadata.asCart8, metadata_base d (hd d rfl), Except.ok.injEq, ParamDef.mk.injEq, PositionMetadata.cart8.injEq]
    constructor
    · rintro ⟨b', hb, rfl, rfl⟩
      exact ⟨d, a, e, r, _, _, _, ⟨rfl, rfl, rfl, rfl⟩, hb, rfl, (low8 _ _).mp rfl, (low8 _ _).mp rfl, (low8 _ _).mp rfl⟩
    · rintro ⟨d, a, e, r, a', e', r', ⟨rfl, rfl, rfl, rfl⟩, hb, rfl, h1, h2, h3⟩
      rw [← low8] at h1 h2 h3
      subst h1 h2 h3
      exact ⟨b, hb, rfl, rfl⟩
  all_goals
    simp only [PositionMetadata.asCart8, metadata_base .empty (by decide)]
    constructor
    · rintro ⟨b', hb, -⟩; exact absurd hb (metadata_empty _)
    · rintro ⟨_, _, _, _, _, _, _, h, -⟩; cases h

private theorem cart16_ok (c : PositionMetadata) (hd : ∀ d, definitionOf c = some d → Short d) (p : ParamDef) :
    cart16FromMetadata c.asCart16 = .ok p ↔ ∃ d x y z x' y' z', c = .cart16 d x y z ∧ SaysBase d p.base ∧ p.spec = .cart16 x' y' z' ∧
      Low16 x x' ∧ Low16 y y' ∧ Low16 z z' := by
  unfold cart16FromMetadata
  rw [bind_ok]
  obtain ⟨b, s⟩ := p
  cases c
  case cart16 d a e r =>
    simp only [PositionMetadata.asCart16, metadata_base d (hd d rfl), Except.ok.injEq, ParamDef.mk.injEq, PositionMetadata.cart16.injEq]
    constructor
    · rintro ⟨b', hb, rfl, rfl⟩
      exact ⟨d, a, e, r, _, _, _, ⟨rfl, rfl, rfl, rfl⟩, hb, rfl, (low16 _ _).mp rfl, (low16 _ _).mp rfl, (low16 _ _).mp rfl⟩
    · rintro ⟨d, a, e, r, a', e', r', ⟨rfl, rfl, rfl, rfl⟩, hb, rfl, h1, h2, h3⟩
      rw [← low16] at h1 h2 h3
      subst h1 h2 h3
      exact ⟨b, hb, rfl, rfl⟩
  all_goals
    simp only [PositionMetadata.asCart16, metadata_base .empty (by decide)]
    constructor
    · rintro ⟨b', hb, -⟩; exact absurd hb (metadata_empty _)
    · rintro ⟨_, _, _, _, _, _, _, h, -⟩; cases h

private theorem dualPolar_ok (c : PositionMetadata) (hd : ∀ d, definitionOf c = some d → Short d) (p : ParamDef) :
    dualPolarFromMetadata c.asDualPolar = .ok p ↔ ∃ d a e r b f s a' e' r' b' f' s', c = .dualPolar d a e r b f s ∧ SaysBase d p.base ∧
    p.spec = .dualPolar a' e' r' b' f' s' ∧ Low16 a a' ∧ Low8 e e' ∧ LowU8 r r' ∧ Low16 b b' ∧ Low8 f f' ∧ LowU8 s s' := by
  unfold dualPolarFromMetadata
  rw [bind_ok]
  obtain ⟨b, s⟩ := p
  cases c
  case dualPolar d a e r u v w =>
    simp only [PositionMetadata.asDualPolar, metadata_base d (hd d rfl), Except.ok.injEq, ParamDef.mk.injEq, PositionMetadata.dualPolar.injEq]
    constructor
    · rintro ⟨b', hb, rfl, rfl⟩
      exact ⟨d, a, e, r, u, v, w, _, _, _, _, _, _, ⟨rfl, rfl, rfl, rfl, rfl, rfl, rfl⟩, hb, rfl, (low16 _ _).mp rfl, (low8 _ _).mp rfl, (lowU8 _ _).mp rfl,
        (low16 _ _).mp rfl, (low8 _ _).mp rfl, (lowU8 _ _).mp rfl⟩
    · rintro ⟨d, a, e, r, u, v, w, a', e', r', u', v', w', ⟨rfl, rfl, rfl, rfl, rfl, rfl, rfl⟩, hb, rfl, h1, h2, h3, h4, h5, h6⟩
      rw [← low16] at h1 h4; rw [← low8] at h2 h5; rw [← lowU8] at h3 h6
      subst h1 h2 h3 h4 h5 h6
      exact ⟨b, hb, rfl, rfl⟩
  all_goals
    simp only [PositionMetadata.asDualPolar, metadata_base .empty (by decide)]
    constructor
    · rintro ⟨b', hb, -⟩; exact absurd hb (metadata_empty _)
    · rintro ⟨_, _, _, _, _, _, _, _, _, _, _, _, _, h, -⟩; cases h

private theorem dualCart8_ok (c : PositionMetadata) (hd : ∀ d, definitionOf c = some d → Short d) (p : ParamDef) :
    dualCart8FromMetadata c.asDualCart8 = .ok p ↔ ∃ d a e r b f s a' e' r' b' f' s', c = .dualCart8 d a e r b f s ∧ SaysBase d p.base ∧
    p.spec = .dualCart8 a' e' r' b' f' s' ∧ Low8 a a' ∧ Low8 e e' ∧ Low8 r r' ∧ Low8 b b' ∧ Low8 f f' ∧ Low8 s s' := by
  unfold dualCart8FromMetadata
  rw [bind_ok]
  obtain ⟨b, s⟩ := p
  cases c
  case dualCart8 d a e r u v w =>
    simp only [PositionMetadata.asDualCart8, metadata_base d (hd d rfl), Except.ok.injEq, ParamDef.mk.injEq, PositionMetadata.dualCart8.injEq]
    constructor
    · rintro ⟨b', hb, rfl, rfl⟩
      exact ⟨d, a, e, r, u, v, w, _, _, _, _, _, _, ⟨rfl, rfl, rfl, rfl, rfl, rfl, rfl⟩, hb, rfl, (low8 _ _).mp rfl, (low8 _ _).mp rfl, (low8 _ _).mp rfl,
        (low8 _ _).mp rfl, (low8 _ _).mp rfl, (low8 _ _).mp rfl⟩
    · rintro ⟨d, a, e, r, u, v, w, a', e', r', u', v', w', ⟨rfl, rfl, rfl, rfl, rfl, rfl, rfl⟩, hb, rfl, h1, h2, h3, h4, h5, h6⟩
      rw [← low8] at h1 h2 h3 h4 h5 h6
      subst h1 h2 h3 h4 h5 h6
      exact ⟨b, hb, rfl, rfl⟩
  all_goals
    simp only [PositionMetadata.asDualCart8, metadata_base .empty (by decide)]
    constructor
    · rintro ⟨b', hb, -⟩; exact absurd hb (metadata_empty _)
    · rintro ⟨_, _, _, _, _, _, _, _, _, _, _, _, _, h, -⟩; cases h

private theorem dualCart16_ok (c : PositionMetadata) (hd : ∀ d, definitionOf c = some d → Short d) (p : ParamDef) :
    dualCart16FromMetadata c.asDualCart16 = .ok p ↔ ∃ d a e r b f s a' e' r' b' f' s', c = .dualCart16 d a e r b f s ∧ SaysBase d p.base ∧
    p.spec = .dualCart16 a' e' r' b' f' s' ∧ Low16 a a' ∧ Low16 e e' ∧ Low16 r r' ∧ Low16 b b' ∧ Low16 f f' ∧ Low16 s s' := by
  unfold dualCart16FromMetadata
  rw [bind_ok]
  obtain ⟨b, s⟩ := p
  cases c
  case dualCart16 d a e r u v w =>
    simp only [PositionMetadata.asDualCart16, metadata_base d (hd d rfl), Except.ok.injEq, ParamDef.mk.injEq, PositionMetadata.dualCart16.injEq]
    constructor
    · rintro ⟨b', hb, rfl, rfl⟩
      exact ⟨d, a, e, r, u, v, w, _, _, _, _, _, _, ⟨rfl, rfl, rfl, rfl, rfl, rfl, rfl⟩, hb, rfl, (low16 _ _).mp rfl, (low16 _ _).mp rfl, (low16 _ _).mp rfl,
        (low16 _ _).mp rfl, (low16 _ _).mp rfl, (low16 _ _).mp rfl⟩
    · rintro ⟨d, a, e, r, u, v, w, a', e', r', u', v', w', ⟨rfl, rfl, rfl, rfl, rfl, rfl, rfl⟩, hb, rfl, h1, h2, h3, h4, h5, h6⟩
      rw [← low16] at h1 h2 h3 h4 h5 h6
      subst h1 h2 h3 h4 h5 h6
      exact ⟨b, hb, rfl, rfl⟩
  all_goals
    simp only [PositionMetadata.asDualCart16, metadata_base .empty (by decide)]
    constructor
    · rintro ⟨b', hb, -⟩; exact absurd hb (metadata_empty _)
    · rintro ⟨_, _, _, _, _, _, _, _, _, _, _, _, _, h, -⟩; cases h

private theorem position_ok (m : RenderingParamMetadata) (hd : ∀ d, definitionOf m.content = some d → Short d) (p : ParamDef) :
    positionFromMetadata m = .ok p ↔ SaysPosition m p := by
  obtain ⟨t, c⟩ := m
  unfold positionFromMetadata SaysPosition
  by_cases h4 : t = 4
  · subst h4
    simp only [if_true, polar_ok c hd, true_and, show ¬ (4 : UInt32) = 5 by decide, show ¬ (4 : UInt32) = 6 by decide, show ¬ (4 : UInt32) = 7 by decide,
      show ¬ (4 : UInt32) = 8 by decide, show ¬ (4 : UInt32) = 9 by decide, false_and, exists_false, or_false, exists_const]
  by_cases h5 : t = 5
  · subst h5
    simp only [if_true, h4, if_false, cart8_ok c hd, true_and, show ¬ (5 : UInt32) = 6 by decide, show ¬ (5 : UInt32) = 7 by decide,
      show ¬ (5 : UInt32) = 8 by decide, show ¬ (5 : UInt32) = 9 by decide, false_and, exists_false, or_false, false_or, exists_const]
  by_cases h6 : t = 6
  · subst h6
    simp only [if_true, h4, h5, if_false, cart16_ok c hd, true_and, show ¬ (6 : UInt32) = 7 by decide,
      show ¬ (6 : UInt32) = 8 by decide, show ¬ (6 : UInt32) = 9 by decide, false_and, exists_false, or_false, false_or, exists_const]
  by_cases h7 : t = 7
  · subst h7
    simp only [if_true, h4, h5, h6, if_false, dualPolar_ok c hd, true_and,
      show ¬ (7 : UInt32) = 8 by decide, show ¬ (7 : UInt32) = 9 by decide, false_and, exists_false, or_false, false_or, exists_const]
  by_cases h8 : t = 8
  · subst h8
    simp only [if_true, h4, h5, h6, h7, if_false, dualCart8_ok c hd, true_and,
      show ¬ (8 : UInt32) = 9 by decide, false_and, exists_false, or_false, false_or, exists_const]
  by_cases h9 : t = 9
  · subst h9
    simp only [if_true, h4, h5, h6, h7, h8, if_false, dualCart16_ok c hd, true_and, false_and, exists_false, false_or, exists_const]
  simp only [h4, h5, h6, h7, h8, h9, if_false, false_and, exists_false, or_false, exists_const, reduceCtorEq]

private theorem renderingParam_ok (m : RenderingParamMetadata) (hd : ∀ d, definitionOf m.content = some d → Short d) (p : RenderingParam) :
    renderingParamFromMetadata m = .ok p ↔ SaysPosition m p.definition ∧ p.bytes = [] := by
  unfold renderingParamFromMetadata
  obtain ⟨d, b⟩ := p
  simp only [bind_ok, position_ok m hd, Except.ok.injEq, RenderingParam.mk.injEq]
  constructor
  · rintro ⟨x, h1, rfl, h2⟩; exact ⟨h1, h2.symm⟩
  · rintro ⟨h1, h2⟩; exact ⟨d, h1, rfl, h2.symm⟩

private theorem trunc_nonneg (y : Rat) (hy : 0 ≤ y) (q : Int) : truncRat y = q ↔ (q : Rat) ≤ y ∧ y < q + 1 := by
  have e : truncRat y = ⌊y⌋ := by
    unfold truncRat
    rw [Rat.floor_def', Int.tdiv_eq_ediv_of_nonneg (Rat.num_nonneg.mpr hy)]
  rw [e, Int.floor_eq_iff]

private theorem trunc_neg (y : Rat) : truncRat (-y) = - truncRat y := by
  unfold truncRat
  rw [Rat.num_neg_eq_neg_num, Rat.den_neg_eq_den, Int.neg_tdiv]

private theorem trunc_nonpos (y : Rat) (hy : y ≤ 0) (q : Int) : truncRat y = q ↔ (q : Rat) - 1 < y ∧ y ≤ q := by
  have h := trunc_nonneg (-y) (by linarith) (-q)
  rw [trunc_neg, neg_inj] at h
  rw [h]
  push_cast
  constructor
  · rintro ⟨h1, h2⟩; exact ⟨by linarith, by linarith⟩
  · rintro ⟨h1, h2⟩; exact ⟨by linarith, by linarith⟩

private theorem ofInt_eq (n : Int) (h1 : -32768 ≤ n) (h2 : n ≤ 32767) (q : Int16) : Int16.ofInt n = q ↔ n = q.toInt := by
  rw [← Int16.toInt_inj, Int16.toInt_ofInt_of_le (by norm_num; omega) (by norm_num; omega)]

private theorem q_ok (m : QMetadata) (q : Int16) : qFromMetadata m = .ok q ↔ SaysQ m q := by
  cases m with
  | q78 v => exact metadata_castS16 v q
  | unset => simp only [qFromMetadata, SaysQ, Except.ok.injEq]; exact eq_comm
  | floating x =>
    cases x with
    | none => simp [qFromMetadata, floatToQ78', SaysQ]
    | some x =>
      simp only [qFromMetadata, floatToQ78', SaysQ, Option.some.injEq]
      unfold floatToQ78
      by_cases h : -128 ≤ x ∧ x ≤ 127 + 255 / 256
      · rw [if_neg (by rw [not_or, not_lt, not_lt]; exact ⟨h.1, by linarith [h.2]⟩)]
        rw [Except.ok.injEq]
        have hb : -32768 ≤ truncRat (x * 256) ∧ truncRat (x * 256) ≤ 32767 := by
          by_cases h0 : 0 ≤ x
          · have ⟨a, b⟩ := (trunc_nonneg (x * 256) (by linarith) _).mp rfl
            have c : (truncRat (x * 256) : Rat) < 32768 := by linarith [h.2]
            have d : (-1 : Rat) < truncRat (x * 256) := by linarith
            have c' : truncRat (x * 256) < 32768 := by exact_mod_cast c
            have d' : (-1 : Int) < truncRat (x * 256) := by exact_mod_cast d
            omega
          · have ⟨a, b⟩ := (trunc_nonpos (x * 256) (by linarith) _).mp rfl
            have c : (truncRat (x * 256) : Rat) < 1 := by linarith
            have d : (-32769 : Rat) < truncRat (x * 256) := by linarith [h.1]
            have c' : truncRat (x * 256) < 1 := by exact_mod_cast c
            have d' : (-32769 : Int) < truncRat (x * 256) := by exact_mod_cast d
            omega
        rw [ofInt_eq _ hb.1 hb.2]
        constructor
        · intro hq
          exact ⟨x, rfl, h.1, h.2, fun h0 => (trunc_nonneg (x * 256) (by linarith) _).mp hq, fun h0 => (trunc_nonpos (x * 256) (by linarith) _).mp hq⟩
        · rintro ⟨r, rfl, -, -, h1, h2⟩
          by_cases h0 : 0 ≤ x
          · exact (trunc_nonneg (x * 256) (by linarith) _).mpr (h1 h0)
          · exact (trunc_nonpos (x * 256) (by linarith) _).mpr (h2 (by linarith))
      · rw [if_pos (by by_contra hc; rw [not_or, not_lt, not_lt] at hc; exact h ⟨hc.1, by linarith [hc.2]⟩)]
        simp only [reduceCtorEq, false_iff]
        rintro ⟨r, rfl, h1, h2, -⟩
        exact h ⟨h1, h2⟩

private theorem offset_ok (m : OffsetMetadata) (g : GainOffset) : offsetFromMetadata m = .ok g ↔ SaysOffset m g := by
  unfold SaysOffset
  cases m with
  | value v =>
    simp only [offsetFromMetadata, bind_ok, q_ok, Except.ok.injEq, OffsetMetadata.value.injEq, reduceCtorEq, false_and, exists_false, or_false]
    constructor
    · rintro ⟨x, h, rfl⟩; exact ⟨v, x, rfl, rfl, h⟩
    · rintro ⟨v, x, rfl, rfl, h⟩; exact ⟨x, h, rfl⟩
  | range d mn mx =>
    simp only [offsetFromMetadata, bind_ok, q_ok, OffsetMetadata.range.injEq, reduceCtorEq, false_and, exists_false, false_or, GainOffset.createRange]
    constructor
    · rintro ⟨d', h1, mn', h2, mx', h3, h4⟩
      split at h4
      next h5 => cases h4; exact ⟨d, mn, mx, d', mn', mx', ⟨rfl, rfl, rfl⟩, rfl, h1, h2, h3, h5.1, h5.2⟩
      next => cases h4
    · rintro ⟨d, mn, mx, d', mn', mx', ⟨rfl, rfl, rfl⟩, rfl, h1, h2, h3, h5⟩
      exact ⟨d', h1, mn', h2, mx', h3, by rw [if_pos h5]⟩
  | unset => simp [offsetFromMetadata]

private theorem optionalOffset_ok (m : Option OffsetMetadata) (g : Option GainOffset) : optionalOffsetFromMetadata m = .ok g ↔
    (m = none → g = none) ∧ ∀ o, m = some o → ∃ x, g = some x ∧ SaysOffset o x := by
  cases m with
  | none => simp [optionalOffsetFromMetadata, eq_comm]
  | some m =>
    simp only [optionalOffsetFromMetadata, bind_ok, offset_ok, Except.ok.injEq, reduceCtorEq, false_implies, true_and, Option.some.injEq]
    constructor
    · rintro ⟨x, h, rfl⟩ o rfl; exact ⟨x, rfl, h⟩
    · intro h; obtain ⟨x, rfl, h'⟩ := h m rfl; exact ⟨x, h', rfl⟩

private theorem twoBits_ok (m : UInt32) (y : UInt8) : twoBitsFromProto m = .ok y ↔ y.toNat + 1 = m.toNat ∧ y.toNat ≤ 3 := by
  unfold twoBitsFromProto
  by_cases h1 : m = 1
  · subst h1; rw [if_pos rfl, Except.ok.injEq, ← UInt8.toNat_inj]; simp only [UInt8.reduceToNat, UInt32.reduceToNat]; omega
  by_cases h2 : m = 2
  · subst h2; rw [if_neg h1, if_pos rfl, Except.ok.injEq, ← UInt8.toNat_inj]; simp only [UInt8.reduceToNat, UInt32.reduceToNat]; omega
  by_cases h3 : m = 3
  · subst h3; rw [if_neg h1, if_neg h2, if_pos rfl, Except.ok.injEq, ← UInt8.toNat_inj]; simp only [UInt8.reduceToNat, UInt32.reduceToNat]; omega
  by_cases h4 : m = 4
  · subst h4; rw [if_neg h1, if_neg h2, if_neg h3, if_pos rfl, Except.ok.injEq, ← UInt8.toNat_inj]; simp only [UInt8.reduceToNat, UInt32.reduceToNat]; omega
  · rw [if_neg h1, if_neg h2, if_neg h3, if_neg h4]
    simp only [reduceCtorEq, false_iff]
    rw [← UInt32.toNat_inj] at h1 h2 h3 h4
    simp only [UInt32.reduceToNat] at h1 h2 h3 h4
    omega

private theorem rendering_ok (m : RenderingMetadata) (hd : ∀ p ∈ m.params, ∀ d, definitionOf p.content = some d → Short d) (c : RenderingConfig) :
    renderingFromMetadata m = .ok c ↔ SaysRendering m c := by
  unfold renderingFromMetadata
  have hp := fun ps => all_ok renderingParamFromMetadata (fun x p => SaysPosition x p.definition ∧ p.bytes = []) m.params ps
    fun x hx y => renderingParam_ok x (hd x hx) y
  simp only [bind_ok, twoBits_ok, metadata_castU8, hp, optionalOffset_ok, Except.ok.injEq]
  constructor
  · rintro ⟨a, h1, b, h2, r, h3, ps, h4, o, ⟨h5, h6⟩, rfl⟩
    exact ⟨h1, h2, h3, h4, h5, h6, rfl⟩
  · rintro ⟨h1, h2, h3, h4, h5, h6, h7⟩
    obtain ⟨a, b, r, ps, o, x⟩ := c
    exact ⟨a, h1, b, h2, r, h3, ps, h4, o, ⟨h5, h6⟩, by rw [← h7]⟩

private theorem mixGain_ok (m : MixGainMetadata) (hd : Short m.definition) (p : ParamDef) : mixGainFromMetadata m = .ok p ↔ SaysMixGain m p := by
  unfold mixGainFromMetadata SaysMixGain
  simp only [bind_ok, metadata_base m.definition hd, metadata_castS16, Except.ok.injEq]
  obtain ⟨b, s⟩ := p
  constructor
  · rintro ⟨b', h1, d, h2, h⟩; cases h; exact ⟨h1, d, rfl, h2⟩
  · rintro ⟨h1, d, rfl, h2⟩; exact ⟨b, h1, d, h2, rfl⟩

private theorem length_ok (l : List (List UInt8)) (hl : l.length < 4294967296) (n : Nat) (hn : n < 4294967296) :
    UInt32.ofNat l.length = UInt32.ofNat n ↔ l.length = n := by
  rw [← UInt32.toNat_inj, UInt32.toNat_ofNat_of_lt' (by simpa using hl), UInt32.toNat_ofNat_of_lt' (by simpa using hn)]

private theorem subMixElement_ok (n : Nat) (hn : n < 4294967296) (m : SubMixElementMetadata) (ha : m.annotations.length < 4294967296)
    (hg : Short m.mixGain.definition) (hp : ∀ p ∈ m.rendering.params, ∀ d, definitionOf p.content = some d → Short d) (e : SubMixElement) :
    subMixElementFromMetadata (UInt32.ofNat n) m = .ok e ↔ SaysSubMixElement n m e := by
  unfold subMixElementFromMetadata
  simp only [ne_eq, length_ok _ ha _ hn]
  by_cases h : m.annotations.length = n
  · simp only [h, not_true_eq_false, if_false, bind_ok, rendering_ok _ hp, mixGain_ok _ hg, Except.ok.injEq]
    constructor
    · rintro ⟨r, h1, g, h2, rfl⟩; exact ⟨rfl, rfl, h, h1, h2⟩
    · rintro ⟨h1, h2, h3, h4, h5⟩
      obtain ⟨i, a, r, g⟩ := e
      exact ⟨r, h4, g, h5, by rw [← h1, ← h2]⟩
  · simp only [h, not_false_eq_true, if_true, reduceCtorEq, false_iff]
    rintro ⟨-, -, h3, -, -⟩
    exact h h3

private theorem system_ok (m : UInt32) (y : UInt8) : soundSystemFromProto m = .ok y ↔ y.toNat + 1 = m.toNat ∧ y.toNat ≤ 14 := by
  unfold soundSystemFromProto
  by_cases h : 1 ≤ m ∧ m ≤ 15
  · rw [if_pos h]
    have h1 : 1 ≤ m.toNat := h.1
    have h2 : m.toNat ≤ 15 := h.2
    simp only [Except.ok.injEq]
    have e : (m - 1).toNat = m.toNat - 1 := UInt32.toNat_sub_of_le m 1 h.1
    rw [← UInt8.toNat_inj, UInt32.toNat_toUInt8, e]
    omega
  · rw [if_neg h]
    have h' : ¬ (1 ≤ m.toNat ∧ m.toNat ≤ 15) := h
    exact ⟨fun h => by simp at h, fun h => by omega⟩

private theorem other_ok (t : UInt8) (m : SpecificLayoutMetadata) (l : Layout) : otherLayout t m = .ok l ↔
    ∃ r, l.type = t ∧ l.specific = .other r ∧ (∀ x, m = .other x → r.toNat = x.toNat) ∧ ((∀ x, m ≠ .other x) → r = 0) := by
  unfold otherLayout
  simp only [bind_ok, metadata_castU8, Except.ok.injEq]
  obtain ⟨lt, ls⟩ := l
  have key : ∀ r : UInt8, r.toNat = m.asOther.toNat ↔ (∀ x, m = .other x → r.toNat = x.toNat) ∧ ((∀ x, m ≠ .other x) → r = 0) := by
    intro r
    cases m with
    | other x => simp [SpecificLayoutMetadata.asOther]
    | ss a b => simp [SpecificLayoutMetadata.asOther, ← UInt8.toNat_inj]
    | unset => simp [SpecificLayoutMetadata.asOther, ← UInt8.toNat_inj]
  simp only [key, Layout.mk.injEq]
  constructor
  · rintro ⟨r, h, rfl, rfl⟩; exact ⟨r, rfl, rfl, h⟩
  · rintro ⟨r, rfl, rfl, h⟩; exact ⟨r, h, rfl, rfl⟩

private theorem ss_ok (m : SpecificLayoutMetadata) (l : Layout) : ssLayout m = .ok l ↔
    ∃ s r s' r', m = .ss s r ∧ l = ⟨2, .soundSystem s' r'⟩ ∧ s'.toNat + 1 = s.toNat ∧ s'.toNat ≤ 14 ∧ r'.toNat = r.toNat := by
  unfold ssLayout
  simp only [bind_ok, system_ok, metadata_castU8, Except.ok.injEq]
  cases m with
  | ss s r =>
    simp only [SpecificLayoutMetadata.asSs, SpecificLayoutMetadata.ss.injEq]
    constructor
    · rintro ⟨s', ⟨h1, h2⟩, r', h3, rfl⟩; exact ⟨s, r, s', r', ⟨rfl, rfl⟩, rfl, h1, h2, h3⟩
    · rintro ⟨s, r, s', r', ⟨rfl, rfl⟩, rfl, h1, h2, h3⟩; exact ⟨s', ⟨h1, h2⟩, r', h3, rfl⟩
  | other r => simp [SpecificLayoutMetadata.asSs]
  | unset => simp [SpecificLayoutMetadata.asSs]

private theorem layout_ok (m : MixLayoutMetadata) (l : Layout) : layoutFromMetadata m = .ok l ↔ SaysLayout m l := by
  obtain ⟨t, s, lo⟩ := m
  unfold layoutFromMetadata SaysLayout
  simp only
  have hk : ∀ k : UInt8, l.type = k ↔ l.type.toNat + 1 = k.toNat + 1 := fun k => by rw [← UInt8.toNat_inj]; omega
  by_cases h1 : t = 1
  · subst h1
    simp only [if_true, other_ok, show ¬ (1 : UInt32) = 3 by decide, false_and, false_or, true_or, true_and, hk 0]
    rfl
  by_cases h2 : t = 2
  · subst h2
    simp only [if_true, if_false, h1, other_ok, show ¬ (2 : UInt32) = 3 by decide, false_and, false_or, true_or, or_true, true_and, hk 1]
    rfl
  by_cases h4 : t = 4
  · subst h4
    simp only [if_true, if_false, h1, h2, other_ok, show ¬ (4 : UInt32) = 3 by decide, false_and, false_or, or_true, true_and, hk 3]
    rfl
  by_cases h3 : t = 3
  · subst h3
    simp only [if_true, if_false, h1, h2, h4, ss_ok, true_and, or_self, false_and, or_false]
  · simp only [h1, h2, h3, h4, if_false, reduceCtorEq, false_and, or_self]

private theorem anchorElement_ok (m : UInt32) (y : UInt8) : anchorElementFromProto m = .ok y ↔ y.toNat + 1 = m.toNat ∧ y.toNat ≤ 2 := by
  unfold anchorElementFromProto
  by_cases h1 : m = 1
  · subst h1; rw [if_pos rfl, Except.ok.injEq, ← UInt8.toNat_inj]; simp only [UInt8.reduceToNat, UInt32.reduceToNat]; omega
  by_cases h2 : m = 2
  · subst h2; rw [if_neg h1, if_pos rfl, Except.ok.injEq, ← UInt8.toNat_inj]; simp only [UInt8.reduceToNat, UInt32.reduceToNat]; omega
  by_cases h3 : m = 3
  · subst h3; rw [if_neg h1, if_neg h2, if_pos rfl, Except.ok.injEq, ← UInt8.toNat_inj]; simp only [UInt8.reduceToNat, UInt32.reduceToNat]; omega
  · rw [if_neg h1, if_neg h2, if_neg h3]
    simp only [reduceCtorEq, false_iff]
    rw [← UInt32.toNat_inj] at h1 h2 h3
    simp only [UInt32.reduceToNat] at h1 h2 h3
    omega

private theorem anchor_ok (m : UInt32 × Int32) (a : UInt8 × Int16) : anchorFromMetadata m = .ok a ↔ SaysAnchor m a := by
  unfold anchorFromMetadata SaysAnchor
  simp only [bind_ok, anchorElement_ok, metadata_castS16, Except.ok.injEq]
  obtain ⟨x, y⟩ := a
  constructor
  · rintro ⟨x', ⟨h1, h2⟩, y', h3, h⟩; cases h; exact ⟨h1, h2, h3⟩
  · rintro ⟨h1, h2, h3⟩; exact ⟨x, ⟨h1, h2⟩, y, h3, rfl⟩

private theorem bit_ok (m : UInt32) (y : UInt8) : infoBitFromProto m = .ok y ↔ (∃ k < 8, m.toNat = 2 ^ k) ∧ y.toNat = m.toNat := by
  unfold infoBitFromProto
  have e : (m = 1 ∨ m = 2 ∨ m = 4 ∨ m = 8 ∨ m = 16 ∨ m = 32 ∨ m = 64 ∨ m = 128) ↔ ∃ k < 8, m.toNat = 2 ^ k := by
    simp only [← UInt32.toNat_inj, UInt32.reduceToNat]
    constructor
    · rintro (h | h | h | h | h | h | h | h)
      · exact ⟨0, by omega, h⟩
      · exact ⟨1, by omega, h⟩
      · exact ⟨2, by omega, h⟩
      · exact ⟨3, by omega, h⟩
      · exact ⟨4, by omega, h⟩
      · exact ⟨5, by omega, h⟩
      · exact ⟨6, by omega, h⟩
      · exact ⟨7, by omega, h⟩
    · rintro ⟨k, hk, h⟩
      have : k = 0 ∨ k = 1 ∨ k = 2 ∨ k = 3 ∨ k = 4 ∨ k = 5 ∨ k = 6 ∨ k = 7 := by omega
      rcases this with rfl | rfl | rfl | rfl | rfl | rfl | rfl | rfl <;> omega
  by_cases h : ∃ k < 8, m.toNat = 2 ^ k
  · rw [if_pos (e.mpr h), Except.ok.injEq, ← UInt8.toNat_inj, UInt32.toNat_toUInt8]
    obtain ⟨k, hk, hm⟩ := h
    have : m.toNat < 256 := by
      rw [hm]
      calc 2 ^ k ≤ 2 ^ 7 := Nat.pow_le_pow_right (by omega) (by omega)
        _ < 256 := by decide
    rw [Nat.mod_eq_of_lt this]
    exact ⟨fun h => ⟨⟨k, hk, hm⟩, h.symm⟩, fun h => h.2.symm⟩
  · rw [if_neg (fun h' => h (e.mp h'))]
    simp only [reduceCtorEq, false_iff]
    exact fun h' => h h'.1

private theorem byte_ext (x y : UInt8) : x = y ↔ ∀ k < 8, (x.toNat.testBit k = true ↔ y.toNat.testBit k = true) := by
  constructor
  · rintro rfl k _; rfl
  · intro h
    rw [← UInt8.toNat_inj]
    refine Nat.eq_of_testBit_eq fun k => ?_
    by_cases hk : k < 8
    · exact Bool.eq_iff_iff.mpr (h k hk)
    · have hp : 256 ≤ 2 ^ k := by
        calc 256 = 2 ^ 8 := by decide
          _ ≤ 2 ^ k := Nat.pow_le_pow_right (by omega) (by omega)
      rw [Nat.testBit_lt_two_pow (lt_of_lt_of_le x.toNat_lt hp), Nat.testBit_lt_two_pow (lt_of_lt_of_le y.toNat_lt hp)]

private theorem infoType_ok : ∀ (ms : List UInt32) (b y : UInt8), infoTypeFromMetadata ms b = .ok y ↔
    (∀ t ∈ ms, ∃ k < 8, t.toNat = 2 ^ k) ∧ ∀ k < 8, (y.toNat.testBit k = true ↔ b.toNat.testBit k = true ∨ ∃ t ∈ ms, t.toNat = 2 ^ k) := by
  intro ms
  induction ms with
  | nil =>
    intro b y
    simp only [infoTypeFromMetadata, Except.ok.injEq, List.not_mem_nil, false_implies, implies_true, true_and, false_and, exists_false, or_false]
    rw [eq_comm, byte_ext]
  | cons m ms ih =>
    intro b y
    simp only [infoTypeFromMetadata, bind_ok, bit_ok, ih, List.forall_mem_cons, List.exists_mem_cons_iff]
    have key : ∀ t : UInt8, t.toNat = m.toNat → (∃ k < 8, m.toNat = 2 ^ k) → ∀ k < 8,
        ((b ||| t).toNat.testBit k = true ↔ b.toNat.testBit k = true ∨ m.toNat = 2 ^ k) := by
      intro t ht ⟨j, _, hm⟩ k _
      rw [UInt8.toNat_or, Nat.testBit_or, ht, hm, Nat.testBit_two_pow, Bool.or_eq_true, decide_eq_true_eq]
      rw [Nat.pow_right_inj (by omega)]
    constructor
    · rintro ⟨t, ⟨h1, h2⟩, h3, h4⟩
      refine ⟨⟨h1, h3⟩, fun k hk => ?_⟩
      rw [h4 k hk, key t h2 h1 k hk, or_assoc]
    · rintro ⟨⟨h1, h3⟩, h4⟩
      have hlt : m.toNat < 256 := by
        obtain ⟨k, hk, hm⟩ := h1
        rw [hm]
        calc 2 ^ k ≤ 2 ^ 7 := Nat.pow_le_pow_right (by omega) (by omega)
          _ < 256 := by decide
      have ht : m.toUInt8.toNat = m.toNat := by rw [UInt32.toNat_toUInt8, Nat.mod_eq_of_lt hlt]
      refine ⟨m.toUInt8, ⟨h1, ht⟩, h3, fun k hk => ?_⟩
      rw [h4 k hk, key _ ht h1 k hk, or_assoc]

private theorem bit0 (x : UInt8) : x &&& kTruePeak = 0 ↔ ¬ x.toNat.testBit 0 = true := by
  have h : ∀ n < 256, (UInt8.ofNat n &&& kTruePeak = 0 ↔ ¬ n.testBit 0 = true) := by decide +kernel
  simpa using h x.toNat x.toNat_lt

private theorem bit1 (x : UInt8) : x &&& kAnchoredLoudness = 0 ↔ ¬ x.toNat.testBit 1 = true := by
  have h : ∀ n < 256, (UInt8.ofNat n &&& kAnchoredLoudness = 0 ↔ ¬ n.testBit 1 = true) := by decide +kernel
  simpa using h x.toNat x.toNat_lt

private theorem bits2 (x : UInt8) : x &&& kAnyLayoutExtension = 0 ↔ ∀ k < 8, 2 ≤ k → ¬ x.toNat.testBit k = true := by
  have h : ∀ n < 256, (UInt8.ofNat n &&& kAnyLayoutExtension = 0 ↔ ∀ k < 8, 2 ≤ k → ¬ n.testBit k = true) := by decide +kernel
  simpa using h x.toNat x.toNat_lt

private theorem loudness_ok (m : LoudnessMetadata) (l : LoudnessInfo) : loudnessFromMetadata m = .ok l ↔ SaysLoudness m l := by
  unfold loudnessFromMetadata
  simp only [bind_ok, infoType_ok, metadata_castS16, Except.ok.injEq]
  obtain ⟨t, i, d, p, a, e⟩ := l
  -- what the bits of the type mean
  have meaning : (∀ x ∈ m.types, ∃ k < 8, x.toNat = 2 ^ k) → (∀ k < 8, (t.toNat.testBit k = true ↔ ∃ x ∈ m.types, x.toNat = 2 ^ k)) →
      (t &&& kTruePeak = 0 ↔ 1 ∉ m.types) ∧ (t &&& kAnchoredLoudness = 0 ↔ 2 ∉ m.types) ∧
      (t &&& kAnyLayoutExtension = 0 ↔ ∀ x ∈ m.types, x.toNat < 4) := by
    intro hk hb
    have lit : ∀ (n : UInt32) (k : Nat), n.toNat = 2 ^ k → ((∃ x ∈ m.types, x.toNat = 2 ^ k) ↔ n ∈ m.types) := by
      intro n k hn
      constructor
      · rintro ⟨x, hx, h⟩
        rw [← hn, UInt32.toNat_inj] at h
        rw [← h]; exact hx
      · exact fun h => ⟨n, h, hn⟩
    refine ⟨?_, ?_, ?_⟩
    · rw [bit0, hb 0 (by omega), lit 1 0 rfl]
    · rw [bit1, hb 1 (by omega), lit 2 1 rfl]
    · rw [bits2]
      constructor
      · intro h x hx
        obtain ⟨k, hk8, hxk⟩ := hk x hx
        by_contra hc
        refine h k hk8 ?_ ((hb k hk8).mpr ⟨x, hx, hxk⟩)
        by_contra h2
        have : k = 0 ∨ k = 1 := by omega
        rcases this with rfl | rfl <;> omega
      · intro h k hk8 h2 hc
        obtain ⟨x, hx, hxk⟩ := (hb k hk8).mp hc
        have := h x hx
        have h4 : 2 ^ 2 ≤ 2 ^ k := Nat.pow_le_pow_right (by omega) h2
        omega
  have peak : (truePeakFromMetadata t m = .ok p) ↔ (t &&& kTruePeak ≠ 0 → p.toInt = m.truePeak.toInt) ∧ (t &&& kTruePeak = 0 → p = 0) := by
    unfold truePeakFromMetadata
    by_cases h : t &&& kTruePeak = 0
    · simp [h, eq_comm]
    · simp [h, metadata_castS16]
  have anchors : (anchorsFromMetadata t m = .ok a) ↔ (t &&& kAnchoredLoudness ≠ 0 → m.anchors.length ≤ 255 ∧ List.Forall₂ SaysAnchor m.anchors a) ∧
      (t &&& kAnchoredLoudness = 0 → a = []) := by
    unfold anchorsFromMetadata
    have hall := all_ok anchorFromMetadata SaysAnchor m.anchors a fun x _ y => anchor_ok x y
    by_cases h : t &&& kAnchoredLoudness = 0
    · simp [h, eq_comm]
    · by_cases h2 : 255 < m.anchors.length
      · simp only [h, if_false, h2, if_true, reduceCtorEq, false_iff, ne_eq, not_false_eq_true, true_implies, false_implies, and_true]
        intro h3; omega
      · simp only [h, if_false, h2, hall, ne_eq, not_false_eq_true, true_implies, false_implies, and_true]
        exact ⟨fun h => ⟨by omega, h⟩, fun h => h.2⟩
  constructor
  · rintro ⟨t', ⟨hk, hb⟩, i', h1, d', h2, p', h3, a', h4, h⟩
    cases h
    simp only [show (0 : UInt8).toNat = 0 from rfl, Nat.zero_testBit, Bool.false_eq_true, false_or] at hb
    obtain ⟨m1, m2, m3⟩ := meaning hk hb
    obtain ⟨p1, p2⟩ := peak.mp h3
    obtain ⟨a1, a2⟩ := anchors.mp h4
    refine ⟨hk, hb, h1, h2, fun h => p1 (fun hc => m1.mp hc h), fun h => p2 (m1.mpr h), fun h => a1 (fun hc => m2.mp hc h), fun h => a2 (m2.mpr h), ?_, ?_⟩
    · rintro ⟨x, hx, h4x⟩
      show extensionFromMetadata t m = _
      unfold extensionFromMetadata
      rw [if_neg fun hc => by have := m3.mp hc x hx; omega]
    · intro h
      show extensionFromMetadata t m = _
      unfold extensionFromMetadata
      rw [if_pos (m3.mpr h)]
  · rintro ⟨hk, hb, h1, h2, h3, h4, h5, h6, h7, h8⟩
    simp only at hb h1 h2 h3 h4 h5 h6 h7 h8
    obtain ⟨m1, m2, m3⟩ := meaning hk hb
    refine ⟨t, ⟨hk, fun k hk8 => ?_⟩, i, h1, d, h2, p, peak.mpr ⟨fun h => h3 ?_, fun h => h4 (m1.mp h)⟩, a,
      anchors.mpr ⟨fun h => h5 ?_, fun h => h6 (m2.mp h)⟩, ?_⟩
    · simp only [show (0 : UInt8).toNat = 0 from rfl, Nat.zero_testBit, Bool.false_eq_true, false_or]
      exact hb k hk8
    · by_contra hc; exact h (m1.mpr hc)
    · by_contra hc; exact h (m2.mpr hc)
    · unfold extensionFromMetadata
      congr 1
      by_cases h : ∀ x ∈ m.types, x.toNat < 4
      · rw [if_pos (m3.mpr h), h8 h]
      · rw [if_neg fun hc => h (m3.mp hc)]
        push Not at h
        rw [h7 h]

private theorem mixLayout_ok (m : MixLayoutMetadata) (l : MixLayout) : mixLayoutFromMetadata m = .ok l ↔
    SaysLayout m l.layout ∧ SaysLoudness m.loudness l.loudness := by
  unfold mixLayoutFromMetadata
  simp only [bind_ok, layout_ok, loudness_ok, Except.ok.injEq]
  obtain ⟨a, b⟩ := l
  constructor
  · rintro ⟨x, h1, y, h2, h⟩; cases h; exact ⟨h1, h2⟩
  · rintro ⟨h1, h2⟩; exact ⟨a, h1, b, h2, rfl⟩

private theorem subMix_ok (n : Nat) (hn : n < 4294967296) (m : SubMixMetadata) (hg : Short m.outputMixGain.definition)
    (he : ∀ e ∈ m.elements, e.annotations.length < 4294967296 ∧ Short e.mixGain.definition ∧
      ∀ p ∈ e.rendering.params, ∀ d, definitionOf p.content = some d → Short d) (s : SubMix) :
    subMixFromMetadata (UInt32.ofNat n) m = .ok s ↔ SaysSubMix n m s := by
  unfold subMixFromMetadata
  have h1 := fun es => all_ok (subMixElementFromMetadata (UInt32.ofNat n)) (SaysSubMixElement n) m.elements es
    fun x hx y => subMixElement_ok n hn x (he x hx).1 (he x hx).2.1 (he x hx).2.2 y
  have h2 := fun ls => all_ok mixLayoutFromMetadata (fun x l => SaysLayout x l.layout ∧ SaysLoudness x.loudness l.loudness) m.layouts ls
    fun x _ y => mixLayout_ok x y
  simp only [bind_ok, h1, h2, mixGain_ok _ hg, Except.ok.injEq]
  obtain ⟨a, b, c⟩ := s
  constructor
  · rintro ⟨x, h1, y, h2, z, h3, h⟩; cases h; exact ⟨h1, h2, h3⟩
  · rintro ⟨h1, h2, h3⟩; exact ⟨a, h1, b, h2, c, h3, rfl⟩

private theorem build_tag : buildTag = encoderTag := by decide +kernel

private theorem tags_ok (append : Bool) (m : MixMetadata) (t : Option (List (List UInt8 × List UInt8))) :
    optionalTagsFromMetadata append m = .ok t ↔ SaysTags append m t := by
  unfold optionalTagsFromMetadata tagsFromMetadata
  rw [build_tag]
  cases append with
  | true =>
    simp only [Bool.or_true, if_true, bind_ok]
    constructor
    · rintro ⟨x, h1, h2⟩
      cases h2
      split at h1
      · cases h1
      next hl =>
        cases h1
        exact ⟨fun _ h => by simp at h, fun _ h => by simp at h, fun _ => ⟨rfl, by omega⟩⟩
    · rintro ⟨-, -, h⟩
      obtain ⟨rfl, h2⟩ := h rfl
      exact ⟨m.tags ++ [encoderTag], by rw [if_neg (by omega)], rfl⟩
  | false =>
    cases hi : m.includeTags with
    | true =>
      simp only [Bool.or_false, if_true, bind_ok, Bool.false_eq_true, if_false, Nat.add_zero, List.append_nil]
      constructor
      · rintro ⟨x, h1, h2⟩
        cases h2
        split at h1
        · cases h1
        next hl =>
          cases h1
          exact ⟨fun h _ => by simp [hi] at h, fun _ _ => ⟨rfl, by omega⟩, fun h => by simp at h⟩
      · rintro ⟨-, h, -⟩
        obtain ⟨rfl, h2⟩ := h hi rfl
        exact ⟨m.tags, by rw [if_neg (by omega)], rfl⟩
    | false =>
      simp only [Bool.or_false, Bool.false_eq_true, if_false, Except.ok.injEq]
      constructor
      · rintro rfl
        exact ⟨fun _ _ => rfl, fun h _ => by simp [hi] at h, fun h => by simp at h⟩
      · rintro ⟨h, -, -⟩
        exact (h hi rfl).symm

private theorem renderer_ok (m : UInt32) (r : UInt8) : rendererFromProto m = .ok r ↔ SaysRenderer m r := by
  unfold rendererFromProto SaysRenderer
  by_cases h1 : m = 1
  · subst h1; simp [eq_comm]
  by_cases h2 : m = 256
  · subst h2; simp [eq_comm]
  · simp [h1, h2]

private theorem fields_ok (m : MixMetadata) (t : Option (List (List UInt8 × List UInt8))) (o : Option MixOptionalFields) :
    maybeOptionalFields m.header.trimmingStatusFlag t m = .ok o ↔ SaysFields m t o := by
  unfold maybeOptionalFields optionalFieldsFromMetadata
  cases hf : m.header.trimmingStatusFlag with
  | false =>
    simp only [Bool.false_eq_true, if_false, Except.ok.injEq]
    constructor
    · rintro rfl; exact ⟨fun _ => rfl, fun h => by simp [hf] at h⟩
    · rintro ⟨h, -⟩; exact (h hf).symm
  | true =>
    cases ht : t.isSome with
    | false =>
      simp only [if_true, Bool.false_eq_true, if_false, reduceCtorEq, false_iff]
      rintro ⟨-, h⟩
      have := (h hf).1
      rw [ht] at this
      simp at this
    | true =>
      simp only [if_true, bind_ok, renderer_ok]
      constructor
      · rintro ⟨f, ⟨l, h1, b, h2, h3⟩, h4⟩
        cases h4
        split at h3
        · cases h3
        next hl =>
          cases h3
          refine ⟨fun h => by simp [hf] at h, fun _ => ⟨ht, _, rfl, ?_, h1, h2, rfl⟩⟩
          exact UInt32.toNat_ofNat_of_lt' (show _ < 4294967296 by omega)
      · rintro ⟨-, h⟩
        obtain ⟨-, ⟨n, l, b, r⟩, rfl, h1, h2, h3, h4⟩ := h hf
        simp only at h1 h2 h3 h4
        subst h4
        have := n.toNat_lt
        refine ⟨_, ⟨l, h2, b, h3, ?_⟩, rfl⟩
        rw [if_neg (by omega)]
        congr 2
        rw [← UInt32.toNat_inj, UInt32.toNat_ofNat_of_lt' (show _ < 4294967296 by omega), h1]

/-- **C63 (what the presentation says).** Metadata that fit into messages give a presentation exactly if it says what they say: every field is
copied or renumbered, and nothing else is accepted. -/
theorem C63_mix_presentation (append : Bool) (m : MixMetadata) (hm : PlausibleMix m) (h : ObuHeader) (p : MixPresentation) :
    generateMix append m = .ok (h, p) ↔ SaysMix append m h p := by
  unfold generateMix
  have h1 := fun ss => all_ok (subMixFromMetadata (UInt32.ofNat m.languages.length)) (SaysSubMix m.languages.length) m.subMixes ss
    fun x hx y => subMix_ok _ hm.languages x (hm.definitions x hx).1 (hm.definitions x hx).2 y
  have hflag : (headerFromMetadata ObuType.mixPresentation m.header).optionalFieldsFlag = m.header.trimmingStatusFlag := rfl
  simp only [ne_eq, length_ok _ hm.annotations _ hm.languages, hflag]
  by_cases ha : m.annotations.length = m.languages.length
  · simp only [ha, not_true_eq_false, if_false, bind_ok, h1, tags_ok, fields_ok, Except.ok.injEq, Prod.mk.injEq]
    constructor
    · rintro ⟨ss, h2, t, h3, f, h4, rfl, rfl⟩
      exact ⟨(metadata_header _ _ _).mp rfl, rfl, UInt32.toNat_ofNat_of_lt' (by simpa using hm.languages), rfl, ⟨rfl, ha⟩, h2, h3, h4⟩
    · rintro ⟨h2, h3, h4, h5, ⟨h6, -⟩, h7, h8, h9⟩
      obtain ⟨i, c, l, a, ss, t, f⟩ := p
      simp only at h3 h4 h5 h6 h7 h8 h9
      subst h3 h5 h6
      refine ⟨ss, h7, t, h8, f, h9, ((metadata_header _ _ _).mpr h2).symm, ?_⟩
      congr 1
      rw [← UInt32.toNat_inj, UInt32.toNat_ofNat_of_lt' (by simpa using hm.languages), h4]
  · simp only [ha, not_false_eq_true, if_true, reduceCtorEq, false_iff]
    intro hs
    exact ha hs.annotations.2

/-- **C63 (all presentations).** There is one presentation for each of the metadata, in the same order; if one of them is not accepted there is
none at all. -/
theorem C63_mix_presentations (append : Bool) (ms : List MixMetadata) (hm : ∀ m ∈ ms, PlausibleMix m) (out : List (ObuHeader × MixPresentation)) :
    generateMixes append ms = .ok out ↔ List.Forall₂ (fun m o => SaysMix append m o.1 o.2) ms out :=
  all_ok _ _ ms out fun m h o => C63_mix_presentation append m (hm m h) o.1 o.2

private theorem offset_built {m : OffsetMetadata} {g : GainOffset} (h : SaysOffset m g) : BuiltOffset g := by
  obtain ⟨v, x, -, rfl, -⟩ | ⟨d, mn, mx, d', mn', mx', -, rfl, -, -, -, h1, h2⟩ := h
  · exact .value x
  · exact .range d' mn' mx' _ (by unfold GainOffset.createRange; rw [if_pos ⟨h1, h2⟩])

private theorem position_built {m : RenderingParamMetadata} (hd : ∀ d, definitionOf m.content = some d → Short d) {p : ParamDef}
    (h : SaysPosition m p) : PositionDefinition p := by
  obtain ⟨d, _, _, _, _, _, _, -, hc, hb, hs, -⟩ | ⟨d, _, _, _, _, _, _, -, hc, hb, hs, -⟩ | ⟨d, _, _, _, _, _, _, -, hc, hb, hs, -⟩ |
    ⟨d, _, _, _, _, _, _, _, _, _, _, _, _, -, hc, hb, hs, -⟩ | ⟨d, _, _, _, _, _, _, _, _, _, _, _, _, -, hc, hb, hs, -⟩ |
    ⟨d, _, _, _, _, _, _, _, _, _, _, _, _, -, hc, hb, hs, -⟩ := h <;>
    refine ⟨metadata_schedule (hd d (by rw [hc]; rfl)) hb, ?_⟩
  · exact .inl ⟨_, _, _, hs⟩
  · exact .inr (.inl ⟨_, _, _, hs⟩)
  · exact .inr (.inr (.inl ⟨_, _, _, hs⟩))
  · exact .inr (.inr (.inr (.inl ⟨_, _, _, _, _, _, hs⟩)))
  · exact .inr (.inr (.inr (.inr (.inl ⟨_, _, _, _, _, _, hs⟩))))
  · exact .inr (.inr (.inr (.inr (.inr ⟨_, _, _, _, _, _, hs⟩))))

private theorem gain_built {m : MixGainMetadata} (hd : Short m.definition) {p : ParamDef} (h : SaysMixGain m p) : MixGainDefinition p :=
  ⟨metadata_schedule hd h.1, h.2.imp fun _ h => h.1⟩

private theorem partner {α β : Type} {R : α → β → Prop} {xs : List α} {ys : List β} (h : List.Forall₂ R xs ys) : ∀ y ∈ ys, ∃ x ∈ xs, R x y := by
  induction h with
  | nil => simp
  | cons h _ ih =>
    intro y hy
    rcases List.mem_cons.mp hy with rfl | hy
    · exact ⟨_, List.mem_cons_self, h⟩
    · obtain ⟨x, hx, hr⟩ := ih y hy
      exact ⟨x, List.mem_cons_of_mem _ hx, hr⟩

/-- Presentations made from metadata are as the library builds them. -/
theorem metadata_mix_built (append : Bool) (m : MixMetadata) (hm : PlausibleMix m) (h : ObuHeader) (p : MixPresentation)
    (hsays : SaysMix append m h p) : BuiltMix p := by
  intro s hs
  obtain ⟨x, hx, hr⟩ := partner hsays.subMixes s hs
  obtain ⟨d1, d2⟩ := hm.definitions x hx
  refine ⟨gain_built d1 hr.gain, fun e he => ?_⟩
  obtain ⟨y, hy, hre⟩ := partner hr.elements e he
  obtain ⟨-, d3, d4⟩ := d2 y hy
  refine ⟨gain_built d3 hre.gain, fun q hq => ?_, fun o ho => ?_⟩
  · obtain ⟨z, hz, hrz⟩ := partner hre.rendering.params q hq
    exact position_built (d4 z hz) hrz.1
  · cases hgo : y.rendering.gainOffset with
    | none => rw [hre.rendering.noOffset hgo] at ho; cases ho
    | some om =>
      obtain ⟨g', hg', hso⟩ := hre.rendering.offset om hgo
      rw [hg'] at ho
      cases ho
      exact offset_built hso

/-- **C63 (written and read).** If the presentation that was made from metadata, with at most 256 languages and 28 sub-mixes, can be written,
then a reader gets it back: the header, and all that is carried of the presentation. -/
theorem C63_written_presentation_is_read (append : Bool) (m : MixMetadata) (hm : PlausibleMix m) (h : ObuHeader) (p : MixPresentation)
    (hp : generateMix append m = .ok (h, p)) (ht : m.header.trimEnd = 0 ∧ m.header.trimStart = 0) (hl : m.languages.length ≤ 256)
    (hs : m.subMixes.length ≤ 28) (g : LebGen) (bytes : List UInt8) (hw : Writes g (wObu h (p.write h.optionalFieldsFlag) []) bytes) :
    ReadsBack (rObu fun hd => MixPresentation.read hd.optionalFieldsFlag) bytes (h, carriedMix h.optionalFieldsFlag p, []) := by
  have hsays := (C63_mix_presentation append m hm h p).mp hp
  refine C11_mix_presentation_round_trip g h p [] bytes (by rw [hsays.header.trimEnd, ht.1]) (by rw [hsays.header.trimStart, ht.2]) ?_ ?_ ?_
    (fun _ => rfl) hw
  · exact metadata_mix_built append m hm h p hsays
  · show p.countLabel.toNat ≤ 256
    rw [hsays.count]
    exact hl
  · rw [← hsays.subMixes.length_eq]
    exact hs

/-! ### Examples and findings -/

private def gainMetadata (id : UInt32) (d : Int32) : MixGainMetadata := ⟨⟨id, 48000, true, 0, 0, 0, []⟩, d⟩

/-- Two languages; an element at a position, with a gain offset range given as floating point numbers; loudness of all kinds. -/
def richMetadata : MixMetadata where
  id := 42
  languages := [[0x65, 0x6e], [0x66, 0x72]]
  annotations := [[0x41], [0x42]]
  subMixes := [⟨[⟨300, [[0x43], [0x44]], ⟨2, 1, 0, [⟨4, .polar ⟨7, 48000, false, 0, 960, 480, []⟩ 30 (-10) 5⟩],
      some (.range (.floating (some (-1 / 3))) (.q78 (-256)) .unset), [9]⟩, gainMetadata 8 (-100)⟩], gainMetadata 9 0,
    [⟨3, .ss 1 0, ⟨[1, 2, 4], -5, -6, -7, [(2, 11), (1, 12)], [1, 2]⟩⟩, ⟨4, .unset, ⟨[], 1, 2, 3, [(1, 1)], [3]⟩⟩]⟩]
  includeTags := true
  tags := [([0x61], [0x62])]
  loudspeakerRenderer := 1
  binauralRenderer := 256
  remaining := [77]
  header := ⟨false, true, false, 0, 0, []⟩

/-- What comes of it. -/
def richMix : MixPresentation :=
  ⟨42, 2, [[0x65, 0x6e], [0x66, 0x72]], [[0x41], [0x42]],
    [⟨[⟨300, [[0x43], [0x44]], ⟨1, 0, 0, [⟨⟨⟨7, 48000, 0, some ⟨960, 480, 2, []⟩⟩, .polar 30 (-10) 5⟩, []⟩],
        some (.range (-85) (-256) 0), [9]⟩, ⟨⟨8, 48000, 0, none⟩, .mixGain (-100)⟩⟩], ⟨⟨9, 48000, 0, none⟩, .mixGain 0⟩,
      [⟨⟨2, .soundSystem 0 0⟩, ⟨7, -5, -6, -7, [(1, 11), (0, 12)], [1, 2]⟩⟩, ⟨⟨3, .other 0⟩, ⟨0, 1, 2, 0, [], []⟩⟩]⟩],
    some [([0x61], [0x62]), encoderTag], some ⟨3, 0, 255, [77]⟩⟩

/-- **C63 (example).** The metadata above are plausible, the presentation below comes of them, and it can be written. -/
theorem C63_example : PlausibleMix richMetadata ∧ generateMix true richMetadata = .ok (⟨2, false, true, 0, 0, none⟩, richMix) ∧
    ∃ bytes, Writes .minimum (wObu ⟨2, false, true, 0, 0, none⟩ (richMix.write true) []) bytes := by
  refine ⟨⟨by decide, by decide, ?_⟩, by decide +kernel, (Writes.exists (by decide +kernel) (by decide +kernel)).imp fun _ h => h.1⟩
  intro s hs
  simp only [richMetadata, List.mem_singleton] at hs
  subst hs
  refine ⟨by simp [Short, gainMetadata], fun e he => ?_⟩
  simp only [List.mem_singleton] at he
  subst he
  refine ⟨by simp, by simp [Short, gainMetadata], fun p hp d hd => ?_⟩
  simp only [List.mem_singleton] at hp
  subst hp
  simp only [definitionOf, Option.some.injEq] at hd
  subst hd
  simp [Short]

/-- **C63 (finding).** Tags that the metadata say to leave out are written all the same as soon as the encoder signs. -/
theorem C63_left_out_tags_are_written (m : MixMetadata) (hm : PlausibleMix m) (hi : m.includeTags = false) (h : ObuHeader) (p : MixPresentation)
    (hp : generateMix true m = .ok (h, p)) : p.tags = some (m.tags ++ [encoderTag]) :=
  (((C63_mix_presentation true m hm h p).mp hp).tags.signed rfl).1

example : ∃ h p, generateMix true { richMetadata with includeTags := false } = .ok (h, p) ∧ ([0x61], [0x62]) ∈ p.tags.getD [] :=
  ⟨⟨2, false, true, 0, 0, none⟩, richMix, by decide +kernel, by decide +kernel⟩

/-- **C63 (finding).** Positions are not checked: an azimuth of 65566 degrees is one of 30 degrees, and a distance of -1 is one of 255. -/
theorem C63_positions_wrap (d : DefinitionMetadata) (hd : Short d) (b : ParamBase) (hb : SaysBase d b) :
    positionFromMetadata ⟨4, .polar d 65566 266 (-1)⟩ = .ok ⟨b, .polar 30 10 255⟩ := by
  rw [position_ok _ (by simp only [definitionOf, Option.some.injEq]; rintro _ rfl; exact hd)]
  exact .inl ⟨d, _, _, _, 30, 10, 255, rfl, rfl, hb, rfl, by unfold Low16; decide, by unfold Low8; decide, by unfold LowU8; decide⟩

/-- **C63 (finding).** Presentations that cannot be written are made without complaint: the stereo layout may be missing, and an element may be
in the mix twice. -/
theorem C63_unwritable_presentations_are_made :
    (∃ h p, generateMix false { richMetadata with subMixes := richMetadata.subMixes.map fun s => { s with layouts := [] } } = .ok (h, p) ∧
      ((p.write true).run (WBuf.empty .minimum)).1 = .error .invalidArgument) ∧
    ∃ h p, generateMix false { richMetadata with subMixes := richMetadata.subMixes ++ richMetadata.subMixes } = .ok (h, p) ∧
      ((p.write true).run (WBuf.empty .minimum)).1 = .error .invalidArgument := by
  refine ⟨⟨⟨2, false, true, 0, 0, none⟩, { richMix with subMixes := richMix.subMixes.map fun s => { s with layouts := [] }, tags := some [([0x61], [0x62])] },
    by decide +kernel, by decide +kernel⟩, ⟨⟨2, false, true, 0, 0, none⟩, { richMix with subMixes := richMix.subMixes ++ richMix.subMixes, tags := some [([0x61], [0x62])] },
    by decide +kernel, by decide +kernel⟩⟩

end Iamf.Props
