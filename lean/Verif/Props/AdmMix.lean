import Verif.Cli.AdmMix
import Verif.Cli.Processor
import Verif.Props.MixGenerator

/-!
# C68: mix presentations for ADM

The metadata that are made for a mix of ADM objects are accepted, and the presentation has the objects' elements with their gains, a stereo
layout and a layout for each of the first three objects that ask for one.
-/

namespace Iamf.Props
open Iamf

/-! ### Specification -/

/-- Specification: the layout in the bitstream for an input layout: sound system A to J or mono, or binaural. -/
def systemOf : InputLayout → Option Layout
  | .mono => some ⟨2, .soundSystem 12 0⟩
  | .stereo => some ⟨2, .soundSystem 0 0⟩
  | .l51 => some ⟨2, .soundSystem 1 0⟩
  | .l512 => some ⟨2, .soundSystem 2 0⟩
  | .l514 => some ⟨2, .soundSystem 3 0⟩
  | .l71 => some ⟨2, .soundSystem 8 0⟩
  | .l714 => some ⟨2, .soundSystem 9 0⟩
  | .lfe => some ⟨2, .soundSystem 9 0⟩
  | .binaural => some ⟨3, .other 0⟩
  | _ => none

/-- Specification: an optional value as fixed point number. -/
def SaysOptional (x : Option (Option Rat)) (q : Option Int16) : Prop := match x, q with
  | none, none => True
  | some x, some q => floatToQ78' x = .ok q
  | _, _ => False

/-- Specification: the loudness of ADM: integrated, true peak if there is one, and that of dialogue as an anchor if there is one. -/
def SaysAdmLoudness (l : AdmLoudness) (i : LoudnessInfo) : Prop := ∃ p d, floatToQ78' l.integrated = .ok i.integratedLoudness ∧
  SaysOptional l.truePeak p ∧ SaysOptional l.dialogue d ∧
  i = ⟨(if p.isSome then 1 else 0) + (if d.isSome then 2 else 0), i.integratedLoudness, 0, p.getD 0, (d.toList.map fun d => (1, d)), []⟩

/-- Specification: the element of the object with its label and its gain, of the common rate. -/
def SaysAdmElement (rate : UInt32) (o : AdmMixObject) (e : SubMixElement) : Prop := ∃ g, floatToQ78' o.gain = .ok g ∧
  e = ⟨o.elementId, [o.label], ⟨1, 0, 0, [], none, []⟩, ⟨⟨0, rate, 0, none⟩, .mixGain g⟩⟩

/-- Specification: the layouts that objects ask for. -/
def wantedLayouts (os : List AdmMixObject) : List Layout :=
  os.filterMap fun o => match inputLayoutFromPackFormat o.pack with
    | .ok l => if l = .stereo then none else systemOf l
    | .error _ => none

/-! ### Parts -/

private theorem bind_ok {α β : Type} (x : Except Err α) (f : α → Except Err β) (b : β) :
    (x >>= f) = .ok b ↔ ∃ a, x = .ok a ∧ f a = .ok b := by
  cases x <;> simp [bind, Except.bind]

private theorem cast_back (x : Int16) : castS16 x.toInt32 = .ok x := by
  unfold castS16
  have h : (x.toInt32).toInt = x.toInt := Int16.toInt_toInt32 x
  have h1 := Int16.le_toInt x
  have h2 := Int16.toInt_lt x
  rw [if_pos]
  · exact congrArg _ (Int16.toInt16_toInt32 x)
  · rw [Int32.le_iff_toInt_le, Int32.le_iff_toInt_le, h]
    exact ⟨by simpa using h1, by have : (32767 : Int32).toInt = 32767 := rfl; omega⟩

private theorem cast_zero : castS16 0 = .ok 0 := by decide +kernel

private theorem optional_ok (x : Option (Option Rat)) (q : Option Int16) : optionalQ78 x = .ok q ↔ SaysOptional x q := by
  cases x with
  | none => cases q <;> simp [optionalQ78, SaysOptional]
  | some x => cases q <;> simp [optionalQ78, SaysOptional, bind_ok]

private theorem loudness_made (l : AdmLoudness) (m : LoudnessMetadata) (h : admLoudness l = .ok m) :
    ∃ i, loudnessFromMetadata m = .ok i ∧ SaysAdmLoudness l i := by
  simp only [admLoudness, bind_ok, optional_ok, Except.ok.injEq] at h
  obtain ⟨i, h1, p, h2, d, h3, rfl⟩ := h
  cases p with
  | none =>
    cases d with
    | none =>
      refine ⟨⟨0, i, 0, 0, [], []⟩, ?_, none, none, h1, h2, h3, rfl⟩
      simp [loudnessFromMetadata, infoTypeFromMetadata, cast_back, cast_zero, truePeakFromMetadata, anchorsFromMetadata, extensionFromMetadata, bind,
        Except.bind, kTruePeak, kAnchoredLoudness]
    | some d =>
      refine ⟨⟨2, i, 0, 0, [(1, d)], []⟩, ?_, none, some d, h1, h2, h3, rfl⟩
      simp [loudnessFromMetadata, infoTypeFromMetadata, infoBitFromProto, cast_back, cast_zero, truePeakFromMetadata, anchorsFromMetadata,
        extensionFromMetadata, bind, Except.bind, kTruePeak, kAnchoredLoudness, castAll, anchorFromMetadata, anchorElementFromProto]
  | some p =>
    cases d with
    | none =>
      refine ⟨⟨1, i, 0, p, [], []⟩, ?_, some p, none, h1, h2, h3, rfl⟩
      simp [loudnessFromMetadata, infoTypeFromMetadata, infoBitFromProto, cast_back, cast_zero, truePeakFromMetadata, anchorsFromMetadata,
        extensionFromMetadata, bind, Except.bind, kTruePeak, kAnchoredLoudness]
      rfl
    | some d =>
      refine ⟨⟨3, i, 0, p, [(1, d)], []⟩, ?_, some p, some d, h1, h2, h3, rfl⟩
      simp [loudnessFromMetadata, infoTypeFromMetadata, infoBitFromProto, cast_back, cast_zero, truePeakFromMetadata, anchorsFromMetadata,
        extensionFromMetadata, bind, Except.bind, kTruePeak, kAnchoredLoudness, castAll, anchorFromMetadata, anchorElementFromProto]
      rfl

private theorem says_unique (l : AdmLoudness) (i j : LoudnessInfo) (hi : SaysAdmLoudness l i) (hj : SaysAdmLoudness l j) : i = j := by
  obtain ⟨p, d, a1, a2, a3, a4⟩ := hi
  obtain ⟨p', d', b1, b2, b3, b4⟩ := hj
  rw [← optional_ok] at a2 a3 b2 b3
  rw [a1] at b1; rw [a2] at b2; rw [a3] at b3
  cases b2; cases b3
  rw [a4, b4, Except.ok.inj b1]

private theorem element_made (rate : UInt32) (o : AdmMixObject) (m : SubMixElementMetadata) (h : admSubMixElement rate o = .ok m) :
    ∃ e, subMixElementFromMetadata 1 m = .ok e ∧ SaysAdmElement rate o e := by
  simp only [admSubMixElement, bind_ok, Except.ok.injEq] at h
  obtain ⟨l, -, g, hg, rfl⟩ := h
  refine ⟨_, ?_, g, hg, rfl⟩
  have hb : baseFromMetadata (admGainDefinition rate) = .ok ⟨0, rate, 0, none⟩ := rfl
  simp only [subMixElementFromMetadata, mixGainFromMetadata, hb, cast_back, bind, Except.bind]
  rfl

private theorem layout_made (loud : AdmLoudness) (l : InputLayout) (m : MixLayoutMetadata) (h : admLayout loud l = .ok m) :
    ∃ x, mixLayoutFromMetadata m = .ok x ∧ systemOf l = some x.layout ∧ SaysAdmLoudness loud x.loudness := by
  unfold admLayout at h
  split at h
  · rename_i hl
    simp only [bind_ok, Except.ok.injEq] at h
    obtain ⟨i, h1, rfl⟩ := h
    obtain ⟨j, h2, h3⟩ := loudness_made loud i h1
    refine ⟨⟨⟨3, .other 0⟩, j⟩, ?_, by rw [hl]; rfl, h3⟩
    have : layoutFromMetadata ⟨4, .other 0, i⟩ = .ok ⟨3, .other 0⟩ := rfl
    simp [mixLayoutFromMetadata, this, h2, bind, Except.bind]
  · simp only [bind_ok, Except.ok.injEq] at h
    obtain ⟨s, hs, i, h1, rfl⟩ := h
    obtain ⟨j, h2, h3⟩ := loudness_made loud i h1
    have : ∃ x, systemOf l = some x ∧ layoutFromMetadata ⟨3, .ss s 0, i⟩ = .ok x := by
      have e : layoutFromMetadata ⟨3, .ss s 0, i⟩ = ssLayout (.ss s 0) := by simp [layoutFromMetadata]
      rw [e]
      cases l <;> cases hs <;> exact ⟨_, rfl, by decide +kernel⟩
    obtain ⟨x, hy, hx⟩ := this
    exact ⟨⟨x, j⟩, by simp [mixLayoutFromMetadata, hx, h2, bind, Except.bind], hy, h3⟩

private theorem all_made {α β γ : Type} (f : α → Except Err β) (g : β → Except Err γ) (P : α → γ → Prop)
    (h : ∀ a b, f a = .ok b → ∃ c, g b = .ok c ∧ P a c) (as : List α) (bs : List β) (hb : castAll f as = .ok bs) :
    ∃ cs, castAll g bs = .ok cs ∧ List.Forall₂ P as cs := by
  induction as generalizing bs with
  | nil => cases hb; exact ⟨[], rfl, .nil⟩
  | cons a as ih =>
    simp only [castAll, bind_ok, Except.ok.injEq] at hb
    obtain ⟨b, h1, bs', h2, rfl⟩ := hb
    obtain ⟨c, h3, h4⟩ := h a b h1
    obtain ⟨cs, h5, h6⟩ := ih bs' h2
    exact ⟨c :: cs, by simp [castAll, h3, h5, bind, Except.bind], .cons h4 h6⟩

private theorem layouts_made (loud : AdmLoudness) (i : LoudnessInfo) (hi : SaysAdmLoudness loud i) (os : List AdmMixObject) (n : Nat)
    (ms : List MixLayoutMetadata) (h : admLayouts loud n os = .ok ms) :
    castAll mixLayoutFromMetadata ms = .ok (((wantedLayouts os).take (4 - n)).map fun l => ⟨l, i⟩) := by
  induction os generalizing n ms with
  | nil => cases h; simp [wantedLayouts, castAll]
  | cons o os ih =>
    unfold admLayouts at h
    split at h
    · rename_i hn
      cases h
      rw [show 4 - n = 0 by omega]
      rfl
    · rename_i hn
      simp only [bind_ok] at h
      obtain ⟨l, hl, h⟩ := h
      split at h
      · rename_i hw
        simp only [bind_ok, Except.ok.injEq] at h
        obtain ⟨x, h1, xs, h2, rfl⟩ := h
        obtain ⟨y, h3, h4, h5⟩ := layout_made loud l x h1
        have e : wantedLayouts (o :: os) = y.layout :: wantedLayouts os := by
          have : l ≠ .stereo := fun e => by rw [e] at hw; cases hw
          simp [wantedLayouts, List.filterMap_cons, hl, this, h4]
        rw [e, show 4 - n = (4 - (n + 1)) + 1 by omega, List.take_succ_cons, List.map_cons]
        simp only [castAll, h3, ih _ _ h2, bind, Except.bind]
        rw [← says_unique loud _ _ h5 hi]
      · rename_i hw
        have e : wantedLayouts (o :: os) = wantedLayouts os := by
          have : (if l = .stereo then none else systemOf l) = none := by cases l <;> first | rfl | exact absurd rfl hw
          simp [wantedLayouts, List.filterMap_cons, hl, this]
        rw [e]
        exact ih _ _ h

/-! ### Presentations -/

/-- C68: the metadata made for a mix are accepted; the presentation has, in one sub-mix, the elements of the objects in order, a mix gain of 0 dB
for all, a stereo layout and the layouts of the first three objects that ask for one, all with the loudness of the programme. -/
theorem C68_presentation (append : Bool) (id rate : UInt32) (os : List AdmMixObject) (loud : AdmLoudness) (m : MixMetadata)
    (h : populateMix id rate os loud = .ok m) :
    ∃ p es i, generateMix append m = .ok (⟨2, false, false, 0, 0, none⟩, p) ∧ List.Forall₂ (SaysAdmElement rate) os es ∧ SaysAdmLoudness loud i ∧
      p = ⟨id, 1, ["en-us".toUTF8.toList], ["test_mix_pres".toUTF8.toList], [⟨es, ⟨⟨0, rate, 0, none⟩, .mixGain 0⟩,
        ⟨⟨2, .soundSystem 0 0⟩, i⟩ :: ((wantedLayouts os).take 3).map fun l => ⟨l, i⟩⟩], if append then some [buildTag] else none, none⟩ := by
  simp only [populateMix, bind_ok, Except.ok.injEq] at h
  obtain ⟨ems, h1, st, h2, ls, h3, rfl⟩ := h
  obtain ⟨es, h4, h5⟩ := all_made _ _ _ (element_made rate) os ems h1
  obtain ⟨x, h6, h7, h8⟩ := layout_made loud .stereo st h2
  have h9 := layouts_made loud x.loudness h8 os 1 ls h3
  have hx : x = ⟨⟨2, .soundSystem 0 0⟩, x.loudness⟩ := by
    have : x.layout = ⟨2, .soundSystem 0 0⟩ := (Option.some.inj h7).symm
    rw [← this]
  refine ⟨_, es, x.loudness, ?_, h5, h8, rfl⟩
  have hb : mixGainFromMetadata ⟨admGainDefinition rate, 0⟩ = .ok ⟨⟨0, rate, 0, none⟩, .mixGain 0⟩ := rfl
  have hs : subMixFromMetadata 1 ⟨ems, ⟨admGainDefinition rate, 0⟩, st :: ls⟩ = .ok ⟨es, ⟨⟨0, rate, 0, none⟩, .mixGain 0⟩,
      ⟨⟨2, .soundSystem 0 0⟩, x.loudness⟩ :: ((wantedLayouts os).take 3).map fun l => ⟨l, x.loudness⟩⟩ := by
    rw [hx] at h6
    simp only [subMixFromMetadata, h4, hb, castAll, h6, h9, bind, Except.bind]
  have e1 : "en-us".toUTF8.toList = [0x65, 0x6e, 0x2d, 0x75, 0x73] := by decide +kernel
  have e2 : "test_mix_pres".toUTF8.toList = [0x74, 0x65, 0x73, 0x74, 0x5f, 0x6d, 0x69, 0x78, 0x5f, 0x70, 0x72, 0x65, 0x73] := by decide +kernel
  rw [e1, e2]
  unfold generateMix
  simp only [List.length_cons, List.length_nil]
  cases append <;> simp [castAll, hs, bind, Except.bind, optionalTagsFromMetadata, tagsFromMetadata, maybeOptionalFields] <;> rfl

/-- C68: metadata are made only if all gains are numbers that 8.8 bits can hold. -/
theorem C68_gains_fit (id rate : UInt32) (os : List AdmMixObject) (loud : AdmLoudness) (m : MixMetadata)
    (h : populateMix id rate os loud = .ok m) : ∀ o ∈ os, ∃ x, o.gain = some x ∧ -128 ≤ x ∧ x ≤ 128 - 1 / 256 := by
  simp only [populateMix, bind_ok, Except.ok.injEq] at h
  obtain ⟨ems, h1, -⟩ := h
  obtain ⟨es, -, h5⟩ := all_made _ _ _ (element_made rate) os ems h1
  clear h1
  induction h5 with
  | nil => exact fun o ho => (by cases ho)
  | cons he _ ih =>
    intro o ho
    rcases List.mem_cons.mp ho with rfl | ho
    · obtain ⟨g, hg, -⟩ := he
      cases hx : o.gain with
      | none => rw [hx] at hg; cases hg
      | some x =>
        rw [hx] at hg
        refine ⟨x, rfl, ?_⟩
        simp only [floatToQ78', floatToQ78] at hg
        split at hg
        · cases hg
        · rename_i hn
          rw [not_or, Rat.not_lt, Rat.not_lt] at hn
          exact hn
    · exact ih o ho

/-- C68 (finding): all mix gains have the same parameter id but not the same default, so the presentation of any object with a gain other than
0 dB is refused when its parameters are collected, be it by the encoder or the decoder. -/
theorem C68_gains_clash (id rate : UInt32) (o : AdmMixObject) (loud : AdmLoudness) (m : MixMetadata)
    (h : populateMix id rate [o] loud = .ok m) (g : Int16) (hg : floatToQ78' o.gain = .ok g) (hd : ObuHeader) (p : MixPresentation)
    (hp : generateMix true m = .ok (hd, p)) (elements : List (UInt32 × ElementWithData)) (hn : ∀ e ∈ elements, e.2.obu.params = []) :
    (∃ t, collectParamDefinitions ⟨none, [], elements, [p]⟩ = .ok t) ↔ g = 0 := by
  obtain ⟨p', es, i, h1, h2, -, rfl⟩ := C68_presentation true id rate [o] loud m h
  rw [h1] at hp
  obtain ⟨-, rfl⟩ := Prod.mk.inj (Except.ok.inj hp)
  obtain ⟨e, es', he, hes, rfl⟩ := List.forall₂_cons_left_iff.mp h2
  cases hes
  obtain ⟨g', hg', rfl⟩ := he
  rw [hg] at hg'
  cases hg'
  have : (elements.flatMap fun e => e.2.obu.params.map fun p => (e.2, p)) = [] := by
    rw [List.flatMap_eq_nil_iff]
    intro e he
    rw [hn e he]
    rfl
  unfold collectParamDefinitions
  rw [this]
  by_cases hz : g = 0
  · subst hz
    simp [MixPresentation.paramDefs, insertParam, bind, Except.bind, pure, Except.pure]
  · simp [MixPresentation.paramDefs, insertParam, bind, Except.bind, pure, Except.pure, hz, Ne.symm hz]

/-- An example: two objects with loudness of both kinds. -/
theorem C68_example : (populateMix 3 48000 [⟨7, [0x41], "AP_00010003", some 0⟩, ⟨9, [0x42], "AP_00050001", some (-3 / 2)⟩]
    ⟨some (-24), some (some (-1)), some (some (-23))⟩).toOption.map (fun m => m.subMixes.map fun s => s.elements.map fun e =>
      (e.id, e.mixGain.default)) = some [[(7, 0), (9, -384)]] ∧
    wantedLayouts [⟨7, [0x41], "AP_00010003", some 0⟩, ⟨9, [0x42], "AP_00050001", some (-3 / 2)⟩] = [⟨2, .soundSystem 1 0⟩, ⟨3, .other 0⟩] := by
  decide +kernel

end Iamf.Props
