import Verif.Cli.MetadataBuilder
import Verif.Cli.MixGenerator
/-
  Mix presentations for ADM: iamf/cli/adm_to_user_metadata/iamf/mix_presentation_handler.cc.
-/
namespace Iamf

/-- What the handler uses of an `AudioObject` (adm_elements.h:82-97): the id of its audio element, its label, its first pack format and its gain;
a finite `float` is the rational number it stands for, others are `none`. -/
structure AdmMixObject where
  elementId : UInt32
  label : List UInt8
  pack : String
  gain : Option Rat
  deriving DecidableEq, Repr

/-- `LoudnessMetadata` of ADM (adm_elements.h:46-52); floats as above. -/
structure AdmLoudness where
  integrated : Option Rat
  truePeak : Option (Option Rat)
  dialogue : Option (Option Rat)
  deriving DecidableEq, Repr

/-- `LookupSoundSystemFromInputLayout` (mix_presentation_handler.cc:38-59), as numbers of the proto. -/
def InputLayout.soundSystem : InputLayout → Except Err UInt32
  | .mono => .ok 13 | .stereo => .ok 1 | .l51 => .ok 2 | .l512 => .ok 3 | .l514 => .ok 4 | .l71 => .ok 9 | .l714 => .ok 10 | .lfe => .ok 10
  | _ => .error .notFound

/-- An optional value of `CopyLoudness` (mix_presentation_handler.cc:71-103). -/
def optionalQ78 : Option (Option Rat) → Except Err (Option Int16)
  | none => .ok none
  | some x => do
    let q ← floatToQ78' x
    .ok (some q)

/-- `CopyLoudness` (mix_presentation_handler.cc:61-107) for an empty message. -/
def admLoudness (l : AdmLoudness) : Except Err LoudnessMetadata := do
  let i ← floatToQ78' l.integrated
  let p ← optionalQ78 l.truePeak
  let d ← optionalQ78 l.dialogue
  .ok ⟨(if p.isSome then [1] else []) ++ (if d.isSome then [2] else []), i.toInt32, 0, (p.getD 0).toInt32,
    match d with | some d => [(2, d.toInt32)] | none => [], []⟩

/-- The definition of all mix gains (mix_presentation_handler.cc:157-161, 238-244). -/
def admGainDefinition (rate : UInt32) : DefinitionMetadata := ⟨0, rate, true, 0, 0, 0, []⟩

/-- `SubMixAudioElementMetadataBuilder` (mix_presentation_handler.cc:125-164) for an empty message. -/
def admSubMixElement (rate : UInt32) (o : AdmMixObject) : Except Err SubMixElementMetadata := do
  let _ ← inputLayoutFromPackFormat o.pack
  let g ← floatToQ78' o.gain
  .ok ⟨o.elementId, [o.label], ⟨2, 1, 0, [], none, []⟩, ⟨admGainDefinition rate, g.toInt32⟩⟩

/-- `MixPresentationLayoutHandler` (mix_presentation_handler.cc:166-189) and, for stereo, `SetDefaultLoudnessLayout`
(mix_presentation_handler.cc:109-123). -/
def admLayout (loudness : AdmLoudness) (l : InputLayout) : Except Err MixLayoutMetadata :=
  if l = .binaural then do
    let i ← admLoudness loudness
    .ok ⟨4, .other 0, i⟩
  else do
    let s ← l.soundSystem
    let i ← admLoudness loudness
    .ok ⟨3, .ss s 0, i⟩

/-- `IsChannelBasedAndNotStereo` (mix_presentation_handler.cc:191-212). -/
def InputLayout.wantsLayout : InputLayout → Bool
  | .stereo | .ambisonics1 | .ambisonics2 | .ambisonics3 => false
  | _ => true

/-- The loop over the objects' layouts (mix_presentation_handler.cc:254-275), with `num_layouts`. -/
def admLayouts (loudness : AdmLoudness) : Nat → List AdmMixObject → Except Err (List MixLayoutMetadata)
  | _, [] => .ok []
  | n, o :: os =>
    if 3 < n then .ok []
    else do
      let l ← inputLayoutFromPackFormat o.pack
      if l.wantsLayout then do
        let x ← admLayout loudness l
        let xs ← admLayouts loudness (n + 1) os
        .ok (x :: xs)
      else admLayouts loudness n os

/-- `MixPresentationHandler::PopulateMixPresentation` (mix_presentation_handler.cc:217-278) for an empty message; the annotations are `en-us` and
`test_mix_pres`. -/
def populateMix (id rate : UInt32) (objects : List AdmMixObject) (loudness : AdmLoudness) : Except Err MixMetadata := do
  let es ← castAll (admSubMixElement rate) objects
  let stereo ← admLayout loudness .stereo
  let ls ← admLayouts loudness 1 objects
  .ok ⟨id, [[0x65, 0x6e, 0x2d, 0x75, 0x73]], [[0x74, 0x65, 0x73, 0x74, 0x5f, 0x6d, 0x69, 0x78, 0x5f, 0x70, 0x72, 0x65, 0x73]],
    [⟨es, ⟨admGainDefinition rate, 0⟩, stereo :: ls⟩], false, [], 0, 0, [], .empty⟩

end Iamf
