import Verif.Cli.ElementGenerator
import Verif.Cli.Partition
import Verif.Obu.Mix
/-
  Mix presentations from metadata: iamf/cli/proto_conversion/proto_to_obu/mix_presentation_generator.cc, with
  `ProtoToQFormatOrFloatingPoint` of proto_utils.cc and `FloatToQ7_8` of numeric_utils.cc.  Values of enumerations of the proto are their
  numbers.  Fields that are only warned about (`count_label`, `rendering_config_extension_size`, `info_type_size`) are left out.  A `string` or
  `bytes` of the proto is a list of bytes; `StaticCastSpanIfInRange` of it never fails (numeric_utils.h:96-103).
-/
namespace Iamf

/-! ### Metadata -/

/-- The oneof of `RenderingConfigParamDefinition` (mix_presentation.proto:51-62, param_definitions.proto:73-128). -/
inductive PositionMetadata where
  | polar (d : DefinitionMetadata) (azimuth elevation distance : Int32)
  | cart8 (d : DefinitionMetadata) (x y z : Int32)
  | cart16 (d : DefinitionMetadata) (x y z : Int32)
  | dualPolar (d : DefinitionMetadata) (azimuth1 elevation1 distance1 azimuth2 elevation2 distance2 : Int32)
  | dualCart8 (d : DefinitionMetadata) (x1 y1 z1 x2 y2 z2 : Int32)
  | dualCart16 (d : DefinitionMetadata) (x1 y1 z1 x2 y2 z2 : Int32)
  | bytes (b : List UInt8)
  | unset
  deriving DecidableEq, Repr

/-- `RenderingConfigParamDefinition` (mix_presentation.proto:51-62). -/
structure RenderingParamMetadata where
  type : UInt32
  content : PositionMetadata
  deriving DecidableEq, Repr

/-- `QFormatOrFloatingPoint` (types.proto:21-26).  A finite `float` is the rational number it stands for; NaN and the infinities are `none`. -/
inductive QMetadata where
  | q78 (v : Int32)
  | floating (x : Option Rat)
  | unset
  deriving DecidableEq, Repr

/-- `ElementGainOffsetConfig` (element_gain_offset_config.proto:20-35). -/
inductive OffsetMetadata where
  | value (offset : QMetadata)
  | range (default min max : QMetadata)
  | unset
  deriving DecidableEq, Repr

/-- `RenderingConfig` (mix_presentation.proto:64-74). -/
structure RenderingMetadata where
  headphonesMode : UInt32
  binauralProfile : UInt32
  reserved : UInt32
  params : List RenderingParamMetadata
  gainOffset : Option OffsetMetadata
  extensionBytes : List UInt8
  deriving DecidableEq, Repr

/-- `MixGainParamDefinition` (param_definitions.proto:57-60). -/
structure MixGainMetadata where
  definition : DefinitionMetadata
  default : Int32
  deriving DecidableEq, Repr

/-- `SubMixAudioElement` (mix_presentation.proto:81-99). -/
structure SubMixElementMetadata where
  id : UInt32
  annotations : List (List UInt8)
  rendering : RenderingMetadata
  mixGain : MixGainMetadata
  deriving DecidableEq, Repr

/-- The oneof of `Layout` (mix_presentation.proto:139-146). -/
inductive SpecificLayoutMetadata where
  | ss (system reserved : UInt32)
  | other (reserved : UInt32)
  | unset
  deriving DecidableEq, Repr

/-- `LoudnessInfo` (mix_presentation.proto:201-209); an anchored loudness is a pair (element, loudness). -/
structure LoudnessMetadata where
  types : List UInt32
  integratedLoudness : Int32
  digitalPeak : Int32
  truePeak : Int32
  anchors : List (UInt32 × Int32)
  extension : List UInt8
  deriving DecidableEq, Repr

/-- `MixPresentationLayout` with its `Layout` (mix_presentation.proto:139-146, 213-216). -/
structure MixLayoutMetadata where
  type : UInt32
  specific : SpecificLayoutMetadata
  loudness : LoudnessMetadata
  deriving DecidableEq, Repr

/-- `MixPresentationSubMix` (mix_presentation.proto:219-229). -/
structure SubMixMetadata where
  elements : List SubMixElementMetadata
  outputMixGain : MixGainMetadata
  layouts : List MixLayoutMetadata
  deriving DecidableEq, Repr

/-- `MixPresentationObuMetadata` (mix_presentation.proto:266-291), with `MixPresentationTags` (a tag is a pair of name and value) and
`MixPresentationOptionalFields` (the two renderers and the remaining bytes). -/
structure MixMetadata where
  id : UInt32
  languages : List (List UInt8)
  annotations : List (List UInt8)
  subMixes : List SubMixMetadata
  includeTags : Bool
  tags : List (List UInt8 × List UInt8)
  loudspeakerRenderer : UInt32
  binauralRenderer : UInt32
  remaining : List UInt8
  header : HeaderMetadata
  deriving DecidableEq, Repr

/-! ### Rendering -/

/-- The accessors of the oneof: a message that is not set has the default values. -/
def PositionMetadata.asPolar : PositionMetadata → DefinitionMetadata × Int32 × Int32 × Int32
  | .polar d a e r => (d, a, e, r)
  | _ => (.empty, 0, 0, 0)
def PositionMetadata.asCart8 : PositionMetadata → DefinitionMetadata × Int32 × Int32 × Int32
  | .cart8 d x y z => (d, x, y, z)
  | _ => (.empty, 0, 0, 0)
def PositionMetadata.asCart16 : PositionMetadata → DefinitionMetadata × Int32 × Int32 × Int32
  | .cart16 d x y z => (d, x, y, z)
  | _ => (.empty, 0, 0, 0)
def PositionMetadata.asDualPolar : PositionMetadata → DefinitionMetadata × Int32 × Int32 × Int32 × Int32 × Int32 × Int32
  | .dualPolar d a e r a' e' r' => (d, a, e, r, a', e', r')
  | _ => (.empty, 0, 0, 0, 0, 0, 0)
def PositionMetadata.asDualCart8 : PositionMetadata → DefinitionMetadata × Int32 × Int32 × Int32 × Int32 × Int32 × Int32
  | .dualCart8 d x y z x' y' z' => (d, x, y, z, x', y', z')
  | _ => (.empty, 0, 0, 0, 0, 0, 0)
def PositionMetadata.asDualCart16 : PositionMetadata → DefinitionMetadata × Int32 × Int32 × Int32 × Int32 × Int32 × Int32
  | .dualCart16 d x y z x' y' z' => (d, x, y, z, x', y', z')
  | _ => (.empty, 0, 0, 0, 0, 0, 0)

/-- `CreatePolarParamDefinition` (mix_presentation_generator.cc:84-98).  Assignments narrow without a check. -/
def polarFromMetadata (m : DefinitionMetadata × Int32 × Int32 × Int32) : Except Err ParamDef := do
  let base ← baseFromMetadata m.1
  .ok ⟨base, .polar m.2.1.toInt16 m.2.2.1.toInt8 m.2.2.2.toUInt32.toUInt8⟩
/-- `CreateCart8ParamDefinition` (mix_presentation_generator.cc:100-112). -/
def cart8FromMetadata (m : DefinitionMetadata × Int32 × Int32 × Int32) : Except Err ParamDef := do
  let base ← baseFromMetadata m.1
  .ok ⟨base, .cart8 m.2.1.toInt8 m.2.2.1.toInt8 m.2.2.2.toInt8⟩
/-- `CreateCart16ParamDefinition` (mix_presentation_generator.cc:114-126). -/
def cart16FromMetadata (m : DefinitionMetadata × Int32 × Int32 × Int32) : Except Err ParamDef := do
  let base ← baseFromMetadata m.1
  .ok ⟨base, .cart16 m.2.1.toInt16 m.2.2.1.toInt16 m.2.2.2.toInt16⟩
/-- `CreateDualPolarParamDefinition` (mix_presentation_generator.cc:128-150). -/
def dualPolarFromMetadata (m : DefinitionMetadata × Int32 × Int32 × Int32 × Int32 × Int32 × Int32) : Except Err ParamDef := do
  let base ← baseFromMetadata m.1
  .ok ⟨base, .dualPolar m.2.1.toInt16 m.2.2.1.toInt8 m.2.2.2.1.toUInt32.toUInt8
    m.2.2.2.2.1.toInt16 m.2.2.2.2.2.1.toInt8 m.2.2.2.2.2.2.toUInt32.toUInt8⟩
/-- `CreateDualCart8ParamDefinition` (mix_presentation_generator.cc:152-171). -/
def dualCart8FromMetadata (m : DefinitionMetadata × Int32 × Int32 × Int32 × Int32 × Int32 × Int32) : Except Err ParamDef := do
  let base ← baseFromMetadata m.1
  .ok ⟨base, .dualCart8 m.2.1.toInt8 m.2.2.1.toInt8 m.2.2.2.1.toInt8 m.2.2.2.2.1.toInt8 m.2.2.2.2.2.1.toInt8 m.2.2.2.2.2.2.toInt8⟩
/-- `CreateDualCart16ParamDefinition` (mix_presentation_generator.cc:173-192). -/
def dualCart16FromMetadata (m : DefinitionMetadata × Int32 × Int32 × Int32 × Int32 × Int32 × Int32) : Except Err ParamDef := do
  let base ← baseFromMetadata m.1
  .ok ⟨base, .dualCart16 m.2.1.toInt16 m.2.2.1.toInt16 m.2.2.2.1.toInt16
    m.2.2.2.2.1.toInt16 m.2.2.2.2.2.1.toInt16 m.2.2.2.2.2.2.toInt16⟩

/-- `CreateRenderingConfigParamDefinition` (mix_presentation_generator.cc:194-268) without the bytes, which are empty. -/
def positionFromMetadata (m : RenderingParamMetadata) : Except Err ParamDef :=
  if m.type = 4 then polarFromMetadata m.content.asPolar
  else if m.type = 5 then cart8FromMetadata m.content.asCart8
  else if m.type = 6 then cart16FromMetadata m.content.asCart16
  else if m.type = 7 then dualPolarFromMetadata m.content.asDualPolar
  else if m.type = 8 then dualCart8FromMetadata m.content.asDualCart8
  else if m.type = 9 then dualCart16FromMetadata m.content.asDualCart16
  else .error .invalidArgument

/-- The same, with the bytes (rendering_config.cc:172-185). -/
def renderingParamFromMetadata (m : RenderingParamMetadata) : Except Err RenderingParam := do
  let d ← positionFromMetadata m
  .ok ⟨d, []⟩

/-- `FloatToQ7_8` (numeric_utils.cc:41-49) with NaN and the infinities. -/
def floatToQ78' : Option Rat → Except Err Int16
  | none => .error .unknown
  | some x => floatToQ78 x

/-- `ProtoToQFormatOrFloatingPoint` (proto_utils.cc:45-61); see `GainOffset`. -/
def qFromMetadata : QMetadata → Except Err Int16
  | .q78 v => castS16 v
  | .floating x => floatToQ78' x
  | .unset => .ok 0

/-- `CreateElementGainOffsetConfig` (mix_presentation_generator.cc:270-308). -/
def offsetFromMetadata : OffsetMetadata → Except Err GainOffset
  | .value v => do
    let x ← qFromMetadata v
    .ok (.value x)
  | .range d mn mx => do
    let d ← qFromMetadata d
    let mn ← qFromMetadata mn
    let mx ← qFromMetadata mx
    GainOffset.createRange d mn mx
  | .unset => .error .invalidArgument

/-- The optional offset in `FillRenderingConfig` (mix_presentation_generator.cc:383-390). -/
def optionalOffsetFromMetadata : Option OffsetMetadata → Except Err (Option GainOffset)
  | none => .ok none
  | some m => do
    let x ← offsetFromMetadata m
    .ok (some x)

/-- `headphones_rendering_mode` (mix_presentation_generator.cc:313-336, mix_presentation.proto:22-41, rendering_config.h:97-102) and
`binaural_filter_profile` (mix_presentation_generator.cc:338-360, mix_presentation.proto:43-49, rendering_config.h:105-110). -/
def twoBitsFromProto (m : UInt32) : Except Err UInt8 :=
  if m = 1 then .ok 0 else if m = 2 then .ok 1 else if m = 3 then .ok 2 else if m = 4 then .ok 3 else .error .invalidArgument

/-- `FillRenderingConfig` (mix_presentation_generator.cc:310-399). -/
def renderingFromMetadata (m : RenderingMetadata) : Except Err RenderingConfig := do
  let mode ← twoBitsFromProto m.headphonesMode
  let profile ← twoBitsFromProto m.binauralProfile
  let reserved ← castU8 m.reserved
  let params ← castAll renderingParamFromMetadata m.params
  let offset ← optionalOffsetFromMetadata m.gainOffset
  .ok ⟨mode, profile, reserved, params, offset, m.extensionBytes⟩

/-- `CreateMixGainParamDefinition` (mix_presentation_generator.cc:401-417). -/
def mixGainFromMetadata (m : MixGainMetadata) : Except Err ParamDef := do
  let base ← baseFromMetadata m.definition
  let d ← castS16 m.default
  .ok ⟨base, .mixGain d⟩

/-! ### Layouts -/

/-- `CopySoundSystem` (mix_presentation_generator.cc:535-544, lookup_tables.h:180-202, mix_presentation.proto:101-118,
mix_presentation.h:145-161). -/
def soundSystemFromProto (m : UInt32) : Except Err UInt8 := if 1 ≤ m ∧ m ≤ 15 then .ok (m - 1).toUInt8 else .error .notFound

/-- The accessors of the oneof. -/
def SpecificLayoutMetadata.asSs : SpecificLayoutMetadata → UInt32 × UInt32
  | .ss s r => (s, r)
  | _ => (0, 0)
def SpecificLayoutMetadata.asOther : SpecificLayoutMetadata → UInt32
  | .other r => r
  | _ => 0

/-- `CopyReservedOrBinauralLayout` (mix_presentation_generator.cc:419-433). -/
def otherLayout (type : UInt8) (m : SpecificLayoutMetadata) : Except Err Layout := do
  let r ← castU8 m.asOther
  .ok ⟨type, .other r⟩

/-- Loudspeakers in `CopyLoundessLayout` (mix_presentation_generator.cc:594-605). -/
def ssLayout (m : SpecificLayoutMetadata) : Except Err Layout := do
  let s ← soundSystemFromProto m.asSs.1
  let r ← castU8 m.asSs.2
  .ok ⟨2, .soundSystem s r⟩

/-- `CopyLoundessLayout` (mix_presentation_generator.cc:570-612). -/
def layoutFromMetadata (m : MixLayoutMetadata) : Except Err Layout :=
  if m.type = 1 then otherLayout 0 m.specific
  else if m.type = 2 then otherLayout 1 m.specific
  else if m.type = 4 then otherLayout 3 m.specific
  else if m.type = 3 then ssLayout m.specific
  else .error .invalidArgument

/-- A bit of `CopyInfoType` (lookup_tables.h:204-218, mix_presentation.proto:174-187, mix_presentation.h:98-107). -/
def infoBitFromProto (m : UInt32) : Except Err UInt8 :=
  if m = 1 ∨ m = 2 ∨ m = 4 ∨ m = 8 ∨ m = 16 ∨ m = 32 ∨ m = 64 ∨ m = 128 then .ok m.toUInt8 else .error .notFound

/-- `CopyInfoType` (mix_presentation_generator.cc:546-568). -/
def infoTypeFromMetadata : List UInt32 → UInt8 → Except Err UInt8
  | [], bits => .ok bits
  | m :: ms, bits => do
    let b ← infoBitFromProto m
    infoTypeFromMetadata ms (bits ||| b)

/-- The true peak in `CopyUserIntegratedLoudnessAndPeaks` (mix_presentation_generator.cc:624-628). -/
def truePeakFromMetadata (infoType : UInt8) (m : LoudnessMetadata) : Except Err Int16 :=
  if infoType &&& kTruePeak ≠ 0 then castS16 m.truePeak else .ok 0

/-- `anchor_element` (mix_presentation_generator.cc:650-667, mix_presentation.proto:148-153, mix_presentation.h:64-68). -/
def anchorElementFromProto (m : UInt32) : Except Err UInt8 :=
  if m = 1 then .ok 0 else if m = 2 then .ok 1 else if m = 3 then .ok 2 else .error .invalidArgument

/-- One element of the loop of `CopyUserAnchoredLoudness` (mix_presentation_generator.cc:647-674). -/
def anchorFromMetadata (m : UInt32 × Int32) : Except Err (UInt8 × Int16) := do
  let a ← anchorElementFromProto m.1
  let l ← castS16 m.2
  .ok (a, l)

/-- `CopyUserAnchoredLoudness` (mix_presentation_generator.cc:633-677). -/
def anchorsFromMetadata (infoType : UInt8) (m : LoudnessMetadata) : Except Err (List (UInt8 × Int16)) :=
  if infoType &&& kAnchoredLoudness = 0 then .ok []
  else if 255 < m.anchors.length then .error .invalidArgument
  else castAll anchorFromMetadata m.anchors

/-- `CopyUserLayoutExtension` (mix_presentation_generator.cc:679-697). -/
def extensionFromMetadata (infoType : UInt8) (m : LoudnessMetadata) : List UInt8 :=
  if infoType &&& kAnyLayoutExtension = 0 then [] else m.extension

/-- The loudness of a layout (mix_presentation_generator.cc:435-459, 546-568, 614-697). -/
def loudnessFromMetadata (m : LoudnessMetadata) : Except Err LoudnessInfo := do
  let t ← infoTypeFromMetadata m.types 0
  let i ← castS16 m.integratedLoudness
  let d ← castS16 m.digitalPeak
  let p ← truePeakFromMetadata t m
  let a ← anchorsFromMetadata t m
  .ok ⟨t, i, d, p, a, extensionFromMetadata t m⟩

/-- The body of the loop of `FillLayouts` (mix_presentation_generator.cc:441-456). -/
def mixLayoutFromMetadata (m : MixLayoutMetadata) : Except Err MixLayout := do
  let l ← layoutFromMetadata m
  let i ← loudnessFromMetadata m.loudness
  .ok ⟨l, i⟩

/-! ### The presentation -/

/-- An audio element of a sub-mix (mix_presentation_generator.cc:731-757, validation_utils.h:39-50). -/
def subMixElementFromMetadata (countLabel : UInt32) (m : SubMixElementMetadata) : Except Err SubMixElement :=
  if UInt32.ofNat m.annotations.length ≠ countLabel then .error .invalidArgument
  else do
    let r ← renderingFromMetadata m.rendering
    let g ← mixGainFromMetadata m.mixGain
    .ok ⟨m.id, m.annotations, r, g⟩

/-- A sub-mix (mix_presentation_generator.cc:726-768). -/
def subMixFromMetadata (countLabel : UInt32) (m : SubMixMetadata) : Except Err SubMix := do
  let es ← castAll (subMixElementFromMetadata countLabel) m.elements
  let g ← mixGainFromMetadata m.outputMixGain
  let ls ← castAll mixLayoutFromMetadata m.layouts
  .ok ⟨es, g, ls⟩

/-- The tag that the encoder adds (mix_presentation_generator.cc:481-489): `iamf_encoder` and `GitHub/iamf-tools`. -/
def buildTag : List UInt8 × List UInt8 := 
  ([0x69, 0x61, 0x6d, 0x66, 0x5f, 0x65, 0x6e, 0x63, 0x6f, 0x64, 0x65, 0x72],
   [0x47, 0x69, 0x74, 0x48, 0x75, 0x62, 0x2f, 0x69, 0x61, 0x6d, 0x66, 0x2d, 0x74, 0x6f, 0x6f, 0x6c, 0x73])

/-- `FillMixPresentationTags` (mix_presentation_generator.cc:461-492). -/
def tagsFromMetadata (append : Bool) (tags : List (List UInt8 × List UInt8)) : Except Err (List (List UInt8 × List UInt8)) :=
  if 255 < tags.length + (if append then 1 else 0) then .error .invalidArgument
  else .ok (tags ++ if append then [buildTag] else [])

/-- Whether there are tags (mix_presentation_generator.cc:770-778). -/
def optionalTagsFromMetadata (append : Bool) (m : MixMetadata) : Except Err (Option (List (List UInt8 × List UInt8))) :=
  if m.includeTags || append then do
    let t ← tagsFromMetadata append m.tags
    .ok (some t)
  else .ok none

/-- `preferred_loudspeaker_renderer` and `preferred_binaural_renderer` (lookup_tables.h:220-240, mix_presentation.proto:243-253,
mix_presentation.h:333-349). -/
def rendererFromProto (m : UInt32) : Except Err UInt8 := if m = 1 then .ok 0 else if m = 256 then .ok 255 else .error .notFound

/-- `FillOptionalFields` (mix_presentation_generator.cc:494-531). -/
def optionalFieldsFromMetadata (m : MixMetadata) : Except Err MixOptionalFields := do
  let l ← rendererFromProto m.loudspeakerRenderer
  let b ← rendererFromProto m.binauralRenderer
  if 4294967295 < m.remaining.length + 2 then .error .invalidArgument
  else .ok ⟨UInt32.ofNat (m.remaining.length + 2), l, b, m.remaining⟩

/-- Whether there are optional fields (mix_presentation_generator.cc:787-796). -/
def maybeOptionalFields (flag : Bool) (tags : Option (List (List UInt8 × List UInt8))) (m : MixMetadata) :
    Except Err (Option MixOptionalFields) :=
  if flag then
    if tags.isSome then do
      let o ← optionalFieldsFromMetadata m
      .ok (some o)
    else .error .invalidArgument
  else .ok none

/-- The body of the loop of `MixPresentationGenerator::Generate` (mix_presentation_generator.cc:702-800), with
`FillAnnotationsLanguageAndAnnotations` (58-82): an OBU header and the presentation. -/
def generateMix (append : Bool) (m : MixMetadata) : Except Err (ObuHeader × MixPresentation) :=
  let count := UInt32.ofNat m.languages.length
  let header := headerFromMetadata ObuType.mixPresentation m.header
  if UInt32.ofNat m.annotations.length ≠ count then .error .invalidArgument
  else do
    let subMixes ← castAll (subMixFromMetadata count) m.subMixes
    let tags ← optionalTagsFromMetadata append m
    let fields ← maybeOptionalFields header.optionalFieldsFlag tags m
    .ok (header, ⟨m.id, count, m.languages, m.annotations, subMixes, tags, fields⟩)

/-- `MixPresentationGenerator::Generate` (mix_presentation_generator.cc:699-802). -/
def generateMixes (append : Bool) (ms : List MixMetadata) : Except Err (List (ObuHeader × MixPresentation)) := castAll (generateMix append) ms

end Iamf
