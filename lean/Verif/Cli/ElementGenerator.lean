import Verif.Cli.CodecGenerator
import Verif.Cli.BlockGenerator
import Verif.Cli.AmbisonicsMixer
/-
  Audio elements from metadata: iamf/cli/proto_conversion/proto_to_obu/audio_element_generator.cc, with
  `GetParamDefinitionBaseArgs` and `CopyDemixingInfoParameterData` of proto_utils.cc.  Values of enumerations of the proto are their numbers.
-/
namespace Iamf

/-! ### Metadata -/

/-- `ParamDefinition` (param_definitions.proto:38-49). -/
structure DefinitionMetadata where
  id : UInt32
  rate : UInt32
  mode : Bool
  reserved : UInt32
  duration : UInt32
  constantSubblockDuration : UInt32
  subblockDurations : List UInt32
  deriving DecidableEq, Repr

/-- The definition of a message that is not there. -/
def DefinitionMetadata.empty : DefinitionMetadata := ⟨0, 0, false, 0, 0, 0, []⟩

/-- `DemixingParamDefinition` (param_definitions.proto:56-61); the mode is a number of the proto. -/
structure DemixingDefinitionMetadata where
  definition : DefinitionMetadata
  mode : UInt32
  modeReserved : UInt32
  defaultW : UInt32
  reserved : UInt32
  deriving DecidableEq, Repr

/-- The oneof `param_definition` of `AudioElementParam` (audio_element.proto). -/
inductive ElementParamContent where
  | demixing (d : DemixingDefinitionMetadata)
  | reconGain (d : DefinitionMetadata)
  | extension (bytes : List UInt8)
  | unset
  deriving DecidableEq, Repr

/-- `AudioElementParam` (audio_element.proto). -/
structure ElementParamMetadata where
  deprecatedType : Bool
  type : Option UInt32
  content : ElementParamContent
  deriving DecidableEq, Repr

/-- The accessors of the oneof: a message that is not set has the default values. -/
def ElementParamContent.asDemixing : ElementParamContent → DemixingDefinitionMetadata
  | .demixing d => d
  | _ => ⟨.empty, 0, 0, 0, 0⟩
def ElementParamContent.asReconGain : ElementParamContent → DefinitionMetadata
  | .reconGain d => d
  | _ => .empty
def ElementParamContent.asExtension : ElementParamContent → List UInt8
  | .extension b => b
  | _ => []

/-- `ChannelAudioLayerConfig` (audio_element.proto). -/
structure LayerConfigMetadata where
  deprecatedLayout : Bool
  layout : UInt32
  outputGainPresent : UInt32
  reconGainPresent : UInt32
  reservedA : UInt32
  substreamCount : UInt32
  coupledSubstreamCount : UInt32
  outputGainFlag : UInt32
  reservedB : UInt32
  outputGain : Int32
  expanded : UInt32
  deriving DecidableEq, Repr

/-- The oneof `ambisonics_config` (audio_element.proto). -/
inductive AmbisonicsMetadata where
  | mono (outputChannelCount substreamCount : UInt32) (channelMapping : List UInt32)
  | projection (outputChannelCount substreamCount coupledSubstreamCount : UInt32) (demixingMatrix : List Int32)
  | preset (p : UInt32)
  | unset
  deriving DecidableEq, Repr

/-- The oneof `config` of `AudioElementObuMetadata` (audio_element.proto). -/
inductive ElementConfigMetadata where
  | scalable (reserved : UInt32) (layers : List LayerConfigMetadata)
  | ambisonics (c : AmbisonicsMetadata)
  | objects (numObjects : UInt32) (extensionBytes : List UInt8)
  | extension (bytes : List UInt8)
  | unset
  deriving DecidableEq, Repr

/-- `AudioElementObuMetadata` (audio_element.proto). -/
structure ElementMetadata where
  id : UInt32
  type : UInt32
  reserved : UInt32
  codecConfigId : UInt32
  substreamIds : List UInt32
  params : List ElementParamMetadata
  config : ElementConfigMetadata
  header : HeaderMetadata
  deriving DecidableEq, Repr

/-! ### Parameter definitions -/

/-- The schedule in `GetParamDefinitionBaseArgs` (proto_utils.cc:84-105): none if the blocks carry it.  The duration is not looked at if
there is a list of durations. -/
def scheduleFromMetadata (m : DefinitionMetadata) : Except Err (Option SubblockSchedule) :=
  if m.mode then .ok none
  else if m.constantSubblockDuration ≠ 0 then do
    let s ← SubblockSchedule.createConstant m.duration m.constantSubblockDuration
    .ok (some s)
  else do
    let s ← SubblockSchedule.createVariable m.subblockDurations
    .ok (some s)

/-- `GetParamDefinitionBaseArgs` (proto_utils.cc:72-108). -/
def baseFromMetadata (m : DefinitionMetadata) : Except Err ParamBase := do
  let reserved ← castU8 m.reserved
  let schedule ← scheduleFromMetadata m
  .ok ⟨m.id, m.rate, reserved, schedule⟩

/-- Demixing definitions (audio_element_generator.cc:114-148). -/
def demixingFromMetadata (samplesPerFrame : UInt32) (m : DemixingDefinitionMetadata) : Except Err ParamDef := do
  let base ← baseFromMetadata m.definition
  let info ← generateDemixing m.mode m.modeReserved
  let w ← castU8 m.defaultW
  let reserved ← castU8 m.reserved
  if base.duration ≠ samplesPerFrame then .error .invalidArgument
  else .ok ⟨base, .demixing ⟨info, w, reserved⟩⟩

/-- Recon gain definitions (audio_element_generator.cc:149-169).  The id of the element that the definition remembers, and the data about its
layers, are not modelled. -/
def reconGainFromMetadata (samplesPerFrame : UInt32) (m : DefinitionMetadata) : Except Err ParamDef := do
  let base ← baseFromMetadata m
  if base.duration ≠ samplesPerFrame then .error .invalidArgument
  else .ok ⟨base, .reconGain []⟩

/-- One turn of the loop of `GenerateParameterDefinitions` (audio_element_generator.cc:101-195) with
`CopyAudioElementParamDefinitionType` (60-99).  The extension is of the last type there is (param_definition_base.h:57); a `char` is always
copied to a byte (numeric_utils.h:94-98). -/
def paramFromMetadata (samplesPerFrame : UInt32) (m : ElementParamMetadata) : Except Err ParamDef :=
  if m.deprecatedType then .error .invalidArgument
  else match m.type with
    | none => .error .invalidArgument
    | some t =>
      if t = 2 then demixingFromMetadata samplesPerFrame m.content.asDemixing
      else if t = 3 then reconGainFromMetadata samplesPerFrame m.content.asReconGain
      else if t = 256 then .ok ⟨⟨0, 0, 0, none⟩, .extended 4294967295 m.content.asExtension⟩
      else .error .invalidArgument

/-- `GenerateParameterDefinitions` (audio_element_generator.cc:101-195). -/
def paramsFromMetadata (samplesPerFrame : UInt32) : List ElementParamMetadata → Except Err (List ParamDef)
  | [] => .ok []
  | m :: ms => do
    let p ← paramFromMetadata samplesPerFrame m
    let ps ← paramsFromMetadata samplesPerFrame ms
    .ok (p :: ps)

/-! ### Channel based elements -/

/-- `StaticCastIfInRange<uint32_t, bool>` (numeric_utils.h:91-128). -/
def castBool (x : UInt32) : Except Err Bool := if x ≤ 1 then .ok (x == 1) else .error .invalidArgument

/-- `CopyLoudspeakerLayout` (audio_element_generator.cc:261-298, lookup_tables.h:127-147). -/
def layoutFromProto (m : LayerConfigMetadata) : Except Err UInt8 :=
  if m.deprecatedLayout then .error .invalidArgument
  else if (1 ≤ m.layout ∧ m.layout ≤ 11) ∨ m.layout = 15 ∨ m.layout = 16 then .ok (m.layout - 1).toUInt8
  else .error .notFound

/-- `CopyExpandedLoudspeakerLayout` (audio_element_generator.cc:301-315, lookup_tables.h:149-178). -/
def expandedFromProto (x : UInt32) : Except Err UInt8 := if 1 ≤ x ∧ x ≤ 20 then .ok (x - 1).toUInt8 else .error .notFound

/-- The expanded layout (audio_element_generator.cc:328-341). -/
def layerExpansion (layout : UInt8) (x : UInt32) : Except Err (Option UInt8) :=
  if layout = kLayoutExpanded then do
    let e ← expandedFromProto x
    .ok (some e)
  else .ok none

/-- The gain of a layer (audio_element_generator.cc:386-399): its fields are not looked at if there is none. -/
def layerGainFromMetadata (present : Bool) (m : LayerConfigMetadata) : Except Err (UInt8 × UInt8 × Int16) :=
  if present then do
    let f ← castU8 m.outputGainFlag
    let r ← castU8 m.reservedB
    let g ← castS16 m.outputGain
    .ok (f, r, g)
  else .ok (0, 0, 0)

/-- The loop of `CreateChannelBasedAudioElementWithData` (audio_element_generator.cc:361-401). -/
def layerFromMetadata (m : LayerConfigMetadata) : Except Err ChannelLayer := do
  let layout ← layoutFromProto m
  let expanded ← layerExpansion layout m.expanded
  let gainPresent ← castBool m.outputGainPresent
  let reconPresent ← castBool m.reconGainPresent
  let reservedA ← castU8 m.reservedA
  let count ← castU8 m.substreamCount
  let coupled ← castU8 m.coupledSubstreamCount
  let g ← layerGainFromMetadata gainPresent m
  .ok ⟨layout, gainPresent, reconPresent, reservedA, count, coupled, g.1, g.2.1, g.2.2, expanded⟩

/-- All the layers. -/
def layersFromMetadata : List LayerConfigMetadata → Except Err (List ChannelLayer)
  | [] => .ok []
  | m :: ms => do
    let l ← layerFromMetadata m
    let ls ← layersFromMetadata ms
    .ok (l :: ls)

/-- `CodecConfigObu::IsLossless` (codec_config.cc:369-373). -/
def CodecConfig.isLossless (c : CodecConfig) : Bool := c.codecId == kCodecIdFlac || c.codecId == kCodecIdLpcm

/-- The flags in `ValidateReconGainDefined` (audio_element_generator.cc:206-229), from layer `i` on. -/
def reconFlagsOk (lossless : Bool) : Nat → List ChannelLayer → Bool
  | _, [] => true
  | i, l :: ls => l.reconGainPresent == (!(i == 0) && !lossless) && reconFlagsOk lossless (i + 1) ls

/-- `ValidateReconGainDefined` (audio_element_generator.cc:198-250): recon gain is required if a layer above the first is lossy. -/
def reconGainDefined (lossless : Bool) (layers : List ChannelLayer) (ps : List ParamDef) : Bool :=
  reconFlagsOk lossless 0 layers && (ps.any (fun p => p.spec.type == 2) == (!lossless && decide (1 < layers.length)))

/-- An element with the data of its codec. -/
def CodecConfigObu.forElement (o : CodecConfigObu) : CodecObu := ⟨o.config, o.outputRate, o.inputRate, o.bitDepth⟩

/-- `CreateChannelBasedAudioElementWithData` (audio_element_generator.cc:346-421).  The reserved bits of the metadata for the layout are not
copied (360); those for the element are narrowed to 8 bits by the call.  `ValidateReconGainDefined` looks at `GetNumLayers` layers. -/
def channelElementFromMetadata (m : ElementMetadata) (codec : CodecConfigObu) : Except Err ElementWithData :=
  match m.config with
  | .scalable _ layers => do
    let ls ← layersFromMetadata layers
    let e ← AudioElement.createScalable m.id m.reserved.toUInt8 m.codecConfigId m.substreamIds ⟨0, ls⟩
    let ps ← paramsFromMetadata codec.config.numSamplesPerFrame m.params
    if !reconGainDefined codec.config.isLossless (ls.take (ScalableLayout.numLayers ⟨0, ls⟩).toNat) ps then .error .invalidArgument
    else do
      let d ← finalizeScalable e.substreamIds ⟨0, ls⟩
      .ok ⟨{ e with params := ps }, some codec.forElement, d⟩
  | _ => .error .invalidArgument

/-! ### Scene based elements -/

/-- Casts of all entries (`StaticCastSpanIfInRange`, numeric_utils.h:223-241). -/
def castAll {α β : Type} (f : α → Except Err β) : List α → Except Err (List β)
  | [] => .ok []
  | x :: xs => do
    let y ← f x
    let ys ← castAll f xs
    .ok (y :: ys)

/-- `GetAmbisonicsMonoConfig` (audio_element_generator.cc:425-457). -/
def monoFromMetadata (out sub : UInt32) (mapping : List UInt32) : Except Err AmbisonicsMono :=
  if mapping.length ≠ out.toNat then .error .invalidArgument
  else do
    let _ ← castU8 out
    let s ← castU8 sub
    let m ← castAll castU8 mapping
    AmbisonicsMono.create s m

/-- `GetAmbisonicsProjectionConfig` (audio_element_generator.cc:461-506).  The size is computed in `uint32_t` and converted to `int`. -/
def projectionFromMetadata (out sub coupled : UInt32) (matrix : List Int32) : Except Err AmbisonicsProjection :=
  if (matrix.length : Int) ≠ ((sub + coupled) * out).toInt32.toInt then .error .invalidArgument
  else do
    let o ← castU8 out
    let s ← castU8 sub
    let c ← castU8 coupled
    let m ← castAll castS16 matrix
    AmbisonicsProjection.create o s c m

/-- `GetPresetConfig` (audio_element_generator.cc:508-519). -/
def presetFromMetadata (codec : CodecConfigObu) (p : UInt32) : Except Err Ambisonics :=
  match presetOfProto p.toNat with
  | none => .error .notFound
  | some p => do
    let x ← AmbisonicsMixer.fromPreset codec.config.codecId p codec.config.numSamplesPerFrame.toNat
    .ok x.config

/-- `GetAmbisonicsConfig` (audio_element_generator.cc:521-552). -/
def ambisonicsFromMetadata (codec : CodecConfigObu) : AmbisonicsMetadata → Except Err Ambisonics
  | .mono out sub mapping => do
    let c ← monoFromMetadata out sub mapping
    .ok (.mono c)
  | .projection out sub coupled matrix => do
    let c ← projectionFromMetadata out sub coupled matrix
    .ok (.projection c)
  | .preset p => presetFromMetadata codec p
  | .unset => .error .invalidArgument

/-- `CreateAmbisonicsAudioElementWithData` (audio_element_generator.cc:554-584) with the check of its caller (635-643). -/
def sceneElementFromMetadata (m : ElementMetadata) (codec : CodecConfigObu) : Except Err ElementWithData :=
  match m.config with
  | .ambisonics a => do
    let c ← ambisonicsFromMetadata codec a
    let e ← AudioElement.createAmbisonics m.id m.reserved.toUInt8 m.codecConfigId m.substreamIds c
    let ps ← paramsFromMetadata codec.config.numSamplesPerFrame m.params
    let labels ← finalizeAmbisonics { e with params := ps }
    .ok ⟨{ e with params := ps }, some codec.forElement, ⟨labels, [], []⟩⟩
  | _ => .error .invalidArgument

/-! ### Object based elements -/

/-- `objects_config()` is the default message if it is not set. -/
def ElementConfigMetadata.asObjects : ElementConfigMetadata → UInt32 × List UInt8
  | .objects n ext => (n, ext)
  | _ => (0, [])

/-- `CreateObjectsAudioElementWithData` (audio_element_generator.cc:586-624).  The number of objects is narrowed to 8 bits by the call;
parameters are not looked at. -/
def objectsElementFromMetadata (m : ElementMetadata) (codec : CodecConfigObu) : Except Err ElementWithData := do
  let c ← ObjectsConfig.create m.config.asObjects.1.toUInt8 m.config.asObjects.2
  match m.substreamIds with
  | [s] => do
    let e ← AudioElement.createObjects m.id m.reserved.toUInt8 m.codecConfigId s c
    let labels ← finalizeObjects e
    .ok ⟨e, some codec.forElement, ⟨labels, [], []⟩⟩
  | _ => .error .invalidArgument

/-! ### The generator -/

/-- `CreateAudioElementWithData` (audio_element_generator.cc:626-653). -/
def elementFromMetadata (m : ElementMetadata) (codec : CodecConfigObu) : Except Err ElementWithData :=
  if m.type = 1 then channelElementFromMetadata m codec
  else if m.type = 2 then sceneElementFromMetadata m codec
  else if m.type = 3 then objectsElementFromMetadata m codec
  else .error .invalidArgument

/-- An element as the generator leaves it: the header of its OBU, and the rest. -/
structure GeneratedElement where
  header : ObuHeader
  element : ElementWithData
  deriving DecidableEq, Repr

/-- The body of the loop of `AudioElementGenerator::Generate` (audio_element_generator.cc:674-701). -/
def generateElementObu (codecs : List (UInt32 × CodecConfigObu)) (found : List (UInt32 × GeneratedElement)) (m : ElementMetadata) :
    Except Err GeneratedElement :=
  if found.any (fun x => x.1 == m.id) then .error .invalidArgument
  else match codecs.lookup m.codecConfigId with
    | none => .error .invalidArgument
    | some codec => do
      let e ← elementFromMetadata m codec
      .ok ⟨headerFromMetadata ObuType.audioElement m.header, e⟩

/-- `AudioElementGenerator::Generate` (audio_element_generator.cc:670-705). -/
def generateElementObus (codecs : List (UInt32 × CodecConfigObu)) :
    List ElementMetadata → List (UInt32 × GeneratedElement) → Except Err (List (UInt32 × GeneratedElement))
  | [], found => .ok found
  | m :: ms, found => do
    let e ← generateElementObu codecs found m
    generateElementObus codecs ms (found ++ [(m.id, e)])

end Iamf
