import Verif.Obu.CodecProofs
/-
  `iamf/obu/ambisonics_config.{h,cc}` and `iamf/obu/audio_element.{h,cc}`.
-/
namespace Iamf

/-! ### Ambisonics (ambisonics_config.{h,cc}) -/

/-- `kValidAmbisonicChannelCounts` (ambisonics_config.cc:235-242). -/
def ambisonicsChannelCounts : List UInt8 := [1, 4, 9, 16, 25, 36, 49, 64, 81, 100, 121, 144, 169, 196, 225]

/-- `AmbisonicsConfig::GetNextValidOutputChannelCount` (ambisonics_config.cc:232-257); `std::lower_bound`
on the sorted array finds the first entry that is not less. -/
def nextValidOutputChannelCount (requested : UInt8) : Except Err UInt8 :=
  match ambisonicsChannelCounts.find? (fun v => decide (requested ≤ v)) with
  | some v => .ok v
  | none => .error .invalidArgument

/-- `ValidateOutputChannelCount` (ambisonics_config.cc:63-74). -/
def validateOutputChannelCount (c : UInt8) : Except Err Unit :=
  match nextValidOutputChannelCount c with
  | .error e => .error e
  | .ok v => if v = c then .ok () else .error .invalidArgument

/-- `AmbisonicsMonoConfig` (ambisonics_config.h:97-109). -/
structure AmbisonicsMono where
  substreamCount : UInt8
  channelMapping : List UInt8
  deriving DecidableEq, Repr

/-- The loop of `AmbisonicsMonoConfig::Create` (ambisonics_config.cc:118-133): every entry is inactive
(255) or names a substream. -/
def monoMappingInBounds (substreamCount : UInt8) (mapping : List UInt8) : Bool :=
  mapping.all fun i => i == 255 || decide (i < substreamCount)

/-- `AmbisonicsMonoConfig::Create` (ambisonics_config.cc:108-144).  The channel count passed to
`ValidateOutputChannelCount` is narrowed to `uint8_t`; the container size check (112) compares a size with
itself. -/
def AmbisonicsMono.create (substreamCount : UInt8) (mapping : List UInt8) : Except Err AmbisonicsMono :=
  match validateOutputChannelCount (UInt8.ofNat mapping.length) with
  | .error e => .error e
  | .ok () =>
    if !(decide (1 ≤ substreamCount.toNat) && decide (substreamCount.toNat ≤ mapping.length)) then .error .invalidArgument
    else if !monoMappingInBounds substreamCount mapping then .error .invalidArgument
    else if (mapping.filter (fun i => i != 255)).eraseDups.length ≠ substreamCount.toNat then .error .invalidArgument
    else .ok ⟨substreamCount, mapping⟩

/-- `WriteAmbisonicsMono` (ambisonics_config.cc:77-84); `GetOutputChannelCount` narrows the size
(ambisonics_config.h:75-77). -/
def AmbisonicsMono.write (c : AmbisonicsMono) : Wr Unit := do
  wU8 (UInt8.ofNat c.channelMapping.length) 8
  wU8 c.substreamCount 8
  wBytes c.channelMapping

/-- A reader that ends with a factory. -/
def Rd.ofExcept {α : Type} : Except Err α → Rd α
  | .ok a => .ret a
  | .error e => .fail e

/-- `AmbisonicsMonoConfig::CreateFromBuffer` (ambisonics_config.cc:146-155). -/
def AmbisonicsMono.read : Rd AmbisonicsMono := do
  let n ← rU8 8
  let s ← rU8 8
  let m ← rBytes n.toNat
  Rd.ofExcept (AmbisonicsMono.create s m)

/-- `AmbisonicsProjectionConfig` (ambisonics_config.h). -/
structure AmbisonicsProjection where
  outputChannelCount : UInt8
  substreamCount : UInt8
  coupledSubstreamCount : UInt8
  demixingMatrix : List Int16
  deriving DecidableEq, Repr

/-- The checks shared by `Create` (ambisonics_config.cc:166-179) and `CreateFromBuffer` (199-209). -/
def projectionCountsStatus (out sub coupled : UInt8) : Except Err Unit :=
  match validateOutputChannelCount out with
  | .error e => .error e
  | .ok () =>
    if coupled > sub then .error .invalidArgument
    else if !(decide (1 ≤ sub.toNat + coupled.toNat) && decide (sub.toNat + coupled.toNat ≤ out.toNat)) then
      .error .invalidArgument
    else .ok ()

/-- `AmbisonicsProjectionConfig::Create` (ambisonics_config.cc:162-188). -/
def AmbisonicsProjection.create (out sub coupled : UInt8) (matrix : List Int16) : Except Err AmbisonicsProjection :=
  match projectionCountsStatus out sub coupled with
  | .error e => .error e
  | .ok () =>
    if matrix.length ≠ (sub.toNat + coupled.toNat) * out.toNat then .error .invalidArgument
    else .ok ⟨out, sub, coupled, matrix⟩

/-- `WriteAmbisonicsProjection` (ambisonics_config.cc:88-104). -/
def AmbisonicsProjection.write (c : AmbisonicsProjection) : Wr Unit := do
  wU8 c.outputChannelCount 8
  wU8 c.substreamCount 8
  wU8 c.coupledSubstreamCount 8
  wAll wS16 c.demixingMatrix

/-- `AmbisonicsProjectionConfig::CreateFromBuffer` (ambisonics_config.cc:190-222). -/
def AmbisonicsProjection.read : Rd AmbisonicsProjection := do
  let o ← rU8 8
  let s ← rU8 8
  let c ← rU8 8
  Rd.status (projectionCountsStatus o s c)
  let m ← rRep rS16 ((s.toNat + c.toNat) * o.toNat)
  Rd.ofExcept (AmbisonicsProjection.create o s c m)

/-- The variant in `AmbisonicsConfig`. -/
inductive Ambisonics where
  | mono (c : AmbisonicsMono)
  | projection (c : AmbisonicsProjection)
  deriving DecidableEq, Repr

/-- `GetNumSubstreams` (ambisonics_config.cc:320-324). -/
def Ambisonics.numSubstreams : Ambisonics → UInt8
  | .mono c => c.substreamCount
  | .projection c => c.substreamCount

/-- `AmbisonicsConfig::ValidateAndWrite` (ambisonics_config.cc:259-274). -/
def Ambisonics.write : Ambisonics → Wr Unit
  | .mono c => do wUleb 0; c.write
  | .projection c => do wUleb 1; c.write

/-- `AmbisonicsConfig::ReadAndValidate` (ambisonics_config.cc:276-300); `initial` is the value of the
object before the call, kept for reserved modes. -/
def Ambisonics.read (initial : Ambisonics) : Rd Ambisonics := do
  let mode ← rUleb
  if mode = 0 then do
    let c ← AmbisonicsMono.read
    pure (.mono c)
  else if mode = 1 then do
    let c ← AmbisonicsProjection.read
    pure (.projection c)
  else pure initial

/-! ### Audio elements (audio_element.{h,cc}) -/

/-- `ChannelAudioLayerConfig` (audio_element.h:144-160). -/
structure ChannelLayer where
  layout : UInt8
  outputGainPresent : Bool
  reconGainPresent : Bool
  reservedA : UInt8
  substreamCount : UInt8
  coupledSubstreamCount : UInt8
  outputGainFlag : UInt8
  reservedB : UInt8
  outputGain : Int16
  expanded : Option UInt8
  deriving DecidableEq, Repr

/-- `kLayoutBinaural`, `kLayoutExpanded` (audio_element.h:83, 89). -/
def kLayoutBinaural : UInt8 := 9
def kLayoutExpanded : UInt8 := 15

/-- `ChannelAudioLayerConfig::Write` (audio_element.cc:281-302). -/
def ChannelLayer.write (c : ChannelLayer) : Wr Unit := do
  wU8 c.layout 4
  wBool c.outputGainPresent
  wBool c.reconGainPresent
  wU8 c.reservedA 2
  wU8 c.substreamCount 8
  wU8 c.coupledSubstreamCount 8
  (if c.outputGainPresent then do
    wU8 c.outputGainFlag 6
    wU8 c.reservedB 2
    wS16 c.outputGain
  else pure ())
  if c.layout = kLayoutExpanded then
    match c.expanded with
    | none => .fail .invalidArgument
    | some e => wU8 e 8
  else pure ()

/-- The optional gain of `ChannelAudioLayerConfig::Read` (audio_element.cc:315-319); the members keep their
default 0 otherwise (audio_element.h:152-154). -/
def rLayerGain (present : Bool) : Rd (UInt8 × UInt8 × Int16) :=
  if present then do
    let f ← rU8 6
    let r ← rU8 2
    let g ← rS16
    pure (f, r, g)
  else pure (0, 0, 0)

/-- The optional expanded layout (audio_element.cc:321-328). -/
def rLayerExpanded (layout : UInt8) : Rd (Option UInt8) :=
  if layout = kLayoutExpanded then do
    let e ← rU8 8
    pure (some e)
  else pure none

/-- `ChannelAudioLayerConfig::Read` (audio_element.cc:304-331). -/
def ChannelLayer.read : Rd ChannelLayer := do
  let l ← rU8 4
  let og ← rBool
  let rg ← rBool
  let ra ← rU8 2
  let sc ← rU8 8
  let cc ← rU8 8
  let g ← rLayerGain og
  let e ← rLayerExpanded l
  pure ⟨l, og, rg, ra, sc, cc, g.1, g.2.1, g.2.2, e⟩

/-- `ScalableChannelLayoutConfig` (audio_element.h:185-188). -/
structure ScalableLayout where
  reserved : UInt8
  layers : List ChannelLayer
  deriving DecidableEq, Repr

/-- `GetNumLayers` (audio_element.h:183): narrowed to `uint8_t`. -/
def ScalableLayout.numLayers (c : ScalableLayout) : UInt8 := UInt8.ofNat c.layers.length

/-- The cumulative count (audio_element.cc:350-351), in `uint32_t`. -/
def cumulativeSubstreams (l : List ChannelLayer) : UInt32 :=
  l.foldl (fun acc c => acc + c.substreamCount.toUInt32) 0

/-- `ScalableChannelLayoutConfig::Validate` (audio_element.cc:333-366). -/
def ScalableLayout.valid (c : ScalableLayout) (numSubstreams : UInt32) : Bool :=
  !(c.numLayers == 0 || decide (c.numLayers > 6)) &&
  cumulativeSubstreams c.layers == numSubstreams &&
  !(c.layers.any (fun x => x.layout == kLayoutBinaural) && c.numLayers != 1)

/-- `ValidateAndWriteScalableChannelLayout` (audio_element.cc:144-159). -/
def ScalableLayout.write (c : ScalableLayout) (numSubstreams : UInt32) : Wr Unit := do
  Wr.check (c.valid numSubstreams)
  wU8 c.numLayers 3
  wU8 c.reserved 5
  wAll ChannelLayer.write c.layers

/-- `ReadAndValidateScalableChannelLayout` (audio_element.cc:162-180). -/
def ScalableLayout.read (numSubstreams : UInt32) : Rd ScalableLayout := do
  let n ← rU8 3
  let r ← rU8 5
  let l ← rRep ChannelLayer.read n.toNat
  Rd.check (ScalableLayout.valid ⟨r, l⟩ numSubstreams)
  pure ⟨r, l⟩

/-- `ObjectsConfig` (audio_element.h:229-233). -/
structure ObjectsConfig where
  numObjects : UInt8
  extension : List UInt8
  deriving DecidableEq, Repr

/-- `ObjectsConfig::Create` (audio_element.cc:200-210). -/
def ObjectsConfig.create (n : UInt8) (ext : List UInt8) : Except Err ObjectsConfig :=
  if n > 2 ∨ n = 0 then .error .invalidArgument else .ok ⟨n, ext⟩

/-- `WriteObjectsConfig` (audio_element.cc:183-196); the size is narrowed to the `uint32_t` argument. -/
def ObjectsConfig.write (c : ObjectsConfig) : Wr Unit := do
  wU32 (UInt32.ofNat (c.extension.length + 1)) 8
  wU8 c.numObjects 8
  wBytes c.extension

/-- `ObjectsConfig::CreateFromBuffer` (audio_element.cc:212-228). -/
def ObjectsConfig.read : Rd ObjectsConfig := do
  let size ← rU8 8
  Rd.check (size != 0)
  let n ← rU8 8
  let ext ← rBytes (size.toNat - 1)
  Rd.ofExcept (ObjectsConfig.create n ext)

/-- `AudioElementConfig` (audio_element.h:268-270). -/
inductive ElementConfig where
  | scalable (c : ScalableLayout)
  | ambisonics (c : Ambisonics)
  | objects (c : ObjectsConfig)
  | extension (bytes : List UInt8)
  deriving DecidableEq, Repr

/-- `AudioElementObu` (audio_element.h:407-422).  The type is a 3-bit enum held in a `uint8_t`. -/
structure AudioElement where
  elementId : UInt32
  elementType : UInt8
  reserved : UInt8
  codecConfigId : UInt32
  substreamIds : List UInt32
  params : List ParamDef
  config : ElementConfig
  deriving DecidableEq, Repr

/-- `kMaxNumParameters` (audio_element.h:256) and `ValidateNumParameters` (audio_element.cc:84-100). -/
def kMaxNumParameters : Nat := 256

/-- `ValidateUniqueParamDefinitionType` (audio_element.cc:105-117). -/
def uniqueParamTypes (l : List ParamDef) : Bool := decide (l.map fun p => p.spec.type).Nodup

/-- `ValidateAndWriteAudioElementParam` (audio_element.cc:121-141). -/
def wElementParam (p : ParamDef) : Wr Unit := do
  wUleb p.spec.type
  Wr.check (p.spec.type != 0)
  p.write

/-- `AudioElementParam::ReadAndValidate` (audio_element.cc:243-279).  The audio element id that a recon gain
definition remembers is not modelled. -/
def rElementParam : Rd ParamDef := do
  let t ← rUleb
  if t = 0 then .fail .invalidArgument
  else if t = 2 then rParamDef 2
  else if t = 1 then rParamDef 1
  else rExtendedParamDef t

/-- The `switch` of `ValidateAndWritePayload` (audio_element.cc:500-523). -/
def AudioElement.writeConfig (a : AudioElement) : Wr Unit :=
  if a.elementType = 0 then
    match a.config with
    | .scalable c => c.write (UInt32.ofNat a.substreamIds.length)
    | _ => .fail .abort
  else if a.elementType = 1 then
    match a.config with
    | .ambisonics c => do
      Wr.check (UInt32.ofNat a.substreamIds.length == c.numSubstreams.toUInt32)
      c.write
    | _ => .fail .abort
  else if a.elementType = 2 then
    match a.config with
    | .objects c => c.write
    | _ => .fail .abort
  else
    match a.config with
    | .extension bytes => wSized bytes
    | _ => .fail .abort

/-- `AudioElementObu::ValidateAndWritePayload` (audio_element.cc:475-524). -/
def AudioElement.write (a : AudioElement) : Wr Unit := do
  Wr.check (uniqueParamTypes a.params)
  wUleb a.elementId
  wU8 a.elementType 3
  wU8 a.reserved 5
  wUleb a.codecConfigId
  wUleb (UInt32.ofNat a.substreamIds.length)
  wAll wUleb a.substreamIds
  Wr.check (!decide ((UInt32.ofNat a.params.length).toNat > kMaxNumParameters)) .unimplemented
  wUleb (UInt32.ofNat a.params.length)
  wAll wElementParam a.params
  a.writeConfig

/-- The `switch` of `ReadAndValidatePayloadDerived` (audio_element.cc:564-603).  For a reserved type the bytes are
read into a local that is dropped, and `config_` stays what the constructor left: an empty scalable layout
(audio_element.h:414, 425-429). -/
def rElementConfig (type : UInt8) (numSubstreams : UInt32) : Rd ElementConfig :=
  if type = 0 then do
    let c ← ScalableLayout.read numSubstreams
    pure (.scalable c)
  else if type = 1 then do
    let c ← Ambisonics.read (.mono ⟨1, [0]⟩)
    Rd.check (numSubstreams == c.numSubstreams.toUInt32)
    pure (.ambisonics c)
  else if type = 2 then do
    let c ← ObjectsConfig.read
    pure (.objects c)
  else do
    let n ← rUleb
    let _ ← rRep (rU8 8) n.toNat
    pure (.scalable ⟨0, []⟩)

/-- `AudioElementObu::ReadAndValidatePayloadDerived` (audio_element.cc:526-604). -/
def AudioElement.read (_payloadSize : Int) : Rd AudioElement := do
  let id ← rUleb
  let ty ← rU8 3
  let rs ← rU8 5
  let cc ← rUleb
  let n ← rUleb
  let ids ← rRep rUleb n.toNat
  Rd.check (decide ids.Nodup)
  let np ← rUleb
  Rd.check (!decide (np.toNat > kMaxNumParameters)) .unimplemented
  let ps ← rRep rElementParam np.toNat
  Rd.check (uniqueParamTypes ps)
  let c ← rElementConfig ty (UInt32.ofNat ids.length)
  pure ⟨id, ty, rs, cc, ids, ps, c⟩

/-- `CreateForScalableChannelLayout` (audio_element.cc:383-396); `size()` is narrowed to `uint32_t`. -/
def AudioElement.createScalable (id : UInt32) (reserved : UInt8) (cc : UInt32) (ids : List UInt32)
    (c : ScalableLayout) : Except Err AudioElement :=
  if !decide ids.Nodup then .error .invalidArgument
  else if !c.valid (UInt32.ofNat ids.length) then .error .invalidArgument
  else .ok ⟨id, 0, reserved, cc, ids, [], .scalable c⟩

/-- `CreateForAmbisonics` (audio_element.cc:398-412); `ValidateContainerSizeEqual` narrows the size to the type of
the reported size, `uint8_t` (validation_utils.h:40-50). -/
def AudioElement.createAmbisonics (id : UInt32) (reserved : UInt8) (cc : UInt32) (ids : List UInt32)
    (c : Ambisonics) : Except Err AudioElement :=
  if !decide ids.Nodup then .error .invalidArgument
  else if UInt8.ofNat ids.length ≠ c.numSubstreams then .error .invalidArgument
  else .ok ⟨id, 1, reserved, cc, ids, [], .ambisonics c⟩

/-- `CreateForObjects` (audio_element.cc:414-421). -/
def AudioElement.createObjects (id : UInt32) (reserved : UInt8) (cc : UInt32) (substream : UInt32)
    (c : ObjectsConfig) : Except Err AudioElement :=
  .ok ⟨id, 2, reserved, cc, [substream], [], .objects c⟩

/-- `CreateForExtension` (audio_element.cc:423-439). -/
def AudioElement.createExtension (id : UInt32) (type : UInt8) (reserved : UInt8) (cc : UInt32) (ids : List UInt32)
    (bytes : List UInt8) : Except Err AudioElement :=
  if !decide ids.Nodup then .error .invalidArgument
  else .ok ⟨id, type, reserved, cc, ids, [], .extension bytes⟩

end Iamf
