import Verif.Obu.AudioElementProofs
/-
  `iamf/obu/element_gain_offset_config.{h,cc}`, `iamf/obu/rendering_config.{h,cc}` and
  `iamf/obu/mix_presentation.{h,cc}`.
-/
namespace Iamf

/-! ### Element gain offset (element_gain_offset_config.{h,cc}) -/

/-- `ElementGainOffsetConfigVariant` (element_gain_offset_config.h:85-114).  A `QFormatOrFloatingPoint` is
represented by its Q7.8 value: that is all the bitstream functions look at. -/
inductive GainOffset where
  | value (offset : Int16)
  | range (default min max : Int16)
  | extension (type : UInt8) (bytes : List UInt8)
  deriving DecidableEq, Repr

/-- `CreateRangeType` (element_gain_offset_config.cc:96-112). -/
def GainOffset.createRange (default min max : Int16) : Except Err GainOffset :=
  if min.toInt ≤ default.toInt ∧ default.toInt ≤ max.toInt then .ok (.range default min max) else .error .invalidArgument

/-- `CreateExtensionType` (element_gain_offset_config.cc:114-131). -/
def GainOffset.createExtension (type : UInt8) (bytes : List UInt8) : Except Err GainOffset :=
  if type = 0 ∨ type = 1 then .error .invalidArgument else .ok (.extension type bytes)

/-- `ElementGainOffsetConfig::Write` (element_gain_offset_config.cc:46-67, 171-175). -/
def GainOffset.write : GainOffset → Wr Unit
  | .value v => do
    wU8 0 8
    wS16 v
  | .range d mn mx => do
    wU8 1 8
    wS16 d
    wS16 mn
    wS16 mx
  | .extension t bytes => do
    wU8 t 8
    wSized bytes

/-- `ElementGainOffsetConfig::CreateFromBuffer` (element_gain_offset_config.cc:133-169). -/
def GainOffset.read : Rd GainOffset := do
  let t ← rU8 8
  if t = 0 then do
    let v ← rS16
    pure (.value v)
  else if t = 1 then do
    let d ← rS16
    let mn ← rS16
    let mx ← rS16
    Rd.ofExcept (GainOffset.createRange d mn mx)
  else do
    let bytes ← rSized
    Rd.ofExcept (GainOffset.createExtension t bytes)

/-! ### Rendering config (rendering_config.{h,cc}) -/

/-- The alternatives of `PositionParamVariant` (rendering_config.h:35-38). -/
def ParamSpecific.positional : ParamSpecific → Bool
  | .polar .. | .cart8 .. | .cart16 .. | .dualPolar .. | .dualCart8 .. | .dualCart16 .. => true
  | _ => false

/-- `RenderingConfigParamDefinition` (rendering_config.h:40-92).  `param_definition_type` is the type of the
variant alternative, as set by `Create` (rendering_config.cc:172-185); `param_definition_bytes` are kept by
`Create` but never written for these types (rendering_config.cc:48-81). -/
structure RenderingParam where
  definition : ParamDef
  bytes : List UInt8
  deriving DecidableEq, Repr

/-- `WriteRenderingConfigParamDefinition` (rendering_config.cc:43-89); the variant always holds one of the
six positional definitions, so the `default` branch is not taken. -/
def RenderingParam.write (p : RenderingParam) : Wr Unit := do
  wUleb p.definition.spec.type
  p.definition.write

/-- `RenderingConfigParamDefinition::CreateFromBuffer` (rendering_config.cc:187-243); `IgnoreBytes` is
read_bit_buffer.cc:338-340. -/
def RenderingParam.read : Rd RenderingParam := do
  let t ← rUleb
  if t = 3 ∨ t = 4 ∨ t = 5 ∨ t = 6 ∨ t = 7 ∨ t = 8 then do
    let d ← rParamDef t
    pure ⟨d, []⟩
  else do
    let n ← rUleb
    .tell fun p => .seek (p + (n.toNat : Int) * 8) (.fail .unimplemented)

/-- `RenderingConfig` (rendering_config.h:94-157). -/
structure RenderingConfig where
  headphonesMode : UInt8
  binauralProfile : UInt8
  reserved : UInt8
  params : List RenderingParam
  gainOffset : Option GainOffset
  extensionBytes : List UInt8
  deriving DecidableEq, Repr

/-- The optional element gain offset (rendering_config.cc:118-120). -/
def wGainOffset : Option GainOffset → Wr Unit
  | none => .ret ()
  | some g => g.write

/-- The well-defined part of the extension (rendering_config.cc:91-103, 116-120). -/
def wRenderingFields (params : List RenderingParam) (gainOffset : Option GainOffset) : Wr Unit := do
  wUleb (UInt32.ofNat params.length)
  wAll RenderingParam.write params
  wGainOffset gainOffset

/-- `RenderingConfig::ValidateAndWrite` (rendering_config.cc:321-344) with `WriteRenderingConfigExtension`
(105-130); the `ABSL_CHECK` of line 123 becomes `abort`. -/
def RenderingConfig.write (c : RenderingConfig) : Wr Unit := do
  wU8 c.headphonesMode 2
  wBool c.gainOffset.isSome
  wU8 c.binauralProfile 2
  wU8 c.reserved 3
  if c.params = [] ∧ c.gainOffset = none ∧ c.extensionBytes = [] then wUleb 0
  else do
    let tmp ← Wr.sub ((wRenderingFields c.params c.gainOffset).bind fun _ => wBytes c.extensionBytes)
    Wr.check tmp.isByteAligned .abort
    wUleb (UInt32.ofNat tmp.bytes.length)
    wBytes tmp.bytes

/-- `ReadRenderingConfigExtension` (rendering_config.cc:132-160). -/
def rRenderingFields (flag : Bool) : Rd (List RenderingParam × Option GainOffset) := do
  let n ← rUleb
  let ps ← rRep RenderingParam.read n.toNat
  if flag then do
    let g ← GainOffset.read
    pure (ps, some g)
  else pure (ps, none)

/-- The part of `RenderingConfig::CreateFromBuffer` that handles a non-empty extension
(rendering_config.cc:276-318). -/
def rRenderingExtension (flag : Bool) (size : UInt32) : Rd (List RenderingParam × Option GainOffset × List UInt8) :=
  .tell fun start => .attempt (rRenderingFields flag) fun r =>
    match r with
    | .ok x => .tell fun now =>
      if (size.toNat : Int) - (now - start) / 8 < 0 then .fail .invalidArgument
      else (rBytes ((size.toNat : Int) - (now - start) / 8).toNat).bind fun ext => .ret (x.1, x.2, ext)
    | .error _ => .seek start ((rBytes size.toNat).bind fun ext => .ret ([], none, ext))

/-- `RenderingConfig::CreateFromBuffer` (rendering_config.cc:245-319). -/
def RenderingConfig.read : Rd RenderingConfig := do
  let mode ← rU8 2
  let flag ← rBool
  let profile ← rU8 2
  let reserved ← rU8 3
  let size ← rUleb
  Rd.check (!decide (size > 2097152))
  if size = 0 then pure ⟨mode, profile, reserved, [], none, []⟩
  else do
    let x ← rRenderingExtension flag size
    pure ⟨mode, profile, reserved, x.1, x.2.1, x.2.2⟩

/-! ### Mix presentations (mix_presentation.{h,cc}) -/

/-- `SubMixAudioElement` (mix_presentation.h:37-57). -/
structure SubMixElement where
  id : UInt32
  annotations : List (List UInt8)
  rendering : RenderingConfig
  mixGain : ParamDef
  deriving DecidableEq, Repr

/-- `LoudnessInfo` (mix_presentation.h:59-128); anchored loudness elements are pairs (element, loudness). -/
structure LoudnessInfo where
  infoType : UInt8
  integratedLoudness : Int16
  digitalPeak : Int16
  truePeak : Int16
  anchors : List (UInt8 × Int16)
  extension : List UInt8
  deriving DecidableEq, Repr

/-- The variant of `Layout` (mix_presentation.h:136-221). -/
inductive SpecificLayout where
  | soundSystem (system reserved : UInt8)
  | other (reserved : UInt8)
  deriving DecidableEq, Repr

/-- `Layout` (mix_presentation.h:228-256). -/
structure Layout where
  type : UInt8
  specific : SpecificLayout
  deriving DecidableEq, Repr

/-- `MixPresentationLayout` (mix_presentation.h:259-273). -/
structure MixLayout where
  layout : Layout
  loudness : LoudnessInfo
  deriving DecidableEq, Repr

/-- `MixPresentationSubMix` (mix_presentation.h:276-298). -/
structure SubMix where
  elements : List SubMixElement
  outputMixGain : ParamDef
  layouts : List MixLayout
  deriving DecidableEq, Repr

/-- `MixPresentationOptionalFields` (mix_presentation.h:351-376). -/
structure MixOptionalFields where
  size : UInt32
  loudspeakerRenderer : UInt8
  binauralRenderer : UInt8
  remaining : List UInt8
  deriving DecidableEq, Repr

/-- `MixPresentationObu` without its header (mix_presentation.h:395-523); a tag is a pair (name, value). -/
structure MixPresentation where
  id : UInt32
  countLabel : UInt32
  languages : List (List UInt8)
  annotations : List (List UInt8)
  subMixes : List SubMix
  tags : Option (List (List UInt8 × List UInt8))
  optionalFields : Option MixOptionalFields
  deriving DecidableEq, Repr

/-- The identifiers checked by `ValidateUniqueAudioElementIds` (mix_presentation.cc:45-58). -/
def subMixElementIds (l : List SubMix) : List UInt32 := l.flatMap fun s => s.elements.map SubMixElement.id

/-- `ValidateAndWriteSubMixAudioElement` (mix_presentation.cc:73-91). -/
def SubMixElement.write (countLabel : UInt32) (e : SubMixElement) : Wr Unit := do
  wUleb e.id
  Wr.check (UInt32.ofNat e.annotations.length == countLabel)
  wAll wString e.annotations
  e.rendering.write
  e.mixGain.write

/-- `HasStereoLayout` (mix_presentation.cc:93-106).  `std::get` on the wrong alternative is not modelled here:
writing such a layout has already aborted (see `SpecificLayout.write`), and reading never makes one. -/
def hasStereoLayout (l : List MixLayout) : Bool :=
  l.any fun x => x.layout.type == 2 && match x.layout.specific with | .soundSystem s _ => s == 0 | .other _ => false

/-- The switch of `ValidateAndWriteLayout` (mix_presentation.cc:116-130, 460-464, 477-481): `std::get` on the
wrong alternative throws, which ends the program. -/
def SpecificLayout.write (type : UInt8) : SpecificLayout → Wr Unit
  | .soundSystem s r =>
    if type = 2 then do
      wU8 s 4
      wU8 r 2
    else .fail .abort
  | .other r => if type = 2 then .fail .abort else wU8 r 6

/-- `anchor_element`, `anchored_loudness` (mix_presentation.cc:152-156). -/
def wAnchor (a : UInt8 × Int16) : Wr Unit := do
  wU8 a.1 8
  wS16 a.2

def kTruePeak : UInt8 := 0x01
def kAnchoredLoudness : UInt8 := 0x02
def kAnyLayoutExtension : UInt8 := 0xfc

/-- Anchored loudness on writing (mix_presentation.cc:142-157). -/
def wAnchors (l : List (UInt8 × Int16)) : Wr Unit := do
  Wr.check (decide (l.map Prod.fst).Nodup)
  Wr.check (decide (l.length ≤ 255))
  wU8 (UInt8.ofNat l.length) 8
  wAll wAnchor l

/-- An optional part of a structure. -/
def wWhen (c : Bool) (w : Wr Unit) : Wr Unit := if c then w else .ret ()

/-- The loudness part of `ValidateAndWriteLayout` (mix_presentation.cc:132-166). -/
def LoudnessInfo.write (l : LoudnessInfo) : Wr Unit := do
  wU8 l.infoType 8
  wS16 l.integratedLoudness
  wS16 l.digitalPeak
  wWhen (l.infoType &&& kTruePeak != 0) (wS16 l.truePeak)
  wWhen (l.infoType &&& kAnchoredLoudness != 0) (wAnchors l.anchors)
  wWhen (l.infoType &&& kAnyLayoutExtension != 0) (wSized l.extension)

/-- `ValidateAndWriteLayout` (mix_presentation.cc:109-167). -/
def MixLayout.write (l : MixLayout) : Wr Unit := do
  wU8 l.layout.type 2
  l.layout.specific.write l.layout.type
  l.loudness.write

/-- `ValidateAndWriteSubMix` (mix_presentation.cc:169-200). -/
def SubMix.write (countLabel : UInt32) (s : SubMix) : Wr Unit := do
  Wr.check (UInt32.ofNat s.elements.length != 0)
  wUleb (UInt32.ofNat s.elements.length)
  wAll (SubMixElement.write countLabel) s.elements
  s.outputMixGain.write
  wUleb (UInt32.ofNat s.layouts.length)
  wAll MixLayout.write s.layouts
  Wr.check (hasStereoLayout s.layouts)

/-- `Layout::ReadAndValidate` (mix_presentation.cc:210-233, 469-475, 483-485). -/
def Layout.read : Rd Layout := do
  let t ← rU8 2
  if t = 2 then do
    let s ← rU8 4
    let r ← rU8 2
    pure ⟨t, .soundSystem s r⟩
  else do
    let r ← rU8 6
    pure ⟨t, .other r⟩

/-- `anchor_element`, `anchored_loudness` (mix_presentation.cc:254-262). -/
def rAnchor : Rd (UInt8 × Int16) := do
  let a ← rU8 8
  let l ← rS16
  pure (a, l)

/-- Anchored loudness on reading (mix_presentation.cc:250-265). -/
def rAnchors : Rd (List (UInt8 × Int16)) := do
  let n ← rU8 8
  let l ← rRep rAnchor n.toNat
  Rd.check (decide (l.map Prod.fst).Nodup)
  pure l

/-- An optional part of a structure: absent fields keep their default value. -/
def rWhen {α : Type} (c : Bool) (default : α) (r : Rd α) : Rd α := if c then r else .ret default

/-- The loudness part of `MixPresentationLayout::ReadAndValidate` (mix_presentation.cc:239-279). -/
def LoudnessInfo.read : Rd LoudnessInfo := do
  let t ← rU8 8
  let i ← rS16
  let d ← rS16
  let p ← rWhen (t &&& kTruePeak != 0) 0 rS16
  let a ← rWhen (t &&& kAnchoredLoudness != 0) [] rAnchors
  let e ← rWhen (t &&& kAnyLayoutExtension != 0) [] rSized
  pure ⟨t, i, d, p, a, e⟩

/-- `MixPresentationLayout::ReadAndValidate` (mix_presentation.cc:235-280). -/
def MixLayout.read : Rd MixLayout := do
  let l ← Layout.read
  let i ← LoudnessInfo.read
  pure ⟨l, i⟩

/-- `SubMixAudioElement::ReadAndValidate` (mix_presentation.cc:282-301). -/
def SubMixElement.read (countLabel : UInt32) : Rd SubMixElement := do
  let id ← rUleb
  let a ← rRep rString countLabel.toNat
  let r ← RenderingConfig.read
  let m ← rParamDef 0
  pure ⟨id, a, r, m⟩

/-- `LoudnessInfo()` (mix_presentation.h:94-128, mix_presentation.cc:343). -/
def LoudnessInfo.default : LoudnessInfo := ⟨0, 0, 0, 0, [], []⟩

/-- The stereo layout appended to non-compliant sub-mixes (mix_presentation.cc:325-344). -/
def withStereoLayout (l : List MixLayout) : List MixLayout :=
  if hasStereoLayout l then l
  else l ++ [⟨⟨2, .soundSystem 0 0⟩, match l.getLast? with | some x => x.loudness | none => LoudnessInfo.default⟩]

/-- `MixPresentationSubMix::ReadAndValidate` (mix_presentation.cc:303-347). -/
def SubMix.read (countLabel : UInt32) : Rd SubMix := do
  let n ← rUleb
  Rd.check (n != 0)
  let es ← rRep (SubMixElement.read countLabel) n.toNat
  let g ← rParamDef 0
  let k ← rUleb
  let ls ← rRep MixLayout.read k.toNat
  pure ⟨es, g, withStereoLayout ls⟩

/-- "content_language" (mix_presentation.cc:391). -/
def contentLanguageName : List UInt8 :=
  [0x63, 0x6f, 0x6e, 0x74, 0x65, 0x6e, 0x74, 0x5f, 0x6c, 0x61, 0x6e, 0x67, 0x75, 0x61, 0x67, 0x65]

/-- One iteration of the loop in `MixPresentationTags::ValidateAndWrite` (mix_presentation.cc:390-398, 349-361). -/
def wMixTag (t : List UInt8 × List UInt8) : Wr Unit := do
  Wr.check (t.1 != contentLanguageName || t.2.length == 3)
  wTag t

/-- `MixPresentationTags::ValidateAndWrite` (mix_presentation.cc:383-407). -/
def wMixTags (l : List (List UInt8 × List UInt8)) : Wr Unit := do
  Wr.check (decide (l.length ≤ 255))
  wU8 (UInt8.ofNat l.length) 8
  wAll wMixTag l
  Wr.check (decide ((l.filter fun t => t.1 == contentLanguageName).length ≤ 1))

/-- `MixPresentationTags::CreateFromBuffer` (mix_presentation.cc:363-381). -/
def rMixTags : Rd (List (List UInt8 × List UInt8)) := do
  let n ← rU8 8
  rRep rTag n.toNat

/-- `MixPresentationOptionalFields::ValidateAndWrite` (mix_presentation.cc:442-457).  The expected number of
remaining bytes is computed in `size_t`, so that it wraps for sizes 0 and 1. -/
def MixOptionalFields.write (o : MixOptionalFields) : Wr Unit := do
  wUleb o.size
  wU8 o.loudspeakerRenderer 8
  wU8 o.binauralRenderer 8
  Wr.check (UInt64.ofNat o.remaining.length == o.size.toUInt64 - 2)
  wBytes o.remaining

/-- `MixPresentationOptionalFields::CreateFromBuffer` (mix_presentation.cc:409-440). -/
def MixOptionalFields.read : Rd MixOptionalFields := do
  let n ← rUleb
  Rd.check (inRange32 n 2 2097152)
  let l ← rU8 8
  let b ← rU8 8
  let r ← rBytes (n.toNat - 2)
  pure ⟨n, l, b, r⟩

/-- The part of `ValidateAndWritePayload` before the tags (mix_presentation.cc:536-568). -/
def MixPresentation.writeMain (m : MixPresentation) : Wr Unit := do
  wUleb m.id
  wUleb m.countLabel
  Wr.check (decide m.languages.Nodup)
  Wr.check (UInt32.ofNat m.languages.length == m.countLabel)
  wAll wString m.languages
  Wr.check (UInt32.ofNat m.annotations.length == m.countLabel)
  wAll wString m.annotations
  wUleb (UInt32.ofNat m.subMixes.length)
  Wr.check (UInt32.ofNat m.subMixes.length != 0)
  Wr.check (decide (subMixElementIds m.subMixes).Nodup)
  wAll (SubMix.write m.countLabel) m.subMixes

/-- The tags, if any (mix_presentation.cc:570-572). -/
def wMixTagsOption : Option (List (List UInt8 × List UInt8)) → Wr Unit
  | some t => wMixTags t
  | none => .ret ()

/-- The optional fields (mix_presentation.cc:575-579). -/
def wMixOptional (m : MixPresentation) : Wr Unit := do
  Wr.check m.tags.isSome
  match m.optionalFields with
  | some o => o.write
  | none => .fail .invalidArgument

/-- The rest of `ValidateAndWritePayload` (mix_presentation.cc:570-582). -/
def MixPresentation.writeRest (optionalFieldsFlag : Bool) (m : MixPresentation) : Wr Unit := do
  wMixTagsOption m.tags
  wWhen optionalFieldsFlag (wMixOptional m)

/-- `MixPresentationObu::ValidateAndWritePayload` (mix_presentation.cc:531-583). -/
def MixPresentation.write (optionalFieldsFlag : Bool) (m : MixPresentation) : Wr Unit := do
  m.writeMain
  m.writeRest optionalFieldsFlag

/-- The part of `ReadAndValidatePayloadDerived` before the tags (mix_presentation.cc:597-639). -/
def rMixMain : Rd MixPresentation := do
  let id ← rUleb
  let c ← rUleb
  Rd.check (!decide (c > 256))
  let ls ← rRep rString c.toNat
  Rd.check (decide ls.Nodup)
  let as ← rRep rString c.toNat
  let n ← rUleb
  Rd.check (!decide (n > 28))
  let ss ← rRep (SubMix.read c) n.toNat
  Rd.check (n != 0)
  Rd.check (decide (subMixElementIds ss).Nodup)
  pure ⟨id, c, ls, as, ss, none, none⟩

/-- The tags and optional fields (mix_presentation.cc:663-680). -/
def rMixRest (optionalFieldsFlag : Bool) (m : MixPresentation) : Rd MixPresentation := do
  let t ← rMixTags
  if optionalFieldsFlag then do
    let o ← MixOptionalFields.read
    pure { m with tags := some t, optionalFields := some o }
  else pure { m with tags := some t }

/-- `MixPresentationObu::ReadAndValidatePayloadDerived` (mix_presentation.cc:593-681).  The `ABSL_DCHECK` of
line 647 is not part of release builds. -/
def MixPresentation.read (optionalFieldsFlag : Bool) (payloadSize : Int) : Rd MixPresentation :=
  .tell fun start => rMixMain.bind fun m => .tell fun now =>
    if now < start then .fail .invalidArgument
    else if (now - start) / 8 = payloadSize then
      if optionalFieldsFlag then .fail .invalidArgument else .ret m
    else rMixRest optionalFieldsFlag m

/-- The table of `GetNumChannelsFromLayout` (mix_presentation.cc:496-514). -/
def soundSystemChannels : List (UInt8 × Int) :=
  [(0, 2), (1, 6), (2, 8), (3, 10), (4, 11), (5, 12), (6, 14), (7, 24), (8, 8), (9, 12), (10, 10), (11, 6),
    (12, 1), (13, 16), (14, 17)]

/-- `MixPresentationObu::GetNumChannelsFromLayout` (mix_presentation.cc:487-529). -/
def numChannelsFromLayout (l : Layout) : Except Err Int :=
  if l.type = 3 then .ok 2
  else if l.type = 2 then
    match l.specific with
    | .soundSystem s _ =>
      match soundSystemChannels.lookup s with
      | some n => .ok n
      | none => .error .notFound
    | .other _ => .error .abort
  else .error .invalidArgument

end Iamf
