import Verif.Cli.ElementGenerator
import Verif.Cli.FrameGenerator
/-
  Builders of metadata for simple elements: iamf/cli/user_metadata_builder/, with the labels of
  iamf/cli/proto_conversion/channel_label_utils.cc.
-/
namespace Iamf

/-! ### Labels of the proto -/

/-- `kProtoAndInternalLabel` (channel_label_utils.cc:29-107) for channels of loudspeakers and objects; numbers are those of audio_frame.proto:17-117. -/
def protoLabels : List (UInt32 × Label) :=
  [(2, .mono), (3, .l2), (4, .r2), (67, .object0), (68, .object1), (6, .centre), (7, .lfe), (8, .l3), (9, .r3), (10, .ltf3), (11, .rtf3),
   (14, .l5), (15, .r5), (16, .ls5), (17, .rs5), (22, .ltf2), (23, .rtf2), (26, .ltf4), (27, .rtf4), (28, .ltb4), (29, .rtb4),
   (32, .l7), (33, .r7), (34, .lss7), (35, .rss7), (36, .lrs7), (37, .rrs7), (42, .flc), (43, .fc), (44, .frc), (45, .fl), (46, .fr),
   (47, .sil), (48, .sir), (49, .bl), (50, .br), (51, .tpfl), (52, .tpfr), (53, .tpsil), (54, .tpsir), (55, .tpbl), (56, .tpbr),
   (57, .bc), (58, .lfe2), (59, .tpfc), (60, .tpc), (61, .tpbc), (62, .btfc), (63, .btfl), (64, .btfr), (65, .btbl), (66, .btbr)]

/-- All of `kProtoAndInternalLabel` (channel_label_utils.cc:29-107): channel `n` of ambisonics is number `1000 + n`. -/
def allProtoLabels : List (UInt32 × Label) := protoLabels ++ (List.range 25).map fun n => (UInt32.ofNat (1000 + n), Label.a n)

/-- `ChannelLabelUtils::ProtoToLabel` (channel_label_utils.cc:111-118). -/
def labelFromProto (x : UInt32) : Except Err Label := match allProtoLabels.lookup x with
  | some l => .ok l
  | none => .error .notFound

/-- `ChannelLabelUtils::LabelToProto` (channel_label_utils.cc:120-127). -/
def labelToProto (l : Label) : Except Err UInt32 := match allProtoLabels.find? (fun x => x.2 == l) with
  | some x => .ok x.1
  | none => .error .notFound

/-! ### Layouts -/

/-- `IamfInputLayout` (iamf_input_layout.h:26-39). -/
inductive InputLayout where
  | mono | stereo | l51 | l512 | l514 | l71 | l714 | binaural | lfe | ambisonics1 | ambisonics2 | ambisonics3
  deriving DecidableEq, Repr

/-- `LookupInputLayoutFromAudioPackFormatId` (iamf_input_layout.cc:23-48). -/
def inputLayoutFromPackFormat (id : String) : Except Err InputLayout :=
  match [("AP_00010001", InputLayout.mono), ("AP_00010002", .stereo), ("AP_00010003", .l51), ("AP_00010004", .l512), ("AP_00010005", .l514),
    ("AP_0001000f", .l71), ("AP_00010017", .l714), ("AP_00050001", .binaural), ("AP_00011FFF", .lfe), ("AP_00040001", .ambisonics1),
    ("AP_00040002", .ambisonics2), ("AP_00040003", .ambisonics3)].lookup id with
  | some l => .ok l
  | none => .error .notFound

/-- `LookupNumSubstreamsFromInputLayout` (audio_element_metadata_builder.cc:29-54). -/
def InputLayout.numSubstreams : InputLayout → Nat
  | .mono => 1 | .stereo => 1 | .l51 => 4 | .l512 => 5 | .l514 => 6 | .l71 => 5 | .l714 => 7 | .binaural => 1 | .lfe => 1
  | .ambisonics1 => 4 | .ambisonics2 => 9 | .ambisonics3 => 16

/-- `LookupCoupledSubstreamCountFromInputLayout` (audio_element_metadata_builder.cc:56-78). -/
def InputLayout.coupledSubstreams : InputLayout → Except Err UInt32
  | .mono => .ok 0 | .stereo => .ok 1 | .l51 => .ok 2 | .l512 => .ok 3 | .l514 => .ok 4 | .l71 => .ok 3 | .l714 => .ok 5 | .binaural => .ok 1
  | .lfe => .ok 0
  | _ => .error .notFound

/-- `LookupLoudspeakerLayoutFromInputLayout` (audio_element_metadata_builder.cc:80-104), as numbers of the proto. -/
def InputLayout.loudspeakers : InputLayout → Except Err UInt32
  | .mono => .ok 1 | .stereo => .ok 2 | .l51 => .ok 3 | .l512 => .ok 4 | .l514 => .ok 5 | .l71 => .ok 6 | .l714 => .ok 8 | .binaural => .ok 10
  | .lfe => .ok 16
  | _ => .error .notFound

/-- `LookupExpandedLoudspeakerLayoutFromInputLayout` (audio_element_metadata_builder.cc:106-123), as numbers of the proto. -/
def InputLayout.expanded : InputLayout → Except Err UInt32
  | .lfe => .ok 1
  | _ => .error .notFound

/-- `LookupAudioElementTypeFromInputLayout` (audio_element_metadata_builder.cc:125-153), as numbers of the proto. -/
def InputLayout.elementType : InputLayout → UInt32
  | .ambisonics1 | .ambisonics2 | .ambisonics3 => 2
  | _ => 1

/-! ### Elements -/

/-- A message without any fields. -/
def HeaderMetadata.empty : HeaderMetadata := ⟨false, false, false, 0, 0, []⟩

/-- `PopulateChannelBasedAudioElementMetadata` (audio_element_metadata_builder.cc:155-198). -/
def channelConfigFor (l : InputLayout) : Except Err ElementConfigMetadata := do
  let speakers ← l.loudspeakers
  let coupled ← l.coupledSubstreams
  if speakers = 16 then do
    let e ← l.expanded
    .ok (.scalable 0 [⟨false, speakers, 0, 0, 0, UInt32.ofNat l.numSubstreams, coupled, 0, 0, 0, e⟩])
  else .ok (.scalable 0 [⟨false, speakers, 0, 0, 0, UInt32.ofNat l.numSubstreams, coupled, 0, 0, 0, 0⟩])

/-- `PopulateSceneBasedAudioElementMetadata` (audio_element_metadata_builder.cc:200-221). -/
def sceneConfigFor (l : InputLayout) : ElementConfigMetadata :=
  .ambisonics (.mono (UInt32.ofNat l.numSubstreams) (UInt32.ofNat l.numSubstreams) ((List.range l.numSubstreams).map UInt32.ofNat))

/-- `AudioElementMetadataBuilder::PopulateAudioElementMetadata` (audio_element_metadata_builder.cc:226-267) for an empty message, with the
counter that it leaves.  The counter is an `int64_t`, modelled without its bound; ids are its lower 32 bits. -/
def populateElement (counter : Nat) (id codecConfigId : UInt32) (l : InputLayout) : Except Err (ElementMetadata × Nat) := do
  let config ← (if l.elementType = 1 then channelConfigFor l else .ok (sceneConfigFor l))
  .ok (⟨id, l.elementType, 0, codecConfigId, (List.range l.numSubstreams).map (fun i => UInt32.ofNat (counter + i)), [], config, .empty⟩,
    counter + l.numSubstreams)

/-- One use of the builder: the id of the element, the id of its codec config and its layout. -/
structure ElementRequest where
  id : UInt32
  codecConfigId : UInt32
  layout : InputLayout
  deriving DecidableEq, Repr

/-- All uses of one builder, from `counter` on. -/
def populateElements : Nat → List ElementRequest → Except Err (List ElementMetadata)
  | _, [] => .ok []
  | counter, r :: rs => do
    let x ← populateElement counter r.id r.codecConfigId r.layout
    let ms ← populateElements x.2 rs
    .ok (x.1 :: ms)

/-! ### Frames -/

/-- `LookupLabelsFromInputLayout` (audio_frame_metadata_builder.cc:29-83), as numbers of the proto. -/
def InputLayout.protoChannels : InputLayout → List UInt32
  | .mono => [2]
  | .stereo => [3, 4]
  | .l51 => [14, 15, 6, 7, 16, 17]
  | .l512 => [14, 15, 6, 7, 16, 17, 22, 23]
  | .l514 => [14, 15, 6, 7, 16, 17, 26, 27, 28, 29]
  | .l71 => [32, 33, 6, 7, 34, 35, 36, 37]
  | .l714 => [32, 33, 6, 7, 34, 35, 36, 37, 26, 27, 28, 29]
  | .binaural => [3, 4]
  | .lfe => [7]
  | .ambisonics1 => [1000, 1001, 1002, 1003]
  | .ambisonics2 => [1000, 1001, 1002, 1003, 1004, 1005, 1006, 1007, 1008]
  | .ambisonics3 => [1000, 1001, 1002, 1003, 1004, 1005, 1006, 1007, 1008, 1009, 1010, 1011, 1012, 1013, 1014, 1015]

/-- `channel_metadatas` as `AudioFrameMetadataBuilder::PopulateAudioFrameMetadata` (audio_frame_metadata_builder.cc:88-115) adds them to an
empty message: labels of the proto with ids of channels. -/
def channelsFor (l : InputLayout) : List (UInt32 × UInt32) := l.protoChannels.zip ((List.range l.protoChannels.length).map UInt32.ofNat)

/-- `AudioFrameMetadataBuilder::PopulateAudioFrameMetadata` (audio_frame_metadata_builder.cc:88-115) for an empty message, with labels
converted (channel_label_utils.h:57-85) as `FrameMetadata` has them. -/
def populateFrame (elementId : UInt32) (l : InputLayout) : Except Err FrameMetadata := do
  let labels ← castAll labelFromProto ((channelsFor l).map Prod.fst)
  .ok ⟨elementId, labels, 0, 0, false, false⟩

/-! ### Codecs -/

/-- `GetLpcmCodecConfigObuMetadata` (codec_config_obu_metadata_builder.cc:24-42). -/
def lpcmCodecMetadata (id samplesPerFrame : UInt32) (sampleSize : UInt8) (sampleRate : UInt32) : CodecConfigMetadata :=
  ⟨id, ⟨false, some kCodecIdLpcm, samplesPerFrame, 0, .lpcm ⟨2, sampleSize.toUInt32, sampleRate⟩, true, true⟩, .empty⟩

/-- `GetOpusCodecConfigObuMetadata` (codec_config_obu_metadata_builder.cc:44-72), without the metadata of the encoder. -/
def opusCodecMetadata (id samplesPerFrame : UInt32) : CodecConfigMetadata :=
  ⟨id, ⟨false, some kCodecIdOpus, samplesPerFrame, 0, .opus ⟨1, 2, 0, 48000, 0, 0⟩, true, true⟩, .empty⟩

end Iamf
