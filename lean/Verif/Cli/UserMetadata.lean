import Verif.Cli.ObuGenerator
import Verif.Cli.Encoder

/-!
# An encoder from user metadata

The first part of `IamfEncoder::Create` (iamf/cli/iamf_encoder.cc), which makes all descriptor OBUs from user metadata, and the call that
puts both parts together.
-/

namespace Iamf

/-- `UserMetadata` (user_metadata.proto), the part from which descriptor OBUs are made. -/
structure UserMetadata where
  sequenceHeaders : List SequenceHeaderMetadata
  metadataObus : List MetadataObuMetadata
  codecs : List CodecConfigMetadata
  elements : List ElementMetadata
  mixes : List MixMetadata
  addBuildTag : Bool
  arbitrary : List ArbitraryObuMetadata
  leb : LebMetadata
  delimiters : Bool
  override : Bool
  deriving DecidableEq, Repr

/-- The descriptor OBUs (iamf_encoder.cc:260-317); all arbitrary OBUs are still together.  The hash maps are lists in the order of the metadata;
the order in which a hash map is gone through is that of the library, but sequencers sort them (C34).  No footers are made. -/
def sequenceFromMetadata (delay : CodecMetadata → CodecConfig → Except Err UInt32) (u : UserMetadata) : Except Err SequenceObus :=
  match u.sequenceHeaders with
  | [m] => match generateSequenceHeader m with
    | .error e => .error e
    | .ok none => .error .invalidArgument
    | .ok (some header) => do
      let metadata ← generateMetadataObus u.metadataObus
      let codecs ← generateCodecConfigs delay u.codecs []
      let elements ← generateElementObus codecs u.elements []
      let mixes ← generateMixes u.addBuildTag u.mixes
      let arbitrary ← generateArbitraryObus u.arbitrary
      .ok ⟨⟨header.1, header.2, []⟩, metadata, codecs.map fun c => (c.1, ⟨c.2.header, c.2.forElement, []⟩),
        elements.map fun e => (e.1, ⟨e.2.header, e.2.element, []⟩), mixes.map fun x => ⟨x.1, x.2, []⟩, arbitrary⟩
  | _ => .error .invalidArgument

/-- What `IamfEncoder::Create` takes from factories and from the user metadata for audio frames, as functions of the descriptor OBUs: encoders,
frame metadata, down-mixing, the decoder, the finalizer and other sequencers. -/
structure EncoderFactories (L : EncoderLib) (P : EncoderParts) (σ : Type) where
  newEncoder : CodecObu → Nat → UInt32 → Except Err (Encoder L.State)
  frames : List FrameMetadata
  downMixing : SequenceObus → Except Err (IdMap DownmixingConfig)
  decoders : SequenceObus → Except Err P.Decoders
  finalizer : SequenceObus → Except Err P.Finalizer
  others : LebGen → List (Sequencer σ)

/-- `IamfEncoder::Create` (iamf_encoder.cc:254-432). -/
def IamfEncoder.createFrom {L : EncoderLib} {P : EncoderParts} {σ : Type} (K : Sink σ) (delay : CodecMetadata → CodecConfig → Except Err UInt32)
    (F : EncoderFactories L P σ) (u : UserMetadata) : Except Err (IamfEncoder L P σ) := do
  let d ← sequenceFromMetadata delay u
  let finalizer ← F.finalizer d
  let downMixing ← F.downMixing d
  let decoders ← F.decoders d
  match lebFromMetadata u.leb with
  | none => .error .invalidArgument
  | some g => IamfEncoder.create K g u.delimiters F.newEncoder d u.override F.frames downMixing decoders finalizer (F.others g)

end Iamf
