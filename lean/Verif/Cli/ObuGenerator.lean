import Verif.Cli.MixGenerator
import Verif.Cli.Sequencer

/-!
# Arbitrary OBUs and metadata OBUs from user metadata

`ArbitraryObuGenerator` and `MetadataObuGenerator` (iamf/cli/proto_conversion/proto_to_obu), and the choice of a LEB128 generator
(`CreateLebGenerator`, proto_utils.cc).  Strings and byte fields of the protocol buffers are lists of bytes; an enum is its number.
-/

namespace Iamf

/-- `ArbitraryObuMetadata` (arbitrary_obu.proto:78-91). -/
structure ArbitraryObuMetadata where
  insertionHook : UInt32
  obuType : UInt32
  header : HeaderMetadata
  payload : List UInt8
  invalidatesBitstream : Bool
  insertionTick : Int64
  deriving DecidableEq, Repr

/-- `CopyArbitraryObuType` with `kProtoArbitraryObuTypeAndInternalObuTypes` (arbitrary_obu_generator.cc:34-44, lookup_tables.h:242-280,
arbitrary_obu.proto:19-57): the numbers in the protocol buffer are those of the bitstream plus one. -/
def obuTypeFromProto (t : UInt32) : Except Err ObuType := if 1 ≤ t ∧ t ≤ 32 then .ok (t - 1).toUInt8 else .error .notFound

/-- The `switch` over hooks in `ArbitraryObuGenerator::Generate` (arbitrary_obu_generator.cc:55-95). -/
def hookFromProto (hook : UInt32) (tick : Int64) : Except Err (Nat × Option Int) :=
  if hook = 1 then .ok (0, none)
  else if hook = 2 then .ok (1, none)
  else if hook = 3 then .ok (2, none)
  else if hook = 4 then .ok (3, none)
  else if hook = 5 then .ok (4, none)
  else if hook = 6 then .ok (5, none)
  else if hook = 7 then .ok (6, some tick.toInt)
  else if hook = 8 then .ok (7, some tick.toInt)
  else if hook = 9 then .ok (8, some tick.toInt)
  else .error .invalidArgument

/-- The body of the loop in `ArbitraryObuGenerator::Generate` (arbitrary_obu_generator.cc:51-106). -/
def generateArbitraryObu (m : ArbitraryObuMetadata) : Except Err ArbitraryObu := do
  let t ← obuTypeFromProto m.obuType
  let hook ← hookFromProto m.insertionHook m.insertionTick
  .ok ⟨headerFromMetadata t m.header, m.payload, hook.1, hook.2, m.invalidatesBitstream⟩

/-- `ArbitraryObuGenerator::Generate` (arbitrary_obu_generator.cc:47-113). -/
def generateArbitraryObus (ms : List ArbitraryObuMetadata) : Except Err (List ArbitraryObu) := castAll generateArbitraryObu ms

/-- `MetadataObuMetadata` (metadata_obu.proto:18-39): none, or one of the messages. -/
inductive MetadataObuMetadata where
  | unset
  | ituT35 (countryCode : UInt32) (extensionByte : Option UInt32) (payload : List UInt8)
  | tags (tags : List (List UInt8 × List UInt8))
  deriving DecidableEq, Repr

/-- `CreateMetadataITUTT35` (metadata_obu_generator.cc:28-45): the numbers are narrowed without a check, and the extension byte is kept if the
country code that was given is `0xff`. -/
def ituT35FromMetadata (countryCode : UInt32) (extensionByte : Option UInt32) (payload : List UInt8) : Metadata :=
  .ituT35 countryCode.toUInt8 (if countryCode = 0xff then extensionByte.map UInt32.toUInt8 else none) payload

/-- `CreateMetadataObu` (metadata_obu_generator.cc:47-71): the header is always the default header. -/
def generateMetadataObu : MetadataObuMetadata → Except Err (Obu Metadata)
  | .unset => .error .invalidArgument
  | .ituT35 cc ext payload => .ok ⟨⟨ObuType.metadata, false, false, 0, 0, none⟩, ituT35FromMetadata cc ext payload, []⟩
  | .tags tags => .ok ⟨⟨ObuType.metadata, false, false, 0, 0, none⟩, .iamfTags tags, []⟩

/-- `MetadataObuGenerator::Generate` (metadata_obu_generator.cc:75-86). -/
def generateMetadataObus (ms : List MetadataObuMetadata) : Except Err (List (Obu Metadata)) := castAll generateMetadataObu ms

/-- `Leb128Generator` (test_vector_metadata.proto). -/
structure LebMetadata where
  mode : UInt32
  fixedSize : Int32
  deriving DecidableEq, Repr

/-- `CreateLebGenerator` (proto_utils.cc:163-186); `none` is `nullptr`. -/
def lebFromMetadata (m : LebMetadata) : Option LebGen :=
  if m.mode = 1 then LebGen.create .kMinimum 0
  else if m.mode = 2 then if -128 ≤ m.fixedSize.toInt ∧ m.fixedSize.toInt ≤ 127 then LebGen.create .kFixedSize m.fixedSize.toInt8 else none
  else none

end Iamf
