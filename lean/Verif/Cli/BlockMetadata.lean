import Verif.Cli.BlockGenerator
/-
  Metadata from parameter blocks: iamf/cli/proto_conversion/obu_to_proto/parameter_block_metadata_generator.cc.
-/
namespace Iamf

/-- `AnimatedParameterDataInt16ToMetadata` (parameter_block_metadata_generator.cc:37-73) and `ParamDataToMetadata` for mix gains
(75-92). -/
def gainMetadata : MixGainData → GainMetadata
  | .step s => .step s.toInt32
  | .linear s e => .linear s.toInt32 e.toInt32
  | .bezier s e c t => .bezier s.toInt32 e.toInt32 c.toInt32 t.toUInt32

/-- `CopyDMixPMode` (proto_utils.cc:154-161, lookup_tables.h:64-77). -/
def dmixpModeToProto (m : UInt8) : Except Err UInt32 := if m.toNat < 8 then .ok (m.toUInt32 + 1) else .error .notFound

/-- The loop over the positions of one layer (parameter_block_metadata_generator.cc:124-131), from position `i` on.  The keys of the map
are given in ascending order; the order in which the map is iterated over later is not specified. -/
def flaggedGains (flag : UInt32) : Nat → UInt32 → List UInt8 → List (UInt32 × UInt32)
  | _, _, [] => []
  | i, mask, g :: gs =>
    if flag &&& mask ≠ 0 then (UInt32.ofNat i, g.toUInt32) :: flaggedGains flag (i + 1) (mask <<< 1) gs
    else flaggedGains flag (i + 1) (mask <<< 1) gs

/-- One layer of `ParamDataToMetadata` for recon gains (parameter_block_metadata_generator.cc:111-132). -/
def layerMetadata : Option ReconGainElement → List (UInt32 × UInt32)
  | none => []
  | some e => flaggedGains e.flag 0 1 e.gains

/-- `GenerateParameterSubblockMetadata` (parameter_block_metadata_generator.cc:150-184): the metadata and the bytes of an extension.  The
`static_cast`s are undefined for data that are not of the type of the definition. -/
def subblockMetadata (spec : ParamSpecific) (duration : Option UInt32) (x : ParamData) : Except Err (SubblockMetadata × Option (List UInt8)) :=
  match spec, x with
  | .mixGain _, .mixGain d => .ok (⟨duration.getD 0, .mixGain (gainMetadata d)⟩, none)
  | .mixGain _, _ => .error .ub
  | .demixing _, .demixing d => do
    let m ← dmixpModeToProto d.dmixpMode
    .ok (⟨duration.getD 0, .demixing m d.reserved.toUInt32⟩, none)
  | .demixing _, _ => .error .ub
  | .reconGain _, .reconGain _ es => .ok (⟨duration.getD 0, .reconGain (es.map layerMetadata)⟩, none)
  | .reconGain _, _ => .error .ub
  | _, .extension bytes => .ok (⟨duration.getD 0, .unset⟩, some bytes)
  | _, _ => .error .ub

end Iamf
