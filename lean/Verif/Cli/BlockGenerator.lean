import Verif.Cli.Partition
import Verif.Cli.Processor
/-
  Parameter blocks from metadata: iamf/cli/proto_conversion/proto_to_obu/parameter_block_generator.{h,cc}.

  A call that fails may leave the generator, the timing module and the list of blocks changed in part; such states are not modelled: the run
  ends there.  `double`s are numbers without rounding.
-/
namespace Iamf

/-! ### Contents of subblocks -/

/-- `StaticCastIfInRange<int32_t, int16_t>` (numeric_utils.h). -/
def castInt16 (x : Int32) : Except Err Int16 :=
  if -32768 ≤ x.toInt ∧ x.toInt ≤ 32767 then .ok x.toInt16 else .error .invalidArgument

/-- `StaticCastIfInRange<uint32_t, uint8_t>` (numeric_utils.h). -/
def castUInt8 (x : UInt32) : Except Err UInt8 := if x.toNat ≤ 255 then .ok x.toUInt8 else .error .invalidArgument

/-- `GenerateMixGainSubblock` (parameter_block_generator.cc:77-137). -/
def generateMixGain : GainMetadata → Except Err MixGainData
  | .unset => .error .invalidArgument
  | .step s => do
    let s ← castInt16 s
    .ok (.step s)
  | .linear s e => do
    let s ← castInt16 s
    let e ← castInt16 e
    .ok (.linear s e)
  | .bezier s e c t => do
    let s ← castInt16 s
    let e ← castInt16 e
    let c ← castInt16 c
    let t ← castUInt8 t
    .ok (.bezier s e c t)

/-- `kProtoAndInternalDMixPModes` (lookup_tables.h:64-77, parameter_data.proto:82-94, demixing_info_parameter_data.h:40-49). -/
def dmixpModeFromProto (m : UInt32) : Except Err UInt8 := if 1 ≤ m ∧ m ≤ 8 then .ok (m - 1).toUInt8 else .error .notFound

/-- `CopyDemixingInfoParameterData` (proto_utils.cc:134-152). -/
def generateDemixing (mode reserved : UInt32) : Except Err DemixingInfo := do
  let m ← dmixpModeFromProto mode
  let r ← castUInt8 reserved
  .ok ⟨m, r⟩

/-! ### Recon gains -/

/-- The loop over numbers of surround channels of `FindDemixedChannels` (parameter_block_generator.cc:145-176): `before` are the surround
channels of the layer below; the numbers still to do are given. -/
def reconSurround (before : Nat) : List Nat → Except Err (List Label)
  | [] => .ok []
  | s :: l => do
    let here : List Label ← (match s with
      | 2 => .ok (if before = 1 then [.demixedR2] else [])
      | 3 => .ok [.demixedL3, .demixedR3]
      | 5 => .ok [.demixedLs5, .demixedRs5]
      | 7 => .ok [.demixedL7, .demixedR7, .demixedLrs7, .demixedRrs7]
      | _ => if 7 < s then .error .invalidArgument else .ok [])
    let rest ← reconSurround before l
    .ok (here ++ rest)

/-- The heights of `FindDemixedChannels` (parameter_block_generator.cc:178-188). -/
def reconHeight (below layer : ChannelNumbers) : List Label :=
  if below.height = 2 then
    if layer.height = 4 then [.demixedLtb4, .demixedRtb4]
    else if layer.height = 2 ∧ below.surround = 3 ∧ 3 < layer.surround then [.demixedLtf2, .demixedRtf2]
    else []
  else []

/-- `FindDemixedChannels` (parameter_block_generator.cc:139-191). -/
def findDemixedChannels (below layer : ChannelNumbers) : Except Err (List Label) := do
  let s ← reconSurround below.surround (List.range' (below.surround + 1) (layer.surround - below.surround))
  .ok (s ++ reconHeight below layer)

/-- The `switch` of `ConvertReconGainsAndFlags` (parameter_block_generator.cc:203-252): what is not listed ends at position 0. -/
def reconPosition : Label → Nat
  | .demixedL7 | .demixedL5 | .demixedL3 => 0
  | .demixedR7 | .demixedR5 | .demixedR3 | .demixedR2 => 2
  | .demixedLs5 => 3
  | .demixedRs5 => 4
  | .demixedLtf2 => 5
  | .demixedRtf2 => 6
  | .demixedLrs7 => 7
  | .demixedRrs7 => 8
  | .demixedLtb4 => 9
  | .demixedRtb4 => 10
  | _ => 0

/-- `static_cast<uint8_t>` of a `double` (parameter_block_generator.cc:254-255): undefined if the whole part does not fit. -/
def reconGainByte (x : Rat) : Except Err UInt8 :=
  if 0 ≤ truncRat (x * 255) ∧ truncRat (x * 255) ≤ 255 then .ok (UInt8.ofNat (truncRat (x * 255)).toNat) else .error .ub

/-- The loop of `ConvertReconGainsAndFlags` (parameter_block_generator.cc:199-257), over the hash map in its order. -/
def convertReconGains : List (Label × Rat) → UInt32 × List UInt8 → Except Err (UInt32 × List UInt8)
  | [], r => .ok r
  | (l, x) :: rest, (flag, gains) => do
    let b ← reconGainByte x
    convertReconGains rest (flag ||| (1 <<< UInt32.ofNat (reconPosition l)), gains.set (reconPosition l) b)

/-- What the recon gains of one element are computed from (parameter_block_generator.cc:360-372): `gain` is `ComputeReconGain` with the
original and the decoded frame of the element, if there are both; `rank` gives the order in which the hash map of gains is iterated over. -/
structure ReconSource where
  gain : Option (Label → Except Err Rat)
  rank : Label → Nat

/-- The gain of each label (parameter_block_generator.cc:283-287). -/
def gainsOfLabels (gain : Label → Except Err Rat) : List Label → Except Err (List (Label × Rat))
  | [] => .ok []
  | l :: ls => do
    let x ← gain l
    let rest ← gainsOfLabels gain ls
    .ok ((l, x) :: rest)

/-- `ComputeReconGains` (parameter_block_generator.cc:262-307); `flag` is the entry of `recon_gain_is_present_flags`. -/
def computeReconGains (gain : Label → Except Err Rat) (rank : Label → Nat) (index : Nat) (layer below : ChannelNumbers) (flag : Bool) :
    Except Err (UInt32 × List UInt8) := do
  let gains ← (if 0 < index then do
      let labels ← findDemixedChannels below layer
      gainsOfLabels gain labels
    else .ok [])
  if flag ≠ !gains.isEmpty then .error .invalidArgument
  else convertReconGains (sortBy (fun a b => decide (rank a.1 ≤ rank b.1)) gains) (0, List.replicate 12 0)

/-- The two loops over the recon gains given by the user (parameter_block_generator.cc:346-356).  The keys of the map of a message are
distinct; values are narrowed without a check; a position above 11 is outside of the vector. -/
def userReconGains : List (UInt32 × UInt32) → UInt32 × List UInt8 → Except Err (UInt32 × List UInt8)
  | [], r => .ok r
  | (p, x) :: rest, (flag, gains) =>
    if p.toNat < 12 then userReconGains rest (flag ||| (1 <<< p), gains.set p.toNat x.toUInt8) else .error .ub

/-- One layer of `GenerateReconGainSubblock` (parameter_block_generator.cc:331-414); `r` are `audio_element_id_` and the numbers of channels in
`aux_data_` of the definition. -/
def generateReconLayer (override : Bool) (source : UInt32 → ReconSource) (r : UInt32 × List ChannelNumbers) (user : List (List (UInt32 × UInt32))) (index : Nat)
    (flag : Bool) : Except Err (Option ReconGainElement) :=
  if !flag then .ok none
  else match user[index]? with
    | none => .error .ub
    | some given => do
      let u ← userReconGains given (0, List.replicate 12 0)
      if override then .ok (some ⟨u.1, u.2⟩)
      else match (source r.1).gain with
        | none => .error .invalidArgument
        | some gain => match r.2[index]?, (if 0 < index then r.2[index - 1]? else some ⟨0, 0, 0, 0⟩) with
          | some layer, some below => do
            let c ← computeReconGains gain (source r.1).rank index layer below flag
            if c.1 ≠ u.1 then .error .invalidArgument
            else if c.2 ≠ u.2 then .error .invalidArgument
            else .ok (some ⟨u.1, u.2⟩)
          | _, _ => .error .ub

/-- The loop over layers of `GenerateReconGainSubblock` from a layer on. -/
def generateReconLayers (override : Bool) (source : UInt32 → ReconSource) (r : UInt32 × List ChannelNumbers) (user : List (List (UInt32 × UInt32))) :
    Nat → List Bool → Except Err (List (Option ReconGainElement))
  | _, [] => .ok []
  | i, flag :: flags => do
    let e ← generateReconLayer override source r user i flag
    let es ← generateReconLayers override source r user (i + 1) flags
    .ok (e :: es)

/-- `GenerateReconGainSubblock` (parameter_block_generator.cc:309-417). -/
def generateReconGain (override : Bool) (source : UInt32 → ReconSource) (r : UInt32 × List ChannelNumbers) (flags : List Bool)
    (user : List (List (UInt32 × UInt32))) : Except Err (List (Option ReconGainElement)) :=
  if 1 < flags.length ∧ flags.length ≠ user.length then .error .invalidArgument
  else generateReconLayers override source r user 0 flags

/-! ### Blocks -/

/-- The contents that a getter of `ParameterSubblock` returns: an empty message if it holds something else. -/
def SubblockContent.asMixGain : SubblockContent → GainMetadata
  | .mixGain g => g
  | _ => .unset
def SubblockContent.asDemixing : SubblockContent → UInt32 × UInt32
  | .demixing m r => (m, r)
  | _ => (0, 0)
def SubblockContent.asReconGain : SubblockContent → List (List (UInt32 × UInt32))
  | .reconGain l => l
  | _ => []

/-- `GenerateParameterBlockSubblock` (parameter_block_generator.cc:411-479). -/
def generateSubblock (override : Bool) (source : UInt32 → ReconSource) (d : ParamEntry) (index : Nat) (m : SubblockMetadata) :
    Except Err ParamData :=
  match d.1.spec with
  | .mixGain _ => do
    let g ← generateMixGain m.content.asMixGain
    .ok (.mixGain g)
  | .demixing _ =>
    if 1 < index then .error .invalidArgument
    else do
      let x ← generateDemixing m.content.asDemixing.1 m.content.asDemixing.2
      .ok (.demixing x)
  | .reconGain flags =>
    if 1 < index then .error .invalidArgument
    else do
      let x ← generateReconGain override source (d.2.getD (0, [])) flags m.content.asReconGain
      .ok (.reconGain flags x)
  | _ => .error .invalidArgument

/-- The loop of `PopulateSubblocks` (parameter_block_generator.cc:541-547). -/
def generateSubblocks (override : Bool) (source : UInt32 → ReconSource) (d : ParamEntry) : Nat → List SubblockMetadata →
    Except Err (List (Option ParamData))
  | _, [] => .ok []
  | i, m :: ms => do
    let x ← generateSubblock override source d i m
    let xs ← generateSubblocks override source d (i + 1) ms
    .ok (some x :: xs)

/-- The duration used by `PopulateCommonFields` (parameter_block_generator.cc:487-494). -/
def blockDuration (p : ParamDef) (b : BlockMetadata ObuHeader) : UInt32 := if p.base.schedule.isSome then p.base.duration else b.duration

/-- The schedule given to the OBU (parameter_block_generator.cc:503-522). -/
def blockSchedule (p : ParamDef) (b : BlockMetadata ObuHeader) : Except Err (Option SubblockSchedule) :=
  if p.base.schedule.isSome then .ok none
  else do
    let s ← b.schedule
    .ok (some s)

/-- `ParameterBlockObu::GetNumSubblocks` (parameter_block.cc:159-162, param_definition_base.cc). -/
def numSubblocksOf (p : ParamDef) (s : Option SubblockSchedule) : UInt32 := match s with
  | some s => s.numSubblocks
  | none => match p.base.schedule with
    | some s => s.numSubblocks
    | none => 0

/-- One turn of `GenerateParameterBlocks` (parameter_block_generator.cc:649-679) with `PopulateCommonFields` and `PopulateSubblocks`
(480-550).  The constructor of the OBU sets its type (obu_base.h). -/
def generateBlock (override : Bool) (source : UInt32 → ReconSource) (definitions : List (UInt32 × ParamEntry)) (b : BlockMetadata ObuHeader)
    (t : TimingModule) : Except Err (BlockWithData × TimingModule) :=
  match definitions.lookup b.id with
  | none => .error .abort
  | some d => match t.nextBlock b.id b.start (blockDuration d.1 b) with
    | ((.error e, _, _), _) => .error e
    | ((.ok (), start, stop), t) => do
      let s ← blockSchedule d.1 b
      if (numSubblocksOf d.1 s).toNat ≠ b.subblocks.length then .error .invalidArgument
      else do
        let xs ← generateSubblocks override source d 0 b.subblocks
        .ok (⟨⟨d.1.base.id, s, xs⟩, start, stop, { b.header with obuType := 3 }, d.1⟩, t)

/-- `GenerateParameterBlocks` (parameter_block_generator.cc:641-699): the blocks are added to the list of the caller. -/
def generateBlocks (override : Bool) (source : UInt32 → ReconSource) (definitions : List (UInt32 × ParamEntry)) :
    List (BlockMetadata ObuHeader) → TimingModule → List BlockWithData → Except Err (List BlockWithData × TimingModule)
  | [], t, out => .ok (out, t)
  | b :: bs, t, out => do
    let r ← generateBlock override source definitions b t
    generateBlocks override source definitions bs r.2 (out ++ [r.1])

/-- `ParameterBlockGenerator` (parameter_block_generator.h:139-153): the lists of `typed_proto_metadata_` that are ever taken from. -/
structure BlockGenerator where
  override : Bool
  definitions : List (UInt32 × ParamEntry)
  demixing : List (BlockMetadata ObuHeader)
  mixGain : List (BlockMetadata ObuHeader)
  reconGain : List (BlockMetadata ObuHeader)
  deriving DecidableEq

/-- The constructor and `Initialize` (parameter_block_generator.cc:565-598): blocks of extension parameters are not supported. -/
def BlockGenerator.create (override : Bool) (definitions : List (UInt32 × ParamEntry)) : Except Err BlockGenerator :=
  if definitions.any fun d => decide (8 < d.2.1.spec.type) then .error .invalidArgument else .ok ⟨override, definitions, [], [], []⟩

/-- `AddMetadata` (parameter_block_generator.cc:600-618). -/
def BlockGenerator.addMetadata (g : BlockGenerator) (b : BlockMetadata ObuHeader) : Except Err BlockGenerator :=
  match g.definitions.lookup b.id with
  | none => .error .invalidArgument
  | some d => match d.1.spec with
    | .demixing _ => .ok { g with demixing := g.demixing ++ [b] }
    | .mixGain _ => .ok { g with mixGain := g.mixGain ++ [b] }
    | .reconGain _ => .ok { g with reconGain := g.reconGain ++ [b] }
    | _ => .ok g

/-- Without frames (parameter_block_generator.cc:623-636), no recon gains are asked for. -/
def noSource : UInt32 → ReconSource := fun _ => ⟨none, fun _ => 0⟩

/-- `GenerateDemixing` (parameter_block_generator.cc:620-630). -/
def BlockGenerator.generateDemixing (g : BlockGenerator) (t : TimingModule) (out : List BlockWithData) :
    Except Err (BlockGenerator × TimingModule × List BlockWithData) := do
  let r ← generateBlocks g.override noSource g.definitions g.demixing t out
  .ok ({ g with demixing := [] }, r.2, r.1)

/-- `GenerateMixGain` (parameter_block_generator.cc:632-642). -/
def BlockGenerator.generateMixGain (g : BlockGenerator) (t : TimingModule) (out : List BlockWithData) :
    Except Err (BlockGenerator × TimingModule × List BlockWithData) := do
  let r ← generateBlocks g.override noSource g.definitions g.mixGain t out
  .ok ({ g with mixGain := [] }, r.2, r.1)

/-- `GenerateReconGain` (parameter_block_generator.cc:644-655). -/
def BlockGenerator.generateReconGain (g : BlockGenerator) (source : UInt32 → ReconSource) (t : TimingModule) (out : List BlockWithData) :
    Except Err (BlockGenerator × TimingModule × List BlockWithData) := do
  let r ← generateBlocks g.override source g.definitions g.reconGain t out
  .ok ({ g with reconGain := [] }, r.2, r.1)

end Iamf
