import Verif.Obu.AudioElement
/-
  Demixing and recon gain parameters over time: iamf/obu/demixing_info_parameter_data.cc and
  iamf/cli/parameters_manager.{h,cc}.
-/
namespace Iamf

/-! ### Maps -/

/-- `absl::flat_hash_map` / `std::map` keyed by ids: what is observable is which keys are present and their values.
(Iteration order is modelled separately where it matters.) -/
abbrev IdMap (α : Type) := UInt32 → Option α

def IdMap.empty {α : Type} : IdMap α := fun _ => none
/-- `m[k] = v` -/
def IdMap.set {α : Type} (m : IdMap α) (k : UInt32) (v : α) : IdMap α := fun i => if i = k then some v else m i
/-- `m.insert({k, v})`: an existing entry is kept. -/
def IdMap.insert {α : Type} (m : IdMap α) (k : UInt32) (v : α) : IdMap α :=
  fun i => if i = k then some ((m k).getD v) else m i

/-! ### Down-mixing parameters -/

/-- `DownMixingParams` (demixing_info_parameter_data.h:27-36).  The `double`s are given exactly, in units of 1/10000;
the rounding of these decimal constants to binary is not modelled. -/
structure DownMixingParams where
  alpha : Nat
  beta : Nat
  gamma : Nat
  delta : Nat
  wIdxOffset : Int
  wIdxUsed : Int
  w : Nat
  inBitstream : Bool
  deriving DecidableEq, Repr

/-- `DemixingInfoParameterData::WIdxUpdateRule` (demixing_info_parameter_data.h:51-55). -/
inductive WIdxRule where
  | normal | firstFrame | default
  deriving DecidableEq, Repr

/-- `kDmixPModeToDownMixingParamValues` (demixing_info_parameter_data.cc:32-40): alpha, beta, gamma, delta, offset. -/
def dmixpModeValues (mode : UInt8) : Option (Nat × Nat × Nat × Nat × Int) :=
  if mode = 0 then some (10000, 10000, 7070, 7070, -1)
  else if mode = 1 then some (7070, 7070, 7070, 7070, -1)
  else if mode = 2 then some (10000, 8660, 8660, 8660, -1)
  else if mode = 4 then some (10000, 10000, 7070, 7070, 1)
  else if mode = 5 then some (7070, 7070, 7070, 7070, 1)
  else if mode = 6 then some (10000, 8660, 8660, 8660, 1)
  else none

/-- `kWIdxToWValues` (demixing_info_parameter_data.cc:42-53). -/
def wIdxValues (i : Int) : Option Nat :=
  if i < 0 then none else [0, 179, 391, 658, 1038, 2500, 3962, 4342, 4609, 4821, 5000][i.toNat]?

/-- `std::clamp(x, 0, 10)`. -/
def clampW (x : Int) : Int := if x < 0 then 0 else if 10 < x then 10 else x

/-- `DemixingInfoParameterData::DMixPModeToDownMixingParams` (demixing_info_parameter_data.cc:28-89). -/
def dmixpModeToParams (mode : UInt8) (previousW : Int) (rule : WIdxRule) : Except Err DownMixingParams :=
  match dmixpModeValues mode with
  | none => .error .invalidArgument
  | some (a, b, c, d, off) =>
    let wIdx := match rule with
      | .normal => clampW (previousW + off)
      | .firstFrame => 0
      | .default => previousW
    match wIdxValues wIdx with
    | none => .error .invalidArgument
    | some w => .ok ⟨a, b, c, d, off, wIdx, w, true⟩

/-! ### The manager -/

/-- `ParameterBlockWithData` (parameter_block_with_data.h:24-28), with the header of its OBU and the definition that the OBU points
to. -/
structure BlockWithData where
  obu : ParameterBlock
  start : Int
  stop : Int
  header : ObuHeader
  definition : ParamDef
  deriving DecidableEq, Repr

/-- `ParametersManager::DemixingState` (parameters_manager.h:131-146); `w_idx` starts value-initialized. -/
structure DemixingState where
  definition : ParamBase
  default : DefaultDemixingInfo
  previousW : Int
  w : Int
  nextTimestamp : Int
  rule : WIdxRule
  deriving DecidableEq, Repr

/-- `ParametersManager::ReconGainState` (parameters_manager.h:148-153). -/
structure ReconGainState where
  definition : ParamBase
  nextTimestamp : Int
  deriving DecidableEq, Repr

/-- `ParametersManager` (parameters_manager.h:180-192).  A null pointer in the block maps is `none`; pointers to blocks
are modelled as the blocks (the caller must keep them alive and unchanged, parameters_manager.h:88-101). -/
structure ParametersManager where
  demixBlocks : IdMap (Option BlockWithData)
  reconBlocks : IdMap (Option BlockWithData)
  demix : IdMap DemixingState
  recon : IdMap ReconGainState

/-- The loop over the parameters of an audio element in `Create` (parameters_manager.cc:114-140).
An extension definition that claims one of the two types fails the `ABSL_CHECK_NE`. -/
def collectParams : List ParamDef → Option (ParamBase × DefaultDemixingInfo) × Option ParamBase →
    Except Err (Option (ParamBase × DefaultDemixingInfo) × Option ParamBase)
  | [], st => .ok st
  | p :: ps, st =>
    if p.spec.type = 1 then
      if st.1.isSome then .error .invalidArgument
      else match p.spec with
        | .demixing d => collectParams ps (some (p.base, d), st.2)
        | _ => .error .abort
    else if p.spec.type = 2 then
      if st.2.isSome then .error .invalidArgument
      else match p.spec with
        | .reconGain _ => collectParams ps (st.1, some p.base)
        | _ => .error .abort
    else collectParams ps st

/-- The part of the loop of `Create` that registers what was found (parameters_manager.cc:142-165). -/
def ParametersManager.register (pm : ParametersManager) (id : UInt32)
    (found : Option (ParamBase × DefaultDemixingInfo) × Option ParamBase) : ParametersManager :=
  let pm := match found.1 with
    | none => pm
    | some (b, d) => { pm with
        demixBlocks := pm.demixBlocks.insert b.id none
        demix := pm.demix.set id ⟨b, d, 0, 0, 0, .firstFrame⟩ }
  match found.2 with
  | none => pm
  | some b => { pm with
      reconBlocks := pm.reconBlocks.insert b.id none
      recon := pm.recon.set id ⟨b, 0⟩ }

/-- `ParametersManager::Create` (parameters_manager.cc:95-171); the elements in the map's iteration order. -/
def ParametersManager.createFrom (pm : ParametersManager) : List (UInt32 × AudioElement) → Except Err ParametersManager
  | [] => .ok pm
  | (id, a) :: rest =>
    match collectParams a.params (none, none) with
    | .error e => .error e
    | .ok found => (pm.register id found).createFrom rest

def ParametersManager.create (elements : List (UInt32 × AudioElement)) : Except Err ParametersManager :=
  ParametersManager.createFrom ⟨.empty, .empty, .empty, .empty⟩ elements

namespace ParametersManager

/-- `DemixingParamDefinitionAvailable` (parameters_manager.cc:173-176). -/
def demixingAvailable (pm : ParametersManager) (element : UInt32) : Bool := (pm.demix element).isSome

/-- `GetDownMixingParameters` (parameters_manager.cc:185-233).  The first subblock is accessed without a check and
cast without a check: an empty list, a null pointer or another kind of data is undefined behaviour. -/
def getDownMixing (pm : ParametersManager) (element : UInt32) : Except Err DownMixingParams × ParametersManager :=
  match pm.demix element with
  | none => (.ok ⟨7070, 7070, 7070, 7070, 0, 0, 0, false⟩, pm)
  | some st =>
    match pm.demixBlocks st.definition.id with
    | none => (.error .abort, pm)
    | some none => (dmixpModeToParams st.default.info.dmixpMode st.default.defaultW.toNat .default, pm)
    | some (some b) =>
      if st.nextTimestamp ≠ b.start then (.error .invalidArgument, pm)
      else match b.obu.subblocks with
        | some (.demixing d) :: _ =>
          match dmixpModeToParams d.dmixpMode st.previousW st.rule with
          | .error e => (.error e, pm)
          | .ok p => (.ok p, { pm with demix := pm.demix.set element { st with w := p.wIdxUsed } })
        | _ => (.error .ub, pm)

/-- A layer without recon gains: 0 dB everywhere (parameters_manager.cc:245-252, 271-278). -/
def neutralReconGain : Option ReconGainElement := some ⟨0, List.replicate kNumReconGains 255⟩

/-- `GetReconGainInfoParameterData` (parameters_manager.cc:235-310), into an output that was empty.
`num_layers` is an `int32_t`; the loops for the defaults run as often as it is positive. -/
def getReconGain (pm : ParametersManager) (element : UInt32) (numLayers : Int32) :
    Except Err (List (Option ReconGainElement)) :=
  match pm.recon element with
  | none => .ok (List.replicate numLayers.toInt.toNat neutralReconGain)
  | some st =>
    match pm.reconBlocks st.definition.id with
    | none => .error .abort
    | some none => .ok (List.replicate numLayers.toInt.toNat neutralReconGain)
    | some (some b) =>
      if st.nextTimestamp ≠ b.start then .error .invalidArgument
      else match b.obu.subblocks with
        | [] => .error .invalidArgument
        | some (.reconGain _ es) :: _ =>
          if 0 < numLayers.toInt ∧ es.length ≠ numLayers.toInt.toNat then .error .invalidArgument else .ok es
        | _ => .error .ub

/-- `AddDemixingParameterBlock` (parameters_manager.cc:312-316). -/
def addDemixing (pm : ParametersManager) (b : BlockWithData) : ParametersManager :=
  { pm with demixBlocks := pm.demixBlocks.set b.obu.parameterId (some b) }

/-- `AddReconGainParameterBlock` (parameters_manager.cc:318-322). -/
def addReconGain (pm : ParametersManager) (b : BlockWithData) : ParametersManager :=
  { pm with reconBlocks := pm.reconBlocks.set b.obu.parameterId (some b) }

/-- `UpdateDemixingState` (parameters_manager.cc:324-343) with `UpdateParameterState` (parameters_manager.cc:47-91):
the next timestamp is stored before it is compared, and kept when the comparison fails. -/
def updateDemixing (pm : ParametersManager) (element : UInt32) (expected : Int) : Except Err Unit × ParametersManager :=
  match pm.demix element with
  | none => (.ok (), pm)
  | some st =>
    match pm.demixBlocks st.definition.id with
    | none => (.error .abort, pm)
    | some none => (.ok (), pm)
    | some (some b) =>
      let st := { st with nextTimestamp := b.stop }
      if expected ≠ b.stop then (.error .invalidArgument, { pm with demix := pm.demix.set element st })
      else
        let st := { st with previousW := st.w, rule := if st.rule = .firstFrame then .normal else st.rule }
        (.ok (), { pm with
          demixBlocks := pm.demixBlocks.set st.definition.id none
          demix := pm.demix.set element st })

/-- `UpdateReconGainState` (parameters_manager.cc:345-353). -/
def updateReconGain (pm : ParametersManager) (element : UInt32) (expected : Int) : Except Err Unit × ParametersManager :=
  match pm.recon element with
  | none => (.ok (), pm)
  | some st =>
    match pm.reconBlocks st.definition.id with
    | none => (.error .abort, pm)
    | some none => (.ok (), pm)
    | some (some b) =>
      let st := { st with nextTimestamp := b.stop }
      if expected ≠ b.stop then (.error .invalidArgument, { pm with recon := pm.recon.set element st })
      else (.ok (), { pm with
        reconBlocks := pm.reconBlocks.set st.definition.id none
        recon := pm.recon.set element st })

end ParametersManager

/-- The calls a user of a `ParametersManager` can make. -/
inductive ParamCall where
  | addDemixing (b : BlockWithData)
  | addReconGain (b : BlockWithData)
  | getDownMixing (element : UInt32)
  | getReconGain (element : UInt32) (numLayers : Int32)
  | updateDemixing (element : UInt32) (expected : Int)
  | updateReconGain (element : UInt32) (expected : Int)

/-- What a call returns. -/
inductive ParamAnswer where
  | done (r : Except Err Unit)
  | downMixing (r : Except Err DownMixingParams)
  | reconGain (r : Except Err (List (Option ReconGainElement)))

/-- One call: the answer and the manager afterwards. -/
def ParametersManager.call (pm : ParametersManager) : ParamCall → ParamAnswer × ParametersManager
  | .addDemixing b => (.done (.ok ()), pm.addDemixing b)
  | .addReconGain b => (.done (.ok ()), pm.addReconGain b)
  | .getDownMixing e => (.downMixing (pm.getDownMixing e).1, (pm.getDownMixing e).2)
  | .getReconGain e n => (.reconGain (pm.getReconGain e n), pm)
  | .updateDemixing e t => (.done (pm.updateDemixing e t).1, (pm.updateDemixing e t).2)
  | .updateReconGain e t => (.done (pm.updateReconGain e t).1, (pm.updateReconGain e t).2)

/-- A history of calls. -/
def ParametersManager.calls (pm : ParametersManager) : List ParamCall → List ParamAnswer × ParametersManager
  | [] => ([], pm)
  | c :: cs => ((pm.call c).1 :: ((pm.call c).2.calls cs).1, ((pm.call c).2.calls cs).2)

end Iamf
