import Verif.Obu.Simple
/-
  Parameter definitions, subblock schedules, parameter data and parameter blocks:
  `iamf/obu/param_definitions/*`, `iamf/obu/*_parameter_data.{h,cc}`, `iamf/obu/parameter_block.{h,cc}`.
-/
namespace Iamf

/-! ### Round-trip leaves with literal widths, and a tactic for straight-line code -/

theorem rt_U8_8 (g : LebGen) (d : UInt8) : RT g (wU8 d 8) (rU8 8) d := rt_U8 g d 8 (by omega) (by omega)
theorem rt_U8_7 (g : LebGen) (d : UInt8) : RT g (wU8 d 7) (rU8 7) d := rt_U8 g d 7 (by omega) (by omega)
theorem rt_U8_6 (g : LebGen) (d : UInt8) : RT g (wU8 d 6) (rU8 6) d := rt_U8 g d 6 (by omega) (by omega)
theorem rt_U8_5 (g : LebGen) (d : UInt8) : RT g (wU8 d 5) (rU8 5) d := rt_U8 g d 5 (by omega) (by omega)
theorem rt_U8_4 (g : LebGen) (d : UInt8) : RT g (wU8 d 4) (rU8 4) d := rt_U8 g d 4 (by omega) (by omega)
theorem rt_U8_3 (g : LebGen) (d : UInt8) : RT g (wU8 d 3) (rU8 3) d := rt_U8 g d 3 (by omega) (by omega)
theorem rt_U8_2 (g : LebGen) (d : UInt8) : RT g (wU8 d 2) (rU8 2) d := rt_U8 g d 2 (by omega) (by omega)
theorem rt_U8_1 (g : LebGen) (d : UInt8) : RT g (wU8 d 1) (rU8 1) d := rt_U8 g d 1 (by omega) (by omega)
theorem rt_U16_16 (g : LebGen) (d : UInt16) : RT g (wU16 d 16) (rU16 16) d := rt_U16 g d 16 (by omega) (by omega)
theorem rt_U32_32 (g : LebGen) (d : UInt32) : RT g (wU32 d 32) (rU32 32) d := rt_U32 g d 32 (by omega) (by omega)

syntax "rt_leaf" term : tactic
macro "rt_use" t:term : tactic => `(tactic| first
  | with_reducible refine RT.seq $t ?_
  | (with_reducible refine RT.map $t ?_; rfl)
  | with_reducible exact $t)
syntax "rt_more" : tactic
macro_rules | `(tactic| rt_more) => `(tactic| fail)
macro "rt_step" : tactic => `(tactic| first
  | with_reducible exact RT.ret _ _
  | rt_use (rt_Uleb _ _) | rt_use (rt_U8_8 _ _) | rt_use (rt_S16 _ _) | rt_use (rt_S8 _ _) | rt_use (rt_S9 _ _)
  | rt_use (rt_Bool _ _) | rt_use (rt_String _ _)
  | rt_use (rt_U8_7 _ _) | rt_use (rt_U8_6 _ _) | rt_use (rt_U8_5 _ _) | rt_use (rt_U8_4 _ _)
  | rt_use (rt_U8_3 _ _) | rt_use (rt_U8_2 _ _) | rt_use (rt_U8_1 _ _) | rt_use (rt_U16_16 _ _)
  | rt_use (rt_U32_32 _ _) | rt_use (rt_UlebSize _ _)
  | rt_more)
/-- Prove `RT` for straight-line code, as far as it goes. -/
macro "rt_auto" : tactic => `(tactic| ((try simp only [Wr.bind_eq, Wr.pure_eq, Rd.bind_eq, Rd.pure_eq]); repeat rt_step))

/-- `ValidateInRange` on `uint32_t` (iamf/common/utils/validation_utils.h). -/
def inRange32 (v lo hi : UInt32) : Bool := lo ≤ v && v ≤ hi

/-! ### Subblock schedules (iamf/obu/param_definitions/subblock_schedule.{h,cc}) -/

/-- `SubblockSchedule` (subblock_schedule.h:178-181). -/
structure SubblockSchedule where
  duration : UInt32
  constantSubblockDuration : UInt32
  numSubblocks : UInt32
  subblockDurations : List UInt32
  deriving DecidableEq, Repr

/-- `kMaxNumSubblocks` (subblock_schedule.h). -/
def kMaxNumSubblocks : UInt32 := 192000

namespace SubblockSchedule

/-- `CreateWithConstantSubblockDuration` (subblock_schedule.cc:176-202). -/
def createConstant (duration csd : UInt32) : Except Err SubblockSchedule :=
  if duration = 0 then .error .invalidArgument
  else if csd = 0 then .error .invalidArgument
  else if csd > duration then .error .invalidArgument
  else
    let n := duration / csd
    let n := if duration % csd ≠ 0 then n + 1 else n
    if inRange32 n 1 kMaxNumSubblocks then .ok ⟨duration, csd, n, []⟩ else .error .invalidArgument

/-- The accumulation loop (subblock_schedule.cc:211-223). -/
def sumDurations : List UInt32 → UInt32 → Except Err UInt32
  | [], acc => .ok acc
  | d :: ds, acc =>
    if d = 0 then .error .invalidArgument
    else match addUint32CheckOverflow acc d with
      | .error e => .error e
      | .ok acc => sumDurations ds acc

/-- `CreateWithVariableSubblockDuration` (subblock_schedule.cc:204-227).  The size is narrowed to
`uint32_t` and only that many durations are examined. -/
def createVariable (durations : List UInt32) : Except Err SubblockSchedule :=
  let n := UInt32.ofNat durations.length
  if inRange32 n 1 kMaxNumSubblocks then
    match sumDurations (durations.take n.toNat) 0 with
    | .error e => .error e
    | .ok total => .ok ⟨total, 0, n, durations⟩
  else .error .invalidArgument

/-- `GetSubblockDuration` (subblock_schedule.cc:229-251); the `ABSL_CHECK` is `abort`. -/
def getSubblockDuration (s : SubblockSchedule) (index : Int) : Except Err UInt32 :=
  if index < 0 ∨ UInt32.ofNat index.toNat ≥ s.numSubblocks then .error .invalidArgument
  else if s.constantSubblockDuration = 0 then
    match s.subblockDurations[index.toNat]? with
    | some d => .ok d
    | none => .error .abort
  else if UInt32.ofNat index.toNat = s.numSubblocks - 1 then
    .ok (s.duration - (s.numSubblocks - 1) * s.constantSubblockDuration)
  else .ok s.constantSubblockDuration

/-- The loop of `Write` in the variable case (subblock_schedule.cc:167-172); data and durations are
traversed together. -/
def wInterlaced : List UInt32 → Option (List (Wr Unit)) → Wr Unit
  | [], _ => .ret ()
  | d :: ds, none => (wUleb d).bind fun _ => wInterlaced ds none
  | d :: ds, some (w :: ws) => (wUleb d).bind fun _ => w.bind fun _ => wInterlaced ds (some ws)
  | d :: _, some [] => (wUleb d).bind fun _ => .fail .ub

/-- `SubblockSchedule::Write` (subblock_schedule.cc:144-174).  Parameter data are given by their writers;
the null check (152) is not modelled. -/
def write (s : SubblockSchedule) (data : Option (List (Wr Unit))) : Wr Unit := do
  (match data with
    | some ws => Wr.check (ws.length == s.numSubblocks.toNat)
    | none => pure ())
  wUleb s.duration
  wUleb s.constantSubblockDuration
  if s.constantSubblockDuration ≠ 0 then
    match data with
    | some ws => wAll id ws
    | none => pure ()
  else do
    wUleb s.numSubblocks
    wInterlaced (s.subblockDurations.take s.numSubblocks.toNat) data

/-- `ParseScheduleHelper` (subblock_schedule.cc:48-96); `onSubblock` is what is read per subblock. -/
def parse {β : Type} (onSubblock : Rd β) : Rd (SubblockSchedule × List β) := do
  let duration ← rUleb
  let csd ← rUleb
  if csd ≠ 0 then
    match createConstant duration csd with
    | .error e => .fail e
    | .ok s => do
      let l ← rRep onSubblock s.numSubblocks.toNat
      pure (s, l)
  else do
    let n ← rUleb
    Rd.check (duration != 0)
    Rd.check (inRange32 n 1 kMaxNumSubblocks)
    Rd.check (decide (n ≤ duration))
    let l ← rRep (do
      let d ← rUleb
      let x ← onSubblock
      pure (d, x)) n.toNat
    match createVariable (l.map Prod.fst) with
    | .error e => .fail e
    | .ok s => do
      Rd.check (s.duration == duration)
      pure (s, l.map Prod.snd)

/-- `CreateFromBuffer` (subblock_schedule.cc:114-118). -/
def read : Rd SubblockSchedule := (parse (.ret ())).bind fun p => .ret p.1

/-- The schedules that exist: the constructor is private (subblock_schedule.h:162-176), so every schedule
comes from one of the two factories. -/
def Made (s : SubblockSchedule) : Prop :=
  (∃ d c, createConstant d c = .ok s) ∨ (∃ l, l.length < 4294967296 ∧ createVariable l = .ok s)

end SubblockSchedule

/-! ### Parameter data -/

/-- `DemixingInfoParameterData` (demixing_info_parameter_data.h:110-111). -/
structure DemixingInfo where
  dmixpMode : UInt8
  reserved : UInt8
  deriving DecidableEq, Repr

/-- The `switch` over supported modes (demixing_info_parameter_data.cc:96-107 and 117-128). -/
def dmixpModeSupported (m : UInt8) : Bool := m == 0 || m == 1 || m == 2 || m == 4 || m == 5 || m == 6

/-- `DemixingInfoParameterData::Write` (demixing_info_parameter_data.cc:91-108). -/
def DemixingInfo.write (d : DemixingInfo) : Wr Unit := do
  wU8 d.dmixpMode 3
  wU8 d.reserved 5
  Wr.check (dmixpModeSupported d.dmixpMode) .unimplemented

/-- `DemixingInfoParameterData::ReadAndValidate` (demixing_info_parameter_data.cc:110-129). -/
def DemixingInfo.read : Rd DemixingInfo := do
  let m ← rU8 3
  let r ← rU8 5
  Rd.check (dmixpModeSupported m) .unimplemented
  pure ⟨m, r⟩

/-- `DefaultDemixingInfoParameterData` (demixing_info_parameter_data.h:156-157). -/
structure DefaultDemixingInfo where
  info : DemixingInfo
  defaultW : UInt8
  reservedForFutureUse : UInt8
  deriving DecidableEq, Repr

/-- `DefaultDemixingInfoParameterData::Write` (demixing_info_parameter_data.cc:136-143). -/
def DefaultDemixingInfo.write (d : DefaultDemixingInfo) : Wr Unit := do
  d.info.write
  wU8 d.defaultW 4
  wU8 d.reservedForFutureUse 4

/-- `DefaultDemixingInfoParameterData::ReadAndValidate` (demixing_info_parameter_data.cc:145-153). -/
def DefaultDemixingInfo.read : Rd DefaultDemixingInfo := do
  let i ← DemixingInfo.read
  let w ← rU8 4
  let r ← rU8 4
  pure ⟨i, w, r⟩

/-- `MixGainParameterData::param_data` (mix_gain_parameter_data.h). -/
inductive MixGainData where
  | step (start : Int16)
  | linear (start fin : Int16)
  | bezier (start fin control : Int16) (relTime : UInt8)
  deriving DecidableEq, Repr

/-- `MixGainParameterData::Write` (mix_gain_parameter_data.cc:117-135, 32-35, 48-52, 69-75).  The
control point time is a `uint8_t`. -/
def MixGainData.write : MixGainData → Wr Unit
  | .step s => do wUleb 0; wS16 s
  | .linear s e => do wUleb 1; wS16 s; wS16 e
  | .bezier s e c t => do wUleb 2; wS16 s; wS16 e; wS16 c; wU8 t 8

/-- `MixGainParameterData::ReadAndValidate` (mix_gain_parameter_data.cc:86-115). -/
def MixGainData.read : Rd MixGainData := do
  let t ← rUleb
  if t = 0 then do
    let s ← rS16
    pure (.step s)
  else if t = 1 then do
    let s ← rS16
    let e ← rS16
    pure (.linear s e)
  else if t = 2 then do
    let s ← rS16
    let e ← rS16
    let c ← rS16
    let r ← rU8 8
    pure (.bezier s e c r)
  else .fail .unimplemented

/-- `ReconGainElement` (recon_gain_info_parameter_data.h:33-61); `gains` has length 12 (`std::array`). -/
structure ReconGainElement where
  flag : UInt32
  gains : List UInt8
  deriving DecidableEq, Repr

/-- Number of entries of `recon_gain` (recon_gain_info_parameter_data.h:60). -/
def kNumReconGains : Nat := 12

/-- The mask loop of `Write` (recon_gain_info_parameter_data.cc:83-92); `mask` is a `uint32_t`. -/
def wReconGains (flag : UInt32) : List UInt8 → UInt32 → Wr Unit
  | [], _ => .ret ()
  | x :: xs, mask =>
    (if flag &&& mask ≠ 0 then wU8 x 8 else .ret ()).bind fun _ => wReconGains flag xs (mask <<< 1)

/-- The mask loop of `ReadAndValidate` (recon_gain_info_parameter_data.cc:45-57). -/
def rReconGains (flag : UInt32) : Nat → UInt32 → Rd (List UInt8)
  | 0, _ => .ret []
  | n + 1, mask =>
    (if flag &&& mask ≠ 0 then rU8 8 else .ret 0).bind fun x =>
      (rReconGains flag n (mask <<< 1)).bind fun xs => .ret (x :: xs)

/-- Loop of `ReconGainInfoParameterData::Write` (recon_gain_info_parameter_data.cc:71-93). -/
def wReconLayers : List Bool → List (Option ReconGainElement) → Wr Unit
  | false :: fs, _ :: es => wReconLayers fs es
  | true :: fs, some e :: es =>
    (wUleb e.flag).bind fun _ => (wReconGains e.flag e.gains 1).bind fun _ => wReconLayers fs es
  | true :: _, none :: _ => .fail .invalidArgument
  | [], _ => .ret ()
  | _ :: _, [] => .fail .ub

/-- `ReconGainInfoParameterData::Write` (recon_gain_info_parameter_data.cc:66-96). -/
def wReconGainInfo (flags : List Bool) (es : List (Option ReconGainElement)) : Wr Unit := do
  Wr.check (es.length == flags.length)
  wReconLayers flags es

/-- `ReconGainInfoParameterData::ReadAndValidate` (recon_gain_info_parameter_data.cc:29-64); the final
size check compares equal sizes. -/
def rReconGainInfo : List Bool → Rd (List (Option ReconGainElement))
  | [] => .ret []
  | false :: fs => (rReconGainInfo fs).bind fun es => .ret (none :: es)
  | true :: fs =>
    rUleb.bind fun flag => (rReconGains flag kNumReconGains 1).bind fun gains =>
      (rReconGainInfo fs).bind fun es => .ret (some ⟨flag, gains⟩ :: es)

/-- Length-prefixed bytes: `ExtensionParameterData` (extension_parameter_data.cc:39-42) and
`ExtendedParamDefinition` (extended_param_definition.cc:30-39). -/
def wSized (l : List UInt8) : Wr Unit := do
  wUleb (UInt32.ofNat l.length)
  wBytes l

/-- extension_parameter_data.cc:27-37 and extended_param_definition.cc:41-54. -/
def rSized : Rd (List UInt8) := do
  let n ← rUleb
  Rd.check (!decide (n.toNat > kEntireObuSizeMaxTwoMegabytes))
  rBytes n.toNat

/-- The `ParameterData` subclasses a parameter block can hold.  `unsupported` stands for the six position
classes, whose `Write` and `ReadAndValidate` return Unimplemented (cart8_parameter_data.cc:10-16 etc.). -/
inductive ParamData where
  | mixGain (d : MixGainData)
  | demixing (d : DemixingInfo)
  | reconGain (flags : List Bool) (es : List (Option ReconGainElement))
  | extension (bytes : List UInt8)
  | unsupported
  deriving DecidableEq, Repr

/-- `ParameterData::Write`, dispatched dynamically. -/
def ParamData.write : ParamData → Wr Unit
  | .mixGain d => d.write
  | .demixing d => d.write
  | .reconGain flags es => wReconGainInfo flags es
  | .extension bytes => wSized bytes
  | .unsupported => .fail .unimplemented

/-! ### Parameter definitions -/

/-- The data members of `ParamDefinition` except its type (param_definition_base.h:204-209). -/
structure ParamBase where
  id : UInt32
  rate : UInt32
  reserved : UInt8
  schedule : Option SubblockSchedule
  deriving DecidableEq, Repr

/-- Subclass data (the `*_param_definition.h` headers).  `auxFlags` are the `recon_gain_is_present_flag`s
of `aux_data_`, which are not part of the bitstream. -/
inductive ParamSpecific where
  | mixGain (defaultMixGain : Int16)
  | demixing (default : DefaultDemixingInfo)
  | reconGain (auxFlags : List Bool)
  | polar (azimuth : Int16) (elevation : Int8) (distance : UInt8)
  | cart8 (x y z : Int8)
  | cart16 (x y z : Int16)
  | dualPolar (azimuth1 : Int16) (elevation1 : Int8) (distance1 : UInt8) (azimuth2 : Int16) (elevation2 : Int8) (distance2 : UInt8)
  | dualCart8 (x1 y1 z1 x2 y2 z2 : Int8)
  | dualCart16 (x1 y1 z1 x2 y2 z2 : Int16)
  | extended (type : UInt32) (bytes : List UInt8)
  deriving DecidableEq, Repr

/-- A parameter definition object. -/
structure ParamDef where
  base : ParamBase
  spec : ParamSpecific
  deriving DecidableEq, Repr

/-- `GetType` (param_definition_base.h:45-58, 127). -/
def ParamSpecific.type : ParamSpecific → UInt32
  | .mixGain _ => 0
  | .demixing _ => 1
  | .reconGain _ => 2
  | .polar .. => 3
  | .cart8 .. => 4
  | .cart16 .. => 5
  | .dualPolar .. => 6
  | .dualCart8 .. => 7
  | .dualCart16 .. => 8
  | .extended t _ => t

/-- `Clip3` on `int16_t` (polar_param_definition.cc:30-32). -/
def clip16 (v lo hi : Int16) : Int16 := if v.toInt < lo.toInt then lo else if v.toInt > hi.toInt then hi else v
/-- `Clip3` applied to an `int8_t` (widened) and narrowed back (polar_param_definition.cc:42, 56). -/
def clip8 (v : Int8) (lo hi : Int16) : Int8 := (clip16 v.toInt16 lo hi).toInt8

/-- `GetDuration` and `GetConstantSubblockDuration` (param_definition_base.cc:83-89). -/
def ParamBase.duration (b : ParamBase) : UInt32 := match b.schedule with | some s => s.duration | none => 0
def ParamBase.csd (b : ParamBase) : UInt32 := match b.schedule with | some s => s.constantSubblockDuration | none => 0

/-- `Validate` with `ValidateSpecificParamDefinition` (param_definition_base.cc:152-159, 32-61).  All
failures are InvalidArgument. -/
def ParamDef.valid (p : ParamDef) : Bool :=
  p.base.rate != 0 &&
  (if p.spec.type == 1 || p.spec.type == 2 then
    p.base.schedule.isSome && p.base.duration != 0 && p.base.csd == p.base.duration
  else true)

/-- `ParamDefinition::ValidateAndWrite` (param_definition_base.cc:99-115). -/
def ParamDef.writeBase (p : ParamDef) : Wr Unit := do
  Wr.check p.valid
  wUleb p.base.id
  wUleb p.base.rate
  wU8 (if p.base.schedule.isSome then 0 else 1) 1
  wU8 p.base.reserved 7
  match p.base.schedule with
  | none => pure ()
  | some s => s.write none

/-- The subclass parts of `ValidateAndWrite`
(mix_gain:35, demixing:33, recon_gain, polar:41-43, cart8:32-34, cart16:32-34, dual_polar:42-47,
dual_cart8:33-38, dual_cart16:33-38). -/
def ParamSpecific.write : ParamSpecific → Wr Unit
  | .mixGain g => wS16 g
  | .demixing d => d.write
  | .reconGain _ => .ret ()
  | .polar a e d => do
    wS9 (clip16 a (-180) 180)
    wS8 (clip8 e (-90) 90)
    wU8 d 7
  | .cart8 x y z => do wS8 x; wS8 y; wS8 z
  | .cart16 x y z => do wS16 x; wS16 y; wS16 z
  | .dualPolar a1 e1 d1 a2 e2 d2 => do
    wS9 (clip16 a1 (-180) 180)
    wS8 (clip8 e1 (-90) 90)
    wU8 d1 7
    wS9 (clip16 a2 (-180) 180)
    wS8 (clip8 e2 (-90) 90)
    wU8 d2 7
  | .dualCart8 x1 y1 z1 x2 y2 z2 => do wS8 x1; wS8 y1; wS8 z1; wS8 x2; wS8 y2; wS8 z2
  | .dualCart16 x1 y1 z1 x2 y2 z2 => do wS16 x1; wS16 y1; wS16 z1; wS16 x2; wS16 y2; wS16 z2
  | .extended _ bytes => wSized bytes

/-- `ValidateAndWrite` of the subclasses; the extended class writes only its bytes
(extended_param_definition.cc:30-39). -/
def ParamDef.write (p : ParamDef) : Wr Unit :=
  match p.spec with
  | .extended _ bytes => wSized bytes
  | s => p.writeBase.bind fun _ => s.write

/-- `ParamDefinition::ReadAndValidate` (param_definition_base.cc:117-138) for a definition of the given
type.  Validation happens only when a schedule is present. -/
def rParamBase (type : UInt32) : Rd ParamBase := do
  let id ← rUleb
  let rate ← rUleb
  let mode ← rU8 1
  let reserved ← rU8 7
  if mode ≠ 0 then pure ⟨id, rate, reserved, none⟩
  else do
    let s ← SubblockSchedule.read
    Rd.check (rate != 0 && (if type == 1 || type == 2 then s.duration != 0 && s.constantSubblockDuration == s.duration else true))
    pure ⟨id, rate, reserved, some s⟩

/-- One position triple in polar form (polar_param_definition.cc:53-57). -/
def rPolar : Rd (Int16 × Int8 × UInt8) := do
  let a ← rS9
  let e ← rS8
  let d ← rU8 7
  pure (clip16 a (-180) 180, clip8 e (-90) 90, d)

/-- The subclass parts of `ReadAndValidate`, for a type known to this version. -/
def rParamSpecific (type : UInt32) : Rd ParamSpecific :=
  if type = 0 then do
    let g ← rS16
    pure (.mixGain g)
  else if type = 1 then do
    let d ← DefaultDemixingInfo.read
    pure (.demixing d)
  else if type = 2 then pure (.reconGain [])
  else if type = 3 then do
    let p ← rPolar
    pure (.polar p.1 p.2.1 p.2.2)
  else if type = 4 then do
    let x ← rS8
    let y ← rS8
    let z ← rS8
    pure (.cart8 x y z)
  else if type = 5 then do
    let x ← rS16
    let y ← rS16
    let z ← rS16
    pure (.cart16 x y z)
  else if type = 6 then do
    let p ← rPolar
    let q ← rPolar
    pure (.dualPolar p.1 p.2.1 p.2.2 q.1 q.2.1 q.2.2)
  else if type = 7 then do
    let x ← rS8
    let y ← rS8
    let z ← rS8
    let x2 ← rS8
    let y2 ← rS8
    let z2 ← rS8
    pure (.dualCart8 x y z x2 y2 z2)
  else do
    let x ← rS16
    let y ← rS16
    let z ← rS16
    let x2 ← rS16
    let y2 ← rS16
    let z2 ← rS16
    pure (.dualCart16 x y z x2 y2 z2)

/-- `ReadAndValidate` of a freshly constructed definition of a type `0..8`. -/
def rParamDef (type : UInt32) : Rd ParamDef := do
  let b ← rParamBase type
  let s ← rParamSpecific type
  pure ⟨b, s⟩

/-- A freshly constructed extended definition: its base fields keep their defaults. -/
def ParamBase.default : ParamBase := ⟨0, 0, 0, none⟩

/-- `ExtendedParamDefinition::ReadAndValidate` (extended_param_definition.cc:41-54). -/
def rExtendedParamDef (type : UInt32) : Rd ParamDef := do
  let bytes ← rSized
  pure ⟨ParamBase.default, .extended type bytes⟩

/-- `CreateParameterData` followed by `ReadAndValidate` (the `*_param_definition.cc` files). -/
def rParamData : ParamSpecific → Rd ParamData
  | .mixGain _ => do
    let d ← MixGainData.read
    pure (.mixGain d)
  | .demixing _ => do
    let d ← DemixingInfo.read
    pure (.demixing d)
  | .reconGain flags => do
    let es ← rReconGainInfo flags
    pure (.reconGain flags es)
  | .extended _ _ => do
    let b ← rSized
    pure (.extension b)
  | _ => .fail .unimplemented

/-! ### Parameter blocks (iamf/obu/parameter_block.{h,cc}) -/

/-- `ParameterBlockObu` (parameter_block.h), apart from the definition it refers to.  `none` subblocks are
null pointers, as left by `CreateMode0`/`CreateMode1`. -/
structure ParameterBlock where
  parameterId : UInt32
  schedule : Option SubblockSchedule
  subblocks : List (Option ParamData)
  deriving DecidableEq, Repr

/-- One subblock of the mode 0 loop (parameter_block.cc:246-249). -/
def wSubblock : Option ParamData → Wr Unit
  | none => .fail .invalidArgument
  | some d => d.write

/-- Element of the vector passed to `SubblockSchedule::Write`: a null pointer fails `ABSL_CHECK_NE`. -/
def wSubblockChecked : Option ParamData → Wr Unit
  | none => .fail .abort
  | some d => d.write

/-- `ParameterBlockObu::ValidateAndWritePayload` (parameter_block.cc:235-252).  The null check of
`SubblockSchedule::Write` (subblock_schedule.cc:151-153) is done for each element when it is written. -/
def ParameterBlock.write (p : ParamDef) (b : ParameterBlock) : Wr Unit := do
  wUleb b.parameterId
  Wr.check p.valid
  match b.schedule with
  | some s => s.write (some (b.subblocks.map wSubblockChecked))
  | none => wAll wSubblock b.subblocks

/-- `ParameterBlockObu::ReadAndValidatePayloadDerived` (parameter_block.cc:254-297). -/
def ParameterBlock.read (p : ParamDef) (_payloadSize : Int) : Rd ParameterBlock := do
  Rd.check p.valid
  let id ← rUleb
  Rd.check (id == p.base.id)
  match p.base.schedule with
  | some s => do
    let l ← rRep (rParamData p.spec) s.numSubblocks.toNat
    pure ⟨p.base.id, none, l.map some⟩
  | none => do
    let sl ← SubblockSchedule.parse (rParamData p.spec)
    pure ⟨p.base.id, some sl.1, sl.2.map some⟩

/-- `ParameterBlockObu::PeekParameterId` (parameter_block.cc:42-52). -/
def peekParameterId : Rd UInt32 :=
  .tell fun pos => .attempt rUleb fun r => .seek pos (match r with
    | .ok v => .ret v
    | .error e => .fail e)

end Iamf
