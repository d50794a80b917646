import Verif.Cli.Parameters
import Mathlib.Algebra.Field.Defs
/-
  Mix gains over time: iamf/common/utils/obu_util.h, `GetLinearMixGains` of iamf/obu/parameter_block.cc and
  `GetParameterBlockLinearMixGainsPerTick` of iamf/cli/renderer/default_layout_renderer.cc.

  Gains are `float`s in the code; here they are numbers of a field, so rounding is not modelled.
-/
namespace Iamf

/-- The functions of the C++ library that are needed: `sqrt` and `x ↦ pow(10, x / 20)`. -/
structure GainMath (K : Type) where
  root : K → K
  linear : K → K

/-- `Q7_8ToFloat` (numeric_utils.cc:51-53). -/
def q78 {K : Type} [Field K] (v : Int16) : K := (v.toInt : K) / 256

/-- The time of the control point, `floor(end_time * control_point_float + 0.5)` with `control_point_float` in units of 1/256
(obu_util.h:97-100). -/
def controlTime (duration : Int) (relTime : UInt8) : Int := (2 * duration * relTime.toNat + 256) / 512

/-- `InterpolateMixGainValue` (obu_util.h:56-123), by way of `InterpolateMixGainParameterData` (parameter_block.cc:103-145).  The
`int`s are unbounded: the code narrows the times to 32 bits, which matters for subblocks of 2^31 ticks or more.  Division by zero,
NaN in the code, happens only if the start and the end are the same. -/
def interpolateMixGain {K : Type} [Field K] (M : GainMath K) (d : MixGainData) (start stop target : Int) : Except Err K :=
  if target < start ∨ target > stop ∨ start > stop then .error .invalidArgument
  else
    let n := target - start
    let n2 := stop - start
    match d with
    | .step s => .ok (q78 s)
    | .linear s e =>
      let a : K := (n : K) / (n2 : K)
      .ok ((1 - a) * q78 s + a * q78 e)
    | .bezier s e c r =>
      let n1 := controlTime n2 r
      let alpha := 0 - 2 * n1 + n2
      let beta := 2 * (n1 - 0)
      let gamma := 0 - n
      let a : K := if alpha = 0 then -(gamma : K) / (beta : K)
        else (-(beta : K) + M.root ((beta : K) * beta - 4 * alpha * gamma)) / (2 * alpha)
      .ok ((1 - a) * (1 - a) * q78 s + 2 * (1 - a) * a * q78 c + a * a * q78 e)

/-- `ParameterBlockObu::GetNumSubblocks` (parameter_block.cc:159-162, param_definition_base.cc:91-93). -/
def ParameterBlock.numSubblocks (b : ParameterBlock) (p : ParamDef) : UInt32 := match b.schedule with
  | some s => s.numSubblocks
  | none => match p.base.schedule with
    | some s => s.numSubblocks
    | none => 0

/-- `ParameterBlockObu::GetSubblockDuration` (parameter_block.cc:164-170).  Without any schedule an empty `optional` is
dereferenced. -/
def ParameterBlock.subblockDuration (b : ParameterBlock) (p : ParamDef) (i : Nat) : Except Err UInt32 := match b.schedule with
  | some s => s.getSubblockDuration i
  | none => match p.base.schedule with
    | some s => s.getSubblockDuration i
    | none => .error .ub

/-- Where `GetLinearMixGains` is: the number of the subblock, its start and its end. -/
structure SubblockPlace where
  index : Nat
  start : Int
  stop : Int
  deriving DecidableEq

/-- The inner loop of `GetLinearMixGains` (parameter_block.cc:189-201): the subblock at `offset`, `none` if there is none.  `fuel`
bounds the iterations; `numSubblocks` is enough. -/
def seekSubblock (duration : Nat → Except Err UInt32) (numSubblocks : Nat) (offset : Int) : Nat → SubblockPlace →
    Except Err (Option SubblockPlace)
  | 0, p => .ok (if p.stop ≤ offset then none else some p)
  | fuel + 1, p =>
    if p.stop ≤ offset then
      if numSubblocks ≤ p.index + 1 then .ok none
      else do
        let d ← duration (p.index + 1)
        seekSubblock duration numSubblocks offset fuel ⟨p.index + 1, p.stop, p.stop + d.toNat⟩
    else .ok (some p)

/-- The outer loop of `GetLinearMixGains` (parameter_block.cc:188-214) from `offset` on; the list is what
`linear_mix_gain_per_tick` holds from there on.  The data is cast without a check. -/
def fillGains {K : Type} [Field K] (M : GainMath K) (duration : Nat → Except Err UInt32) (numSubblocks : Nat)
    (data : List (Option ParamData)) : Nat → SubblockPlace → List K → Except Err (List K)
  | _, _, [] => .ok []
  | offset, p, g :: gs => do
    match ← seekSubblock duration numSubblocks offset numSubblocks p with
    | none => .ok (g :: gs)
    | some p => match data[p.index]? with
      | none => .error .ub
      | some none => .error .invalidArgument
      | some (some (.mixGain d)) => do
        let db ← interpolateMixGain M d p.start p.stop offset
        let rest ← fillGains M duration numSubblocks data (offset + 1) p gs
        .ok (M.linear db :: rest)
      | some (some _) => .error .ub

/-- `ParameterBlockObu::GetLinearMixGains` (parameter_block.cc:172-216): the vector afterwards. -/
def ParameterBlock.linearMixGains {K : Type} [Field K] (M : GainMath K) (p : ParamDef) (b : ParameterBlock) (gains : List K) :
    Except Err (List K) :=
  if p.spec.type ≠ 0 then .error .invalidArgument
  else do
    let d ← b.subblockDuration p 0
    fillGains M (b.subblockDuration p) (b.numSubblocks p).toNat b.subblocks 0 ⟨0, 0, d.toNat⟩ gains

/-- The default mix gain of a definition of type mix gain. -/
def ParamDef.defaultMixGain (p : ParamDef) : Int16 := match p.spec with
  | .mixGain g => g
  | _ => 0

/-- `GetParameterBlockLinearMixGainsPerTick` (default_layout_renderer.cc:94-126) for so many ticks.  `blocks` finds the parameter
block for an id; the definition that the block refers to is the one it was read with. -/
def mixGainsPerTick {K : Type} [Field K] (M : GainMath K) (rate : UInt32) (blocks : UInt32 → Option BlockWithData) (gain : ParamDef)
    (ticks : Nat) : Except Err (List K) :=
  if gain.base.rate ≠ rate then .error .unimplemented
  else
    let gains := List.replicate ticks (M.linear (q78 gain.defaultMixGain))
    match blocks gain.base.id with
    | none => .ok gains
    | some b => b.obu.linearMixGains M b.definition gains

end Iamf
