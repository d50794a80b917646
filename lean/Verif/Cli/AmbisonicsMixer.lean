import Verif.Cli.FrameGenerator
import Verif.Cli.Render
/-
  The mixer of ambisonics: iamf/cli/ambisonics_mixer.{h,cc}, sample_processor_base.cc, `SampleProcessorToDownMixer`
  (downmixer_factory.cc) and `CreateAmbisonicsDownmixers` (proto_conversion/downmixing_reconstruction_util.cc).

  Samples are rational numbers, as in Cli/Demix: the rounding of `double`s is not modelled.  What a mixer holds after a call that
  failed is not modelled either: the programs end then.
-/
namespace Iamf

/-- `kThirdOrderDemixingMatrixFromLibopus` (ambisonics_mixer.cc:38-67). -/
def thirdOrderDemixing : List Int16 := [
  8192, 8192, 8192, 8192, 8192, 8192, 8192, 8192, 8192, 8192, 8192, 8192, 8192, 8192, 8192, 8192,
  0, -9779, 9779, 6263, 8857, 0, 6263, 13829, 9779, -13829, 0, -6263, 0, -8857, -6263, -9779,
  -3413, 3413, 3413, -11359, 11359, 11359, -11359, -3413, 3413, -3413, -3413, -11359, 11359, 11359, -11359, 3413,
  13829, 9779, -9779, 6263, 0, 8857, -6263, 0, 9779, 0, -13829, 6263, -8857, 0, -6263, -9779,
  0, -15617, -15617, 6406, 0, 0, -6406, 0, 15617, 0, 0, -6406, 0, 0, 6406, 15617,
  0, -5003, 5003, -10664, 15081, 0, -10664, -7075, 5003, 7075, 0, 10664, 0, -15081, 10664, -5003,
  -8176, -8176, -8176, 8208, 8208, 8208, 8208, -8176, -8176, -8176, -8176, 8208, 8208, 8208, 8208, -8176,
  -7075, 5003, -5003, -10664, 0, 15081, 10664, 0, 5003, 0, 7075, -10664, -15081, 0, 10664, -5003,
  15617, 0, 0, 0, -6406, 6406, 0, -15617, 0, -15617, 15617, 0, 6406, -6406, 0, 0,
  0, -11393, 11393, 2993, -4233, 0, 2993, -16112, 11393, 16112, 0, -2993, 0, 4233, -2993, -11393,
  0, -9974, -9974, -13617, 0, 0, 13617, 0, 9974, 0, 0, 13617, 0, 0, -13617, 9974,
  0, 5579, -5579, 10185, 14403, 0, 10185, -7890, -5579, 7890, 0, -10185, 0, -14403, -10185, 5579,
  11826, -11826, -11826, -901, 901, 901, -901, 11826, -11826, 11826, 11826, -901, 901, 901, -901, -11826,
  -7890, -5579, 5579, 10185, 0, 14403, -10185, 0, -5579, 0, 7890, 10185, -14403, 0, -10185, 5579,
  -9974, 0, 0, 0, -13617, 13617, 0, 9974, 0, 9974, -9974, 0, 13617, -13617, 0, 0,
  16112, -11393, 11393, -2993, 0, 4233, 2993, 0, -11393, 0, -16112, -2993, -4233, 0, 2993, 11393]

/-- `kThirdOrderMixingMatrixFromLibopus` (ambisonics_mixer.cc:69-99). -/
def thirdOrderMixing : List Int16 := [
  8208, 0, -881, 14369, 0, 0, -8192, -4163, 13218, 0, 0, 0, 11095, -8836, -6218, 14833,
  8208, -10161, 881, 10161, -13218, -2944, -8192, 2944, 0, -10488, -6218, 6248, -11095, -6248, 0, -10488,
  8208, 10161, 881, -10161, -13218, 2944, -8192, -2944, 0, 10488, -6218, -6248, -11095, 6248, 0, 10488,
  8176, 5566, -11552, 5566, 9681, -11205, 8192, -11205, 0, 4920, -15158, 9756, -3334, 9756, 0, -4920,
  8176, 7871, 11552, 0, 0, 15846, 8192, 0, -9681, -6958, 0, 13797, 3334, 0, -15158, 0,
  8176, 0, 11552, 7871, 0, 0, 8192, 15846, 9681, 0, 0, 0, 3334, 13797, 15158, 6958,
  8176, 5566, -11552, -5566, -9681, -11205, 8192, 11205, 0, 4920, 15158, 9756, -3334, -9756, 0, 4920,
  8208, 14369, -881, 0, 0, -4163, -8192, 0, -13218, -14833, 0, -8836, 11095, 0, 6218, 0,
  8208, 10161, 881, 10161, 13218, 2944, -8192, 2944, 0, 10488, 6218, -6248, -11095, -6248, 0, -10488,
  8208, -14369, -881, 0, 0, 4163, -8192, 0, -13218, 14833, 0, 8836, 11095, 0, 6218, 0,
  8208, 0, -881, -14369, 0, 0, -8192, 4163, 13218, 0, 0, 0, 11095, 8836, -6218, -14833,
  8176, -5566, -11552, 5566, -9681, 11205, 8192, -11205, 0, -4920, 15158, -9756, -3334, 9756, 0, -4920,
  8176, 0, 11552, -7871, 0, 0, 8192, -15846, 9681, 0, 0, 0, 3334, -13797, 15158, -6958,
  8176, -7871, 11552, 0, 0, -15846, 8192, 0, -9681, 6958, 0, -13797, 3334, 0, -15158, 0,
  8176, -5566, -11552, -5566, 9681, 11205, 8192, 11205, 0, -4920, -15158, -9756, -3334, -9756, 0, 4920,
  8208, -10161, 881, -10161, 13218, -2944, -8192, -2944, 0, -10488, 6218, 6248, -11095, 6248, 0, 10488]

/-- `AmbisonicsMixer::Preset` (ambisonics_mixer.h:41-46). -/
inductive AmbisonicsPreset where
  | order0 | order1 | order2 | order3
  deriving DecidableEq, Repr

/-- `ABSL_CHECK_OK`. -/
def checkOk {α : Type} (r : Except Err α) : Except Err α := match r with
  | .ok a => .ok a
  | .error _ => .error .abort

/-- The number of substreams in `CreateMonoConfig` (ambisonics_mixer.cc:102-117). -/
def AmbisonicsPreset.substreams : AmbisonicsPreset → UInt8
  | .order0 => 1
  | .order1 => 4
  | .order2 => 9
  | .order3 => 16

/-- `kMonoAmbisonicsChannelMapping` (ambisonics_mixer.cc:119-120). -/
def monoPresetMapping : List UInt8 := [0, 1, 2, 3, 4, 5, 6, 7, 8, 9, 10, 11, 12, 13, 14, 15]

/-- `CreateMonoConfig` (ambisonics_mixer.cc:101-127). -/
def monoPreset (p : AmbisonicsPreset) : Except Err Ambisonics := do
  let c ← checkOk (AmbisonicsMono.create p.substreams (monoPresetMapping.take p.substreams.toNat))
  .ok (.mono c)

/-- `CreateProjectConfigForThirdOrder` (ambisonics_mixer.cc:129-137). -/
def projectionPreset : Except Err Ambisonics := do
  let c ← checkOk (AmbisonicsProjection.create 16 8 8 thirdOrderDemixing)
  .ok (.projection c)

/-- `MakeAmbisonicsConfig` (ambisonics_mixer.cc:144-154): the configuration and the mixing matrix. -/
def makeAmbisonics (codecId : UInt32) (p : AmbisonicsPreset) : Except Err (Ambisonics × Option (List Int16)) :=
  if codecId = kCodecIdOpus ∧ p = .order3 then do
    let c ← projectionPreset
    .ok (c, some thirdOrderMixing)
  else do
    let c ← monoPreset p
    .ok (c, none)

/-- `AmbisonicsConfig::GetOutputChannelCount` (ambisonics_config.cc:314-318, ambisonics_config.h:75-77). -/
def Ambisonics.outputChannels : Ambisonics → Nat
  | .mono c => (UInt8.ofNat c.channelMapping.length).toNat
  | .projection c => c.outputChannelCount.toNat

/-- `AmbisonicsMixer` with what it inherits from `SampleProcessorBase` (ambisonics_mixer.h:32-112, sample_processor_base.h). -/
structure AmbisonicsMixer where
  config : Ambisonics
  matrix : List Rat
  channels : Nat
  maxSamples : Nat
  taking : Bool
  output : List Samples

/-- The constructor (ambisonics_mixer.cc:239-255); `Q15ToSignedDouble` (156-158) is the one of Cli/Render. -/
def AmbisonicsMixer.make (c : Ambisonics) (m : Option (List Int16)) (maxSamples : Nat) : AmbisonicsMixer :=
  ⟨c, (m.getD []).map q15, c.outputChannels, maxSamples, true, List.replicate c.outputChannels []⟩

/-- `AmbisonicsMixer::MakeFromPreset` (ambisonics_mixer.cc:192-198). -/
def AmbisonicsMixer.fromPreset (codecId : UInt32) (p : AmbisonicsPreset) (maxSamples : Nat) : Except Err AmbisonicsMixer := do
  let (c, m) ← makeAmbisonics codecId p
  .ok (AmbisonicsMixer.make c m maxSamples)

/-- `AmbisonicsMixer::MakeFromAmbisonicsConfig` (ambisonics_mixer.cc:200-203). -/
def AmbisonicsMixer.fromConfig (c : Ambisonics) (maxSamples : Nat) : AmbisonicsMixer := .make c none maxSamples

/-- `AmbisonicsMixer::GetInputLabels` (ambisonics_mixer.cc:209-217). -/
def AmbisonicsMixer.inputLabels (x : AmbisonicsMixer) : Except Err (List Label) :=
  (List.range x.channels).mapM fun i => checkOk (ambisonicsLabel i)

/-- The loop over the input channels in `ApplyMixingMatrix` (ambisonics_mixer.cc:181-188), from channel `i` on; an entry that is not in
the matrix is read out of bounds. -/
def mixInto (matrix : List Rat) (n o : Nat) : Nat → List Samples → Samples → Except Err Samples
  | _, [], acc => .ok acc
  | i, s :: ss, acc => match matrix[i * n + o]? with
    | none => .error .ub
    | some v => mixInto matrix n o (i + 1) ss (List.zipWith (fun a x => a + v * x) acc s)

/-- `ApplyMixingMatrix` (ambisonics_mixer.cc:163-190). -/
def applyMixing (matrix : List Rat) (input : List Samples) : Except Err (List Samples) :=
  if matrix.length ≠ input.length * input.length then .error .abort
  else match input with
    | [] => .error .ub
    | s :: _ => (List.range input.length).mapM fun o => mixInto matrix input.length o 0 input (List.replicate s.length 0)

/-- `PushFrameDerived` (ambisonics_mixer.cc:219-237). -/
def AmbisonicsMixer.pushDerived (x : AmbisonicsMixer) (input : List Samples) : Except Err AmbisonicsMixer :=
  if x.matrix = [] then .ok ⟨x.config, x.matrix, x.channels, x.maxSamples, x.taking, input⟩
  else do
    let out ← applyMixing x.matrix input
    .ok ⟨x.config, x.matrix, x.channels, x.maxSamples, x.taking, out⟩

/-- `SampleProcessorBase::PushFrame` (sample_processor_base.cc:28-57). -/
def AmbisonicsMixer.push (x : AmbisonicsMixer) (input : List Samples) : Except Err AmbisonicsMixer :=
  if !x.taking then .error .failedPrecondition
  else if input.length ≠ x.channels then .error .invalidArgument
  else if input.any (fun s => s.length ≠ (input.head?.getD []).length || decide (x.maxSamples < s.length)) then .error .invalidArgument
  else x.pushDerived input

/-- `SampleProcessorBase::Flush` (sample_processor_base.cc:59-70); `FlushDerived` does nothing (ambisonics_mixer.h:107). -/
def AmbisonicsMixer.flush (x : AmbisonicsMixer) : Except Err AmbisonicsMixer :=
  if !x.taking then .error .failedPrecondition
  else .ok ⟨x.config, x.matrix, x.channels, x.maxSamples, false, List.replicate x.channels []⟩

/-- Writing the mixed channels back (downmixer_factory.cc:78-82). -/
def writeBack : List Label → List Samples → SamplesMap → Except Err SamplesMap
  | [], _, m => .ok m
  | _ :: _, [], _ => .error .ub
  | l :: ls, s :: ss, m => writeBack ls ss (m.set l s)

/-- The down-mixer that `SampleProcessorToDownMixer` makes of a mixer (downmixer_factory.cc:61-84). -/
def AmbisonicsMixer.runOn (x : AmbisonicsMixer) (labels : List Label) (m : SamplesMap) : Except Err (SamplesMap × AmbisonicsMixer) := do
  let input ← presentSamples m labels
  let x ← x.push input
  let m ← writeBack labels x.output m
  .ok (m, x)

/-- What the user says about one audio element: its id and the preset (`ambisonics_preset` of audio_element.proto:135-146), if the
element has a preset for ambisonics. -/
structure ElementPreset where
  id : UInt32
  preset : Option Nat

/-- `ProtoToAmbisonicsPreset` (proto_utils.cc:63-69, lookup_tables.h:281-291). -/
def presetOfProto : Nat → Option AmbisonicsPreset
  | 1 => some .order0
  | 2 => some .order1
  | 3 => some .order2
  | 4 => some .order3
  | _ => none

/-- `MaybeGetAmbisonicsPresetForAudioElementId` (downmixing_reconstruction_util.cc:57-73). -/
def presetForElement (id : UInt32) : List ElementPreset → Option AmbisonicsPreset
  | [] => none
  | e :: es => match e.preset with
    | none => presetForElement id es
    | some p => if e.id = id then presetOfProto p else presetForElement id es

/-- `CreateAmbisonicsDownmixers` (downmixing_reconstruction_util.cc:75-105): the mixers and the labels they work on. -/
def ambisonicsDownMixers (metadata : List ElementPreset) (id codecId : UInt32) (samplesPerFrame : Nat) :
    Except Err (List (AmbisonicsMixer × List Label)) :=
  match presetForElement id metadata with
  | none => .ok []
  | some p => do
    let x ← AmbisonicsMixer.fromPreset codecId p samplesPerFrame
    let labels ← x.inputLabels
    if labels.length ≠ x.channels then .error .invalidArgument else .ok [(x, labels)]

end Iamf
