import Verif.Props.Encoder
import Verif.Props.SequencerExamples
/-
  Examples for C46 and C47: an encoder that writes stereo sound as LPCM, with mix gains and an arbitrary OBU.
-/
namespace Iamf.Props
open Iamf

/-- Decoders that count frames, and a finalizer that writes the loudness of the example and counts temporal units. -/
def exampleParts : EncoderParts where
  Decoders := Nat
  Frames := Nat
  Finalizer := Nat
  analyse d fs := .ok (fs.length, d + fs.length)
  source _ := noSource
  push f _ _ _ _ := .ok (f + 1)
  finish _ := .ok exampleUpdated.mixes

def exampleArbitrary (tick : Int) (invalid : Bool) (hook : Nat) : ArbitraryObu := ⟨⟨24, false, false, 0, 0, none⟩, [9, 9], hook, some tick, invalid⟩

/-- The last sample of two temporal units is trimmed. -/
def exampleSetup (arbitrary : List ArbitraryObu) : EncoderSetup lpcmEncoders exampleParts FileOutput where
  lebs := .minimum
  delimiters := true
  newEncoder := newLpcmEncoder
  sequence := { exampleSequence with arbitrary := arbitrary }
  override := false
  metadata := [⟨3, [.l2, .r2], 0, 1, true, true⟩]
  downMixing := fun i => if i = 3 then some ⟨[], [(5, [.l2, .r2])], []⟩ else none
  decoders := (0 : Nat)
  finalizer := (0 : Nat)
  others := [fileSequencer .minimum true exampleFile]

def exampleMixGain (start : Int) (gain : Int32) : BlockMetadata ObuHeader :=
  ⟨8, 2, 2, [⟨0, .mixGain (.step gain)⟩], start, ⟨3, false, false, 0, 0, none⟩⟩

def exampleRank : UInt32 × Label → Nat := fun x => if x.2 = .l2 then 0 else 1

def exampleInput (blocks : List (BlockMetadata ObuHeader)) (l r : Samples) : IamfEncoderCall := .encode ⟨blocks, [((3, .l2), l), ((3, .r2), r)]⟩

/-- Two temporal units, the second after the end is announced; the buffer is reused. -/
def exampleRun (blocks : Bool) : List IamfEncoderCall :=
  [exampleInput (if blocks then [exampleMixGain 0 5] else []) [1 / 32768, 2 / 32768] [3 / 32768, -1 / 32768], .output exampleRank [],
   exampleInput (if blocks then [exampleMixGain 2 6] else []) [-1] [9 / 32768], .finalizeEncode, .output exampleRank [7], .output exampleRank [8]]

/-- What comes of calls: the answers, the descriptors and whether they are final, the file, whether there is more to come, and how many frames were
decoded. -/
structure ExampleOutcome where
  answers : List (Option (List UInt8))
  descriptors : Option (List UInt8 × Bool)
  files : List (Option (List UInt8))
  generating : Bool
  decoded : Nat
  deriving DecidableEq

def exampleOutcome (setup : EncoderSetup lpcmEncoders exampleParts FileOutput) (cs : List IamfEncoderCall) :
    Option ExampleOutcome :=
  match setup.create fileSink with
  | .error _ => none
  | .ok e => match e.calls fileSink (fun _ => 1) cs with
    | .error _ => none
    | .ok (answers, e) => some ⟨answers.map fun a => match a with
        | .unit b => some b
        | _ => none, (e.descriptorObus false).toOption, e.others.map fun q => q.sink.disk, e.generating, (e.decoders : Nat)⟩

/-- Descriptors with the loudness as measured. -/
def exampleFinal : List UInt8 := (serialize .minimum (wSequenceObus exampleUpdated)).toOption.map WBuf.bytes |>.getD []

/-- The run succeeds: frames with the mix gains given for them, the arbitrary OBU with the second, of which a sample is trimmed; the last call leaves its
buffer as it is.  All frames are decoded, and the file is what was returned. -/
theorem example_run_outcome : exampleOutcome (exampleSetup [exampleArbitrary 2 false 6]) (exampleRun true) =
    some ⟨[none, some [32, 0, 24, 6, 8, 2, 2, 0, 0, 5, 88, 8, 1, 0, 3, 0, 2, 0, 255, 255], none, none,
      some [32, 0, 192, 2, 9, 9, 24, 6, 8, 2, 2, 0, 0, 6, 90, 10, 1, 0, 0, 128, 9, 0, 0, 0, 0, 0], some [8]], some (exampleFinal, true),
      [some (exampleFinal ++ [32, 0, 24, 6, 8, 2, 2, 0, 0, 5, 88, 8, 1, 0, 3, 0, 2, 0, 255, 255,
        32, 0, 192, 2, 9, 9, 24, 6, 8, 2, 2, 0, 0, 6, 90, 10, 1, 0, 0, 128, 9, 0, 0, 0, 0, 0])], false, 2⟩ := by decide +kernel

/-- The hypotheses of the theorems of C46 and C47 hold for the run. -/
theorem example_run_hypotheses : (∀ u, .encode u ∈ exampleRun true → ∀ b ∈ u.blocks, ProperMetadata b) ∧
    (∀ definitions, (exampleSetup [exampleArbitrary 2 false 6]).definitions = .ok definitions → ∀ id d, definitions.lookup id = some d → OnePerPlace d) ∧
    exampleFile.named = true ∧ exampleFile.position = none ∧ (exampleSequence.codecs.map Prod.fst).Nodup ∧ (exampleSequence.elements.map Prod.fst).Nodup ∧
    .finalizeEncode ∈ exampleRun true := by
  refine ⟨?_, ?_, rfl, rfl, by decide, by decide, by simp [exampleRun]⟩
  · intro u hu b hb
    simp only [exampleRun, exampleInput, if_true, List.mem_cons, IamfEncoderCall.encode.injEq, reduceCtorEq, List.not_mem_nil, or_false, false_or] at hu
    have key : ∀ start gain, ProperMetadata (exampleMixGain start gain) := by
      intro start gain
      refine ⟨fun m hm => ?_, by simp [exampleMixGain]⟩
      simp only [exampleMixGain, List.mem_singleton] at hm
      subst hm
      intro layers he
      cases he
    rcases hu with rfl | rfl
    · simp only [List.mem_singleton] at hb; subst hb; exact key _ _
    · simp only [List.mem_singleton] at hb; subst hb; exact key _ _
  · intro definitions hd id d hl
    have hkey : (exampleSetup [exampleArbitrary 2 false 6]).definitions = .ok [(8, (⟨⟨8, 48000, 0, none⟩, .mixGain 0⟩, none)), (9, (⟨⟨9, 48000, 0, none⟩, .mixGain 0⟩, none))] := rfl
    rw [hkey, Except.ok.injEq] at hd
    subst hd
    have hd2 : d.2 = none := by
      simp only [List.lookup] at hl
      split at hl
      · cases hl; rfl
      · split at hl
        · cases hl; rfl
        · cases hl
    intro i below layer h1
    rw [hd2] at h1
    cases h1

/-- The new encoder of the example takes samples: `C46_generating_until_finalized` applies. -/
example : ((exampleSetup []).create fileSink).toOption.map (fun e => e.generator.takingSamples) = some true := by decide +kernel

/-- What calls return. -/
private def answersOf (setup : EncoderSetup lpcmEncoders exampleParts FileOutput) (cs : List IamfEncoderCall) : Option (List (Option (List UInt8))) :=
  (exampleOutcome setup cs).map fun o => o.answers

/-- C47 (finding): samples are lost, without notice, when `Encode` is called twice before `OutputTemporalUnit`. -/
theorem C47_samples_may_be_lost :
    answersOf (exampleSetup []) [exampleInput [] [1 / 32768, 2 / 32768] [0, 0], exampleInput [] [3 / 32768, 4 / 32768] [0, 0], .output exampleRank []] =
      some [none, none, some [32, 0, 88, 8, 3, 0, 0, 0, 4, 0, 0, 0]] := by decide +kernel

/-- C47 (finding): when an arbitrary OBU has a tick at which no frame starts, `OutputTemporalUnit` fails after all frames, and the mix presentations and
sequencers are not finalized. -/
theorem C47_late_arbitrary_obus_fail :
    (answersOf (exampleSetup [exampleArbitrary 3 false 6]) (exampleRun false)) = none ∧
    (answersOf (exampleSetup [exampleArbitrary 3 false 6]) ((exampleRun false).take 5)).isSome = true := by decide +kernel

/-- Only an arbitrary OBU that is marked as invalid, and that is not written because its hook is not one for temporal units, gives a temporal unit
without frames: a temporal delimiter, here. -/
example : (answersOf (exampleSetup [exampleArbitrary 3 true 5]) (exampleRun false)).map (fun l => l.drop 4) =
    some [some [32, 0, 90, 10, 1, 0, 0, 128, 9, 0, 0, 0, 0, 0], some [32, 0]] := by decide +kernel

/-- C47 (finding): an `OutputTemporalUnit` that produces no temporal unit leaves the caller's bytes in place. -/
theorem C47_stale_bytes : answersOf (exampleSetup []) [.output exampleRank [1, 2, 3]] = some [some [1, 2, 3]] := by decide +kernel

end Iamf.Props
