import Verif.Props.Choice
import Verif.Props.PipelineExamples
import Verif.Props.ContainedExamples
/-
  C53, for examples: descriptors that can be played and descriptors that cannot.
-/
namespace Iamf.Props
open Iamf

private abbrev backend : Backend := standardBackend exampleDecibels exampleEnv exampleCodecs ⟨true, true⟩

private def succeeds {α : Type} (x : Except Err Unit × α) : Bool := match x.1 with
  | .ok _ => true
  | .error _ => false

private theorem playable_iff {s : DecoderSettings} (hs : AskedFor s) (pv : Bool) (bytes : List UInt8) :
    succeeds (Decoder.createFromDescriptors (B := backend) s pv bytes) = true ↔
      bytes.length ≤ 4194304 ∧ ∃ x, ParsedFrom true bytes x ∧ CanPlay exampleCodecs s x := by
  rw [← C53_which_descriptors_can_be_played (M := exampleDecibels) (t := ⟨true, true⟩) example_env hs pv bytes]
  generalize Decoder.createFromDescriptors (B := standardBackend exampleDecibels exampleEnv exampleCodecs ⟨true, true⟩) s pv bytes = w
  rcases w with ⟨_ | _, d⟩
  · exact ⟨fun h => (by cases h), fun ⟨_, h⟩ => (by simp at h)⟩
  · exact ⟨fun _ => ⟨d, rfl⟩, fun _ => rfl⟩

/-- Two parameters with the same id but different defaults. -/
def exampleTwoGains : List UInt8 :=
  [248, 6, 105, 97, 109, 102, 0, 0, 0, 14, 7, 105, 112, 99, 109, 2, 0, 0, 1, 16, 0, 0, 187, 128, 8, 10, 3, 0, 7, 1, 5, 0, 32, 16, 1, 1,
    16, 34, 42, 0, 1, 1, 3, 0, 0, 8, 128, 247, 2, 128, 0, 0, 8, 128, 247, 2, 128, 0, 1, 2, 128, 0, 0, 0, 0, 0, 160, 0, 0, 0, 0, 0]

/-- The same with equal defaults. -/
def exampleOneGain : List UInt8 :=
  [248, 6, 105, 97, 109, 102, 0, 0, 0, 14, 7, 105, 112, 99, 109, 2, 0, 0, 1, 16, 0, 0, 187, 128, 8, 10, 3, 0, 7, 1, 5, 0, 32, 16, 1, 1,
    16, 34, 42, 0, 1, 1, 3, 0, 0, 8, 128, 247, 2, 128, 0, 0, 8, 128, 247, 2, 128, 0, 0, 2, 128, 0, 0, 0, 0, 0, 160, 0, 0, 0, 0, 0]

private theorem asked (layout : Option OutputLayout) : AskedFor ⟨[0], some 42, layout.map OutputLayout.toLayout, false, 1⟩ :=
  ⟨show ∀ p ∈ [(0 : UInt8)], p ≤ 5 by decide, layout, rfl⟩

/-- Both sides of the equivalence occur: the descriptors of the example can be played, with one parameter for both gains too, but not if
the parameter is declared in two ways, and not for a user who asks for no profile. -/
example : (∃ x, ParsedFrom true exampleBytes x ∧ CanPlay exampleCodecs ⟨[0], some 42, none, false, 1⟩ x) ∧
    (∃ x, ParsedFrom true exampleOneGain x ∧ CanPlay exampleCodecs ⟨[0], some 42, none, false, 1⟩ x) ∧
    (¬ ∃ x, ParsedFrom true exampleTwoGains x ∧ CanPlay exampleCodecs ⟨[0], some 42, none, false, 1⟩ x) ∧
    (¬ ∃ x, ParsedFrom true exampleBytes x ∧ CanPlay exampleCodecs ⟨[], none, none, false, 1⟩ x) := by
  refine ⟨((playable_iff (asked none) true exampleBytes).mp (by decide +kernel)).2,
    ((playable_iff (asked none) true exampleOneGain).mp (by decide +kernel)).2, fun h => ?_, fun h => ?_⟩
  · exact absurd ((playable_iff (asked none) true exampleTwoGains).mpr ⟨by decide, h⟩) (by decide +kernel)
  · exact absurd ((playable_iff ⟨fun p hp => (by cases hp), none, rfl⟩ true exampleBytes).mpr ⟨by decide, h⟩) (by decide +kernel)

/-- The decoder for 7.1.4 says so after whatever calls, garbage included. -/
example (garbage : List UInt8) : ∃ d0 : Decoder backend,
    Decoder.createFromDescriptors ⟨[0], some 42, some (OutputLayout.soundSystem 9).toLayout, false, 1⟩ true exampleBytes = (.ok (), d0) ∧
    ∃ x, ParsedFrom true exampleBytes x ∧
      Announces ⟨[0], some 42, some (OutputLayout.soundSystem 9).toLayout, false, 1⟩ x (d0.calls [.decode garbage, .getOutput 7, .signalEnd]).2 := by
  have h := (playable_iff (asked (some (.soundSystem 9))) true exampleBytes).mp (by decide +kernel)
  obtain ⟨d0, hd⟩ := (C53_which_descriptors_can_be_played (M := exampleDecibels) (t := ⟨true, true⟩) example_env
    (asked (some (.soundSystem 9))) true exampleBytes).mpr h
  exact ⟨d0, hd, C53_what_a_created_decoder_plays example_env (asked (some (.soundSystem 9))) true exampleBytes d0 hd _⟩

/-- First-order ambisonics from one substream for all four channels. -/
def exampleFlatScene : List UInt8 :=
  [248, 6, 105, 97, 109, 102, 1, 1, 0, 14, 7, 105, 112, 99, 109, 2, 0, 0, 1, 16, 0, 0, 187, 128, 8, 13, 3, 32, 7, 1, 5, 0, 0, 4, 1, 0, 0, 0, 0,
    16, 34, 42, 0, 1, 1, 3, 0, 0, 8, 128, 247, 2, 128, 0, 0, 9, 128, 247, 2, 128, 0, 0, 2, 128, 0, 0, 0, 0, 0, 160, 0, 0, 0, 0, 0]

private def parses : Except Err (Option Descriptors) → Bool
  | .ok (some _) => true
  | _ => false

private theorem parsed_of {w : Except Err (Option Descriptors)} (h : parses w = true) : ∃ x, w = .ok (some x) := by
  rcases w with _ | _ | x
  · cases h
  · cases h
  · exact ⟨x, rfl⟩

/-- F50: such a scene is read without complaint, but cannot be played. -/
example : (∃ x, ParsedFrom true exampleFlatScene x) ∧
    ¬ ∃ x, ParsedFrom true exampleFlatScene x ∧ CanPlay exampleCodecs ⟨[0, 1], none, none, false, 1⟩ x := by
  refine ⟨parsed_of (w := ((parseDescriptors true).run (RBuf.create 1024 exampleFlatScene true)).1) (by decide +kernel), fun h => ?_⟩
  · exact absurd ((playable_iff ⟨by decide, none, rfl⟩ true exampleFlatScene).mpr ⟨by decide, h⟩) (by decide +kernel)

private def complete (bytes : List UInt8) : Bool :=
  ((Decoder.create (B := backend) ⟨[0], some 42, none, false, 1⟩ true).decode bytes).2.isDescriptorProcessingComplete

/-- A stream of the descriptors alone is not ready, but with the start of a temporal unit it is. -/
example : (¬ ∃ x, ParsedFrom false exampleBytes x ∧ CanPlay exampleCodecs ⟨[0], some 42, none, false, 1⟩ x) ∧
    ∃ x, ParsedFrom false (exampleBytes ++ [32, 0]) x ∧ CanPlay exampleCodecs ⟨[0], some 42, none, false, 1⟩ x := by
  have h := fun bytes hl => (C53_which_streams_can_be_played (M := exampleDecibels) (C := exampleCodecs) (t := ⟨true, true⟩) example_env
    (asked none) true bytes hl).1
  exact ⟨fun k => absurd ((h exampleBytes (by decide)).mpr k) (show ¬ complete exampleBytes = true by decide +kernel),
    (h (exampleBytes ++ [32, 0]) (by decide)).mp (show complete (exampleBytes ++ [32, 0]) = true by decide +kernel)⟩

end Iamf.Props
