import Verif.Props.WavOfMix
import Verif.Props.FinalizerCalls
import Verif.Props.DecoderToolExamples
/-
  C57: the WAV files of a concrete mix presentation.
-/
namespace Iamf.Props
open Iamf

/-- The files of the two layouts of the example, in the output format for 16 bits. -/
def exampleMixFiles : Option (List (Option (List UInt8))) :=
  match Finalizer.create (some exampleEnv) ⟨true, true⟩ exampleMeters (wavFiles exampleHeaders) id examplePlayable.elements exampleSequence.mixes with
  | .error _ => none
  | .ok f => some ((exampleToRender.foldl (fun f u => (f.push exampleDecibels u).2) f).finish.2.mixes.flatMap fun m => m.2.flatten.map fun x =>
    match x.post with
    | none => none
    | some (w : WavWriter) => w.content)

/-- **C57**, for the example: the first layout is stereo, and of the last tick, which is trimmed, there is nothing. -/
example : exampleMixFiles.map (·.head?) = some (some (some [82, 73, 70, 70, 16, 6, 0, 48, 2, 1, 0, 3, 0, 2, 0, 255, 255, 7, 0, 5, 0])) := by decide +kernel

/-- The hypotheses of `C57_the_mix_as_a_wav_file` hold for it, with a renderer and a WAV file. -/
example : ∃ f f1 f2 : Finalizer exampleMeters (wavFiles exampleHeaders),
    NewFinalizer exampleEnv ⟨true, true⟩ examplePlayable.elements exampleSequence.mixes f ∧ Pushed exampleDecibels f exampleToRender f1 ∧
    f1.finish = (.ok (), f2) := by
  have hp : ∀ {f g h : Finalizer exampleMeters (wavFiles exampleHeaders)} {a b : UnitToRender}, f.push exampleDecibels a = (.ok (), g) →
      g.push exampleDecibels b = (.ok (), h) → Pushed exampleDecibels f [a, b] h := fun h1 h2 => .snoc (us := [_]) (.snoc (us := []) .nil h1) h2
  exact ⟨_, _, _, ⟨⟨id, fun _ => .refl _, rfl⟩, by decide⟩, hp rfl rfl, rfl⟩

end Iamf.Props
