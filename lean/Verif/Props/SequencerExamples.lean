import Verif.Props.Sequencer
import Verif.Props.Decoder
/-
  C34: concrete sequences, and findings about sequencers.
-/
namespace Iamf.Props
open Iamf

def exampleElement : AudioElement := ⟨3, 0, 0, 7, [5], [], .scalable ⟨0, [⟨1, false, false, 0, 1, 1, 0, 0, 0, none⟩]⟩⟩

def exampleCodec : CodecObu := ⟨⟨7, kCodecIdLpcm, 2, 0, .lpcm ⟨1, 16, 48000⟩⟩, 48000, 48000, 16⟩

def exampleStereoMix : MixPresentation :=
  ⟨42, 0, [], [], [⟨[⟨3, [], ⟨0, 0, 0, [], none, []⟩, ⟨⟨8, 48000, 0, none⟩, .mixGain 0⟩⟩],
     ⟨⟨9, 48000, 0, none⟩, .mixGain 0⟩, [⟨⟨2, .soundSystem 0 0⟩, ⟨0, 0, 0, 0, [], []⟩⟩, ⟨⟨2, .soundSystem 8 0⟩, ⟨0, 0, 0, 0, [], []⟩⟩]⟩],
     none, none⟩

/-- The sequence of `exampleDescriptors`, as arguments of a sequencer. -/
def exampleSequence : SequenceObus where
  sequenceHeader := ⟨⟨31, false, false, 0, 0, none⟩, ⟨0, 0⟩, []⟩
  metadata := []
  codecs := [(7, ⟨⟨0, false, false, 0, 0, none⟩, exampleCodec, []⟩)]
  elements := [(3, ⟨⟨1, false, false, 0, 0, none⟩, ⟨exampleElement, some exampleCodec, ⟨[(5, [.l2, .r2])], [], [⟨2, 0, 0, 0⟩]⟩⟩, []⟩)]
  mixes := [⟨⟨2, false, false, 0, 0, none⟩, exampleStereoMix, []⟩]
  arbitrary := []

/-- A unit with one frame of two samples. -/
def exampleUnit (start : Int) (bytes : List UInt8) : TemporalUnitView :=
  ⟨[], [⟨⟨11, false, false, 0, 0, none⟩, ⟨5, bytes⟩, start, start + 2, some (3, some 2)⟩], [], start, start + 2, 0, 2⟩

/-- A unit all of whose samples are trimmed. -/
def exampleTrimmed (start : Int) (bytes : List UInt8) : TemporalUnitView :=
  ⟨[], [⟨⟨11, false, true, 0, 2, none⟩, ⟨5, bytes⟩, start, start + 2, some (3, some 2)⟩], [], start, start + 2, 2, 0⟩

def exampleFile : FileOutput := ⟨true, some [1, 2, 3], none, []⟩

def examplePushes : List SequencerCall :=
  [.pushDescriptors exampleSequence, .pushUnit (exampleUnit 0 [1, 2, 3, 4]), .pushUnit (exampleUnit 2 [5, 6, 7, 8])]

/-- The same sequence with another loudness, of the same length. -/
def exampleUpdated : SequenceObus :=
  { exampleSequence with mixes := [⟨⟨2, false, false, 0, 0, none⟩,
      { exampleStereoMix with subMixes := [⟨[⟨3, [], ⟨0, 0, 0, [], none, []⟩, ⟨⟨8, 48000, 0, none⟩, .mixGain 0⟩⟩],
        ⟨⟨9, 48000, 0, none⟩, .mixGain 0⟩, [⟨⟨2, .soundSystem 0 0⟩, ⟨0, 77, 0, 0, [], []⟩⟩, ⟨⟨2, .soundSystem 8 0⟩, ⟨0, 78, 0, 0, [], []⟩⟩]⟩] }, []⟩] }

/-- The file that is written, with temporal delimiters. -/
example : (writing .minimum true exampleFile (examplePushes ++ [.close])).1 = [.ok (), .ok (), .ok (), .ok ()] ∧
    fileAfter .minimum true exampleFile (examplePushes ++ [.close]) =
      some (exampleBytes ++ [32, 0, 88, 4, 1, 2, 3, 4, 32, 0, 88, 4, 5, 6, 7, 8]) := by decide +kernel

/-- Updated descriptors, and the hypotheses of `C34_file_of_an_updated_sequence`. -/
example : (writing .minimum false exampleFile (examplePushes ++ [.updateAndClose exampleUpdated])).1 = [.ok (), .ok (), .ok (), .ok ()] ∧
    (fileAfter .minimum false exampleFile (examplePushes ++ [.updateAndClose exampleUpdated])).map (fun b => b.drop exampleBytes.length) =
      some [88, 4, 1, 2, 3, 4, 88, 4, 5, 6, 7, 8] ∧
    fileAfter .minimum false exampleFile (examplePushes ++ [.updateAndClose exampleUpdated]) ≠
      fileAfter .minimum false exampleFile examplePushes := by decide +kernel

/-- A fault of the file while the second unit is written: the call fails, and the file is gone; the earlier content does not come back. -/
example : (writing .minimum true { exampleFile with faults := [none, none, some 3] } (examplePushes ++ [.close])).1 =
      [.ok (), .ok (), .error .unknown, .error .failedPrecondition] ∧
    fileAfter .minimum true { exampleFile with faults := [none, none, some 3] } (examplePushes ++ [.close]) = none := by decide +kernel

/-- A unit that trims samples at its start after one that does not: refused. -/
example : (writing .minimum true exampleFile (examplePushes ++ [.pushUnit (exampleTrimmed 4 [0, 0, 0, 0])])).1 =
      [.ok (), .ok (), .ok (), .error .invalidArgument] := by decide +kernel

/-- The hypotheses of `C34_accepted_iff`. -/
example : WellFormed (exampleSequence.elements.map fun e => (e.1, e.2.body)) exampleStereoMix := by
  refine ⟨?_, by decide +kernel⟩
  intro i a c l ls h1 h2 h3
  simp only [exampleSequence, List.map_cons, List.map_nil, List.lookup] at h1
  split at h1
  · cases h1; cases h2; cases h3; decide
  · cases h1

/-- A delayed sequencer gets a trimmed unit after the descriptors, and the timestamp of the first sample. -/
example : ((recording .minimum false true [.pushDescriptors exampleSequence, .pushUnit (exampleTrimmed 0 [0, 0, 0, 0]),
      .pushUnit (exampleUnit 2 [1, 2, 3, 4]), .close]).2.sink.map fun e => match e with
        | .descriptors s => s.firstUntrimmed
        | .unit u => some u.bytes.length
        | _ => none) = [some 2, some 8, some 6, none] := by decide +kernel

/-- C34 (finding): units all of whose samples are trimmed are accepted by a sequencer that delays the descriptors, and never passed on. -/
theorem C34_delayed_units_get_lost : ∃ (d : SequenceObus) (u : TemporalUnitView),
    (recording .minimum false true [.pushDescriptors d, .pushUnit u, .close]).1 = [.ok (), .ok (), .ok ()] ∧
    ∀ e ∈ (recording .minimum false true [.pushDescriptors d, .pushUnit u, .close]).2.sink, ∀ r, e ≠ .unit r := by
  refine ⟨exampleSequence, exampleTrimmed 0 [0, 0, 0, 0], by decide +kernel, ?_⟩
  have h : ((recording .minimum false true [.pushDescriptors exampleSequence, .pushUnit (exampleTrimmed 0 [0, 0, 0, 0]), .close]).2.sink.all
      fun e => match e with | .unit _ => false | _ => true) = true := by decide +kernel
  intro e he r hr
  have := List.all_eq_true.mp h e he
  rw [hr] at this
  simp at this

/-- C34 (finding): updating the descriptors at that point hands over the new descriptors without the old ones ever having been handed
over, so that the derived class gets "finalized" descriptors first. -/
theorem C34_delayed_update_skips_descriptors : ∃ (d d' : SequenceObus),
    (recording .minimum false true [.pushDescriptors d, .updateAndClose d']).1 = [.ok (), .ok ()] ∧
    ∀ e ∈ (recording .minimum false true [.pushDescriptors d, .updateAndClose d']).2.sink, ∀ s, e ≠ .descriptors s := by
  refine ⟨exampleSequence, exampleUpdated, by decide +kernel, ?_⟩
  have h : ((recording .minimum false true [.pushDescriptors exampleSequence, .updateAndClose exampleUpdated]).2.sink.all
      fun e => match e with | .descriptors _ => false | _ => true) = true := by decide +kernel
  intro e he r hr
  have := List.all_eq_true.mp h e he
  rw [hr] at this
  simp at this

/-- C34 (finding): a call of the streaming sequencer that is refused because it is closed destroys the descriptors that could still be
retrieved. -/
theorem C34_refused_call_destroys_descriptors :
    (Sequencer.calls streamingSink [.pushDescriptors exampleSequence, .close] (streamingSequencer .minimum false)).2.sink.descriptors =
      exampleBytes ∧
    (Sequencer.calls streamingSink [.pushDescriptors exampleSequence, .close, .pushUnit (exampleUnit 0 [])]
      (streamingSequencer .minimum false)).2.sink.descriptors = [] := by decide +kernel

/-- C34 (finding): codec configs of different bit depths are accepted without notice, though a common bit depth is a requirement stated in
the error message; the depth is then reported as 16. -/
theorem C34_bit_depths_may_differ : ∃ d : SequenceObus, ∃ c ∈ d.codecs, ∃ c' ∈ d.codecs, c.2.body.bitDepth ≠ c'.2.body.bitDepth ∧
    (writing .minimum false exampleFile [.pushDescriptors d]).1 = [.ok ()] ∧
    ((writing .minimum false exampleFile [.pushDescriptors d]).2.statistics.map fun s => s.bitDepth) = some 16 := by
  refine ⟨{ exampleSequence with codecs := exampleSequence.codecs ++
      [(8, ⟨⟨0, false, false, 0, 0, none⟩, ⟨⟨8, kCodecIdLpcm, 2, 0, .lpcm ⟨1, 24, 48000⟩⟩, 48000, 48000, 24⟩, []⟩)] }, _,
      List.mem_cons_self, _, List.mem_cons_of_mem _ List.mem_cons_self, ?_, ?_, ?_⟩ <;> decide +kernel

end Iamf.Props
