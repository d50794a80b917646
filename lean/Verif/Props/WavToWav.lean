import Verif.Props.WavRoundTrip
import Verif.Props.WavExamples
import Verif.Props.DecoderTool
import Verif.Props.DecoderToolExamples
/-
  C57: from a WAV file through the encoder program, an IA sequence and the decoder program to a WAV file.
-/
namespace Iamf.Props
open Iamf

private theorem rate_of {B : Backend} {ds : DecoderSettings} {x : Descriptors} {p : Processor B} (h : initAll ds x = .ok p) :
    p.rate = sampleRateAndFrameSize x := by
  unfold initAll at h
  cases h1 : initProcessor x with
  | error e => rw [h1] at h; cases h
  | ok q =>
    rw [h1] at h
    replace h : initRendering ds x q = .ok p := h
    unfold initRendering at h
    split at h; · cases h
    split at h; · cases h
    split at h; · cases h
    cases h2 : findMixAndLayout (x.elements.map fun e => (e.1, e.2.obu)) (supportedMixes ds x) ds.layout ds.mixId with
    | error e => rw [h2] at h; cases h
    | ok sel =>
      rw [h2] at h
      simp only [Bind.bind, Except.bind] at h
      split at h; · cases h
      split at h; · cases h
      split at h; · cases h
      cases h
      rfl

private theorem bytes_once {t : Nat} : ∀ {xs : List Rendered} {a b : List (List UInt8)}, List.Forall₂ (OutputBytes t) xs a → List.Forall₂ (OutputBytes t) xs b → a = b
  | [], _, _, .nil, .nil => rfl
  | _ :: _, _, _, .cons h1 h2, .cons h3 h4 => by rw [(outputBytes_pcm h1).1, (outputBytes_pcm h3).1, bytes_once h2 h4]

/-- **C57.** From WAV file to WAV file.  A WAV file of any length is encoded by the encoder program, as one audio element that is coded as LPCM without loss.  The decoder program, which reads the IA
sequence that was left on disk in blocks of any length that leaves room in its buffer, writes a WAV file whose header says the sample rate of the codec, as many channels as the layout has and how many
samples there are, and whose samples are those of the channels that were chosen, in the order of the output layout, without what the user told the encoder to trim, and nothing besides. -/
theorem C57_from_wav_to_wav {P : EncoderParts} {W : WavLib} (M : GainMath Rat) (hM : M.linear 0 = 1) (E : RenderEnv) (hE : GoodEnv E) (C : Codecs)
    (linear : Int16 → Rat) (content : W.Source → List Int32) (hW : HonestWav W content) (H : WavHeaders) (hH : HonestHeaders H)
    -- the encoder
    (s : EncoderSetup lpcmEncoders P FileOutput) (i : UInt32) (o : Obu ElementWithData) (trimStart trimEnd : UInt32) (includesDelay : Bool)
    (channels : List (Label × UInt32)) (out : FileOutput) (hs : PlainSetup s i o (channels.map Prod.fst) trimStart trimEnd includesDelay out)
    (e0 : IamfEncoder lpcmEncoders P FileOutput) (h0 : s.create fileSink = .ok e0)
    -- the WAV file
    (f : WavFile W) (hch : f.channels ≠ 0) (total : Nat) (htotal : (content f.source).length = total * f.channels) (hsome : total ≠ 0)
    -- the encoder program
    (orders : Nat → ToolOrder) (ho : ∀ k l, ((orders k).blocks l).Perm l) (fuel : Nat) (e : IamfEncoder lpcmEncoders P FileOutput)
    (h : encodeWavs fileSink linear [⟨i, channels, some f⟩] [] orders fuel e0 = .ok e)
    -- the descriptors that are written in the end
    (m : List (Obu MixPresentation)) (hm : P.finish e.finalizer = .ok m) (hbuilt : BuiltSequence (withMixes s.descriptors m)) (x : Descriptors)
    (hx : SameDescriptors (withMixes s.descriptors m) x) (n : UInt32) (hn : n ≠ 0) (hplay : Playable x n) (e' : ElementWithData)
    (he' : x.elements.lookup i = some e') (c : CodecObu) (pcm : LpcmConfig) (order : List Label) (hp : PlainPcm e' c pcm order) (hpcm : ValidLpcm pcm)
    (hmix : ∀ p ∈ x.mixes, ∀ b ∈ p.subMixes, ∃ a, b.elements = [a] ∧ a.id = i ∧ NoGain a.mixGain c.outputRate ∧ NoGain b.outputMixGain c.outputRate)
    (codecId : UInt32) (hone : x.codecs = [(codecId, c)])
    -- the lengths
    (hroom : trimEnd.toNat + channels.length * (total + n.toNat) + n.toNat < 4294967296)
    -- the decoder
    (ds : DecoderSettings) (ha : ds.android = false) (hst : ds.sampleType = 1 ∨ ds.sampleType = 2)
    (p0 : Processor (standardBackend M E C ⟨true, true⟩)) (hi : initAll ds x = .ok p0) (sys r : UInt8) (hlay : p0.layout = ⟨2, .soundSystem sys r⟩)
    (hsys : sys.toNat < 14) (hfit : Fits order (systemPlaces sys)) (hbuf : n.toNat * order.length * (2 * ds.sampleType) < 4294967296)
    (hhead : ∃ first, H (UInt8.ofNat (16 * ds.sampleType)) 0 c.outputRate order.length = some first) :
    ∃ (descriptors : List UInt8) (units : List (List UInt8)) (sound : List UInt8),
      (e.others.map fun q => q.sink.disk) = [some (descriptors ++ units.flatten)] ∧
      DescriptorBytes s.lebs (withMixes s.descriptors m) descriptors ∧ (∃ views, List.Forall₂ (UnitBytes s.lebs s.delimiters) views units) ∧
      DeliveredUnit pcm.sampleSize ds.sampleType order (wavSound content f channels) trimStart.toNat (total - trimEnd.toNat - trimStart.toNat) sound ∧
      ∀ (block : Nat) (pv : Bool) (dumps steps : Nat), (descriptors ++ units.flatten).length < 4294967295 → 0 < block → block ≤ 2097152 →
        descriptors.length + (units.headD []).length + 2 * block ≤ 4194304 → units.length < dumps → (descriptors ++ units.flatten).length / block < steps →
        playFile (standardBackend M E C ⟨true, true⟩) H ds pv dumps steps block (descriptors ++ units.flatten) =
          .ok (some (headerOf H true (UInt8.ofNat (16 * ds.sampleType)) c.outputRate order.length
            (order.length * (total - trimEnd.toNat - trimStart.toNat)) ++ sound)) := by
  obtain ⟨descriptors, units, views, xs, bs, d1, d2, d3, d4, d5, d6, -, d8, d9⟩ := wav_parts M hM E hE C linear content hW s i o trimStart trimEnd includesDelay channels out hs e0 h0 f
    hch total htotal hsome orders ho fuel e h m hm hbuilt x hx n hn hplay e' he' c pcm order hp hpcm hmix hroom ds hst p0 hi sys r hlay hfit
  refine ⟨descriptors, units, bs.flatten, d1, d3, ⟨views, d4⟩, d9, fun block pv dumps steps b1 b2 b3 b4 b5 b6 => ?_⟩
  have hnc : c.config.numSamplesPerFrame = n := by
    obtain ⟨l1, l2, hl, -⟩ := List.lookup_eq_some_iff.mp he'
    refine hplay.frameSize (i, e') (by rw [hl]; simp) c hp.codec
  have hrate : p0.rate = some (c.outputRate, n) := by
    rw [rate_of hi]
    unfold sampleRateAndFrameSize
    rw [hone]
    simp only [hnc]
  have hpos : 0 < order.length := by
    obtain ⟨-, _, layer, -, ho⟩ := hp.channels
    obtain ⟨l, hl, -⟩ := ordered_sound ho
    exact List.length_pos_of_mem hl
  have hnum : numChannelsFromLayout p0.layout = .ok (order.length : Int) := by
    rw [hlay]
    have := channels_check sys.toNat sys.toNat_lt
    rw [show UInt8.ofNat sys.toNat = sys from UInt8.ofNat_toNat] at this
    have hr : numChannelsFromLayout ⟨2, .soundSystem sys r⟩ = numChannelsFromLayout ⟨2, .soundSystem sys 0⟩ := rfl
    rw [hr]
    have hlen : order.length = (systemPlaces sys).length := hfit.length_eq
    split at this
    · next k hk => rw [hk, this, hlen]
    · rw [this] at hlen
      simp only [List.length_nil] at hlen
      omega
  obtain ⟨bs', c1, c2⟩ := C57_the_decoder_program_writes_the_sound (standardBackend M E C ⟨true, true⟩) H hH ds ha hst _ x n views _ d2 s.lebs descriptors units d3 d4 b1 p0 hi xs d5
    order.length hnum hpos c.outputRate n hrate d8 (by rw [hlay]; unfold Layout.toOutput; simp [hsys]) hbuf hhead block b2 b3 b4 pv dumps steps
    (by rw [d4.length_eq]; exact b5) b6
  rw [bytes_once c1 d6] at c2
  rw [c2, d9.1, Nat.mul_div_cancel]
  omega

/-- **C57**, for the WAV file of five ticks and three channels of the example of C56, of which the second to the fourth tick of two channels are kept, read in blocks of up to 1000 bytes. -/
example : ∃ sound most, DeliveredUnit 16 1 [.l2, .r2] (wavSound id exampleWav exampleWavInput.channels) 1 3 sound ∧
    ∀ (block : Nat) (pv : Bool) (dumps : Nat), 0 < block → block ≤ 1000 → most < dumps →
      playFile (standardBackend exampleDecibels exampleEnv exampleCodecs ⟨true, true⟩) exampleHeaders exampleSettings pv dumps 2000 block (exampleFinal ++ exampleRecorded) =
        .ok (some ([82, 73, 70, 70, 16, 6, 0, 48, 2] ++ sound)) := by
  obtain ⟨e0, e, h0, h1, h3⟩ : ∃ e0 e, exampleRecorder.create fileSink = .ok e0 ∧
      encodeWavs fileSink (fun _ => 1) [exampleWavInput] [] exampleOrders 4 e0 = .ok e ∧ e.others.map (fun q => q.sink.disk) = [some (exampleFinal ++ exampleRecorded)] := by
    have h := example_encoded_wav
    unfold exampleEncodedWavs at h
    obtain ⟨c0, hc0⟩ : ∃ x, exampleRecorder.create fileSink = x := ⟨_, rfl⟩
    rw [hc0] at h
    cases c0 with
    | error _ => cases h
    | ok e0 =>
      simp only at h
      obtain ⟨c1, hc1⟩ : ∃ x, encodeWavs fileSink (fun _ => 1) [exampleWavInput] [] exampleOrders 4 e0 = x := ⟨_, rfl⟩
      rw [hc1] at h
      cases c1 with
      | error _ => cases h
      | ok e =>
        simp only [Option.some.injEq, Prod.mk.injEq] at h
        exact ⟨e0, e, hc0, hc1, h.1⟩
  obtain ⟨p0, hi, hlay⟩ : ∃ p0 : Processor (standardBackend exampleDecibels exampleEnv exampleCodecs ⟨true, true⟩),
      initAll exampleSettings exampleFinished = .ok p0 ∧ p0.layout = ⟨2, .soundSystem 0 0⟩ := ⟨_, rfl, rfl⟩
  obtain ⟨descriptors, units, sound, k1, -, -, k2, k3⟩ := C57_from_wav_to_wav exampleDecibels (by decide +kernel) exampleEnv example_env exampleCodecs (fun _ => 1) id example_honest
    exampleHeaders example_headers exampleRecorder 3
    ⟨⟨1, false, false, 0, 0, none⟩, ⟨exampleElement, some exampleCodec, ⟨[(5, [.l2, .r2])], [], [⟨2, 0, 0, 0⟩]⟩⟩, []⟩ 1 1 true exampleWavInput.channels exampleFile
    ⟨rfl, rfl, rfl, ⟨by simp [exampleWavInput], by decide⟩, rfl, fun a ha => (by cases ha), rfl, rfl, rfl⟩ e0 h0 exampleWav (by decide) 5 (by decide) (by decide) exampleOrders
    (fun _ l => .refl l) 4 e h1 exampleUpdated.mixes rfl example_final exampleFinished
    ⟨rfl, .refl _, .refl _, rfl, by simp [exampleFinished, examplePlayable], by simp [exampleFinished, examplePlayable]⟩ 2 (by decide)
    ⟨example_playable.streams, example_playable.frameSize, example_playable.labels, example_playable.layers, example_playable.defaults⟩ _ rfl exampleCodec
    ⟨1, 16, 48000⟩ [.l2, .r2] ⟨rfl, rfl, rfl, 0, _, rfl, rfl⟩ ⟨.inr rfl, .inl rfl, by decide⟩ (by
      intro m hm s hs
      simp only [exampleFinished, exampleUpdated, List.map_cons, List.map_nil, List.mem_singleton] at hm
      subst hm
      simp only [List.mem_singleton] at hs
      subst hs
      exact ⟨_, rfl, rfl, ⟨rfl, rfl⟩, rfl, rfl⟩) _ rfl (by decide) exampleSettings rfl (.inl rfl) p0 hi 0 0 hlay (by decide)
    (by decide +kernel) (by decide) ⟨_, rfl⟩
  rw [h3] at k1
  simp only [List.cons.injEq, Option.some.injEq, and_true] at k1
  have hlen : (descriptors ++ units.flatten).length ≤ 1000 := by rw [← k1]; decide +kernel
  have hhead : descriptors.length + (units.headD []).length ≤ 1000 := by
    refine Nat.le_trans ?_ hlen
    rw [List.length_append]
    cases units with
    | nil => simp
    | cons a l => simp
  refine ⟨sound, units.length, k2, fun block pv dumps b1 b2 b3 => ?_⟩
  rw [k1]
  exact k3 block pv dumps 2000 (by omega) b1 (by omega) (by omega) b3 (Nat.lt_of_le_of_lt (Nat.div_le_self _ _) (by omega))

end Iamf.Props
