import Verif.Cli.DecoderPlay
import Verif.Props.EndToEnd
import Verif.Props.BufferSize
import Verif.Props.WavWriter
/-
  C57: the decoder program writes the WAV file of what the stream contains.
-/
namespace Iamf.Props
open Iamf

/-! ### The output file -/

private structure Scene {B : Backend} (H : WavHeaders) (s : DecoderSettings) (S : List UInt8) (x : Descriptors) (k : Nat) (p0 : Processor B)
    (xs : List Rendered) (early block channels : Nat) (rate frameSize : UInt32) (h0 : List UInt8) : Prop where
  android : s.android = false
  part : ∀ P, P <+: S → P.length ≤ 4194304 → ∃ r, ((parseDescriptors false).runA ⟨bytesBits P, 0, true⟩).1 = .ok r ∧ (∀ y, r = some y →
      y = x ∧ ((parseDescriptors false).runA ⟨bytesBits P, 0, true⟩).2.pos = 8 * k)
  soon : ∀ P, P <+: S → early ≤ P.length → ((parseDescriptors false).runA ⟨bytesBits P, 0, true⟩).1 = .ok (some x)
  init : initAll s x = .ok p0
  prompt : Prompt p0 (bytesBits (S.drop k)) xs
  size : S.length < 4294967295
  long : early ≤ S.length
  blocks : 0 < block ∧ block ≤ 2097152 ∧ early + 2 * block ≤ 4194304
  type : s.sampleType = 1 ∨ s.sampleType = 2
  channelsOf : numChannelsFromLayout p0.layout = .ok (channels : Int)
  rateOf : p0.rate = some (rate, frameSize)
  layout : ∃ l, p0.layout.toOutput = .ok l
  fits : ∀ y ∈ xs, FitsIn channels frameSize.toNat y
  notNone : 0 < channels
  small : frameSize.toNat * channels * (2 * s.sampleType) < 4294967296
  head : H (UInt8.ofNat (16 * s.sampleType)) 0 rate channels = some h0

section
variable {B : Backend} {H : WavHeaders} {s : DecoderSettings} {S : List UInt8} {x : Descriptors} {k : Nat} {p0 : Processor B}
  {xs : List Rendered} {early block channels : Nat} {rate frameSize : UInt32} {h0 : List UInt8}

/-- The writer after `bytes` were written. -/
private def writer (channels : Nat) (rate : UInt32) (t : Nat) (frameSize : UInt32) (h0 bytes : List UInt8) : WavWriter :=
  ⟨channels, rate, UInt8.ofNat (16 * t), frameSize.toNat, bytes.length / (2 * t), true, true, true, some (h0 ++ bytes)⟩

private theorem bytes_of {t : Nat} (ht : t = 1 ∨ t = 2) : bytesPerSample t = 2 * t ∧ (UInt8.ofNat (16 * t)).toNat = 16 * t ∧
    (UInt8.ofNat (16 * t) = 16 ∨ UInt8.ofNat (16 * t) = 24 ∨ UInt8.ofNat (16 * t) = 32) := by
  rcases ht with rfl | rfl
  · exact ⟨rfl, rfl, .inl rfl⟩
  · exact ⟨rfl, rfl, .inr (.inr rfl)⟩

private theorem writer_write {t : Nat} (ht : t = 1 ∨ t = 2) (hc : 0 < channels) {bytes more : List UInt8} {ticks : Nat}
    (hm : ticks ≤ frameSize.toNat) (hl : more.length = channels * ticks * (2 * t)) :
    (writer channels rate t frameSize h0 bytes).write more = (.ok (), writer channels rate t frameSize h0 (bytes ++ more)) := by
  obtain ⟨-, b2, -⟩ := bytes_of ht
  unfold WavWriter.write writer
  simp only [Bool.not_true, Bool.false_eq_true, ↓reduceIte, b2]
  have e1 : 16 * t * channels / 8 = channels * (2 * t) := by
    rw [show 16 * t * channels = 8 * (channels * (2 * t)) by rw [show 16 * t = 8 * (2 * t) by omega, Nat.mul_assoc, Nat.mul_comm (2 * t)]]
    exact Nat.mul_div_cancel_left _ (by decide)
  have e2 : 16 * t / 8 = 2 * t := by omega
  have tp : 0 < 2 * t := by omega
  have hp : 0 < channels * (2 * t) := Nat.mul_pos hc tp
  rw [e1, e2]
  by_cases h0l : more.length = 0
  · have : more = [] := by simpa using h0l
    subst this
    rw [if_pos h0l, List.append_nil]
  · rw [if_neg h0l, if_neg (by omega)]
    have e3 : more.length = ticks * (channels * (2 * t)) := by rw [hl, Nat.mul_comm channels, Nat.mul_assoc]
    have e4 : more.length / (2 * t) = channels * ticks := by rw [hl]; exact Nat.mul_div_cancel _ tp
    have e5 : more.length / (2 * t) / channels = ticks := by rw [e4]; exact Nat.mul_div_cancel_left _ hc
    rw [if_neg (by rw [e3, Nat.mul_mod_left]; simp), if_neg (by rw [e5]; omega)]
    have e6 : (bytes ++ more).length / (2 * t) = bytes.length / (2 * t) + more.length / (2 * t) := by
      rw [List.length_append, e4, hl, Nat.add_mul_div_right _ _ tp]
    rw [e6]
    simp

private theorem writer_final {t : Nat} (hH : HonestHeaders H) (hh : H (UInt8.ofNat (16 * t)) 0 rate channels = some h0) (bytes : List UInt8) :
    ((writer channels rate t frameSize h0 bytes).finalize H).content =
      some (headerOf H true (UInt8.ofNat (16 * t)) rate channels (bytes.length / (2 * t)) ++ bytes) := by
  unfold WavWriter.finalize writer headerOf
  simp only [Bool.not_true, Bool.false_eq_true, ↓reduceIte]
  cases h1 : H (UInt8.ofNat (16 * t)) (bytes.length / (2 * t)) rate channels with
  | none => simp only [hh, Option.getD_none, Option.getD_some]
  | some h =>
    have := hH _ _ _ _ _ _ _ h1 hh
    simp [this]

private theorem pcm_of (hsc : Scene H s S x k p0 xs early block channels rate frameSize h0) {y : Rendered} (hy : y ∈ xs) :
    ∃ ticks, ticks ≤ frameSize.toNat ∧ (pcmOf s.sampleType y).length = channels * ticks * (2 * s.sampleType) ∧
      OutputBytes s.sampleType y (pcmOf s.sampleType y) ∧
      writeFrameToSpan y s.sampleType (frameSize.toNat * channels * (2 * s.sampleType)) = .ok (pcmOf s.sampleType y) := by
  obtain ⟨h1, ticks, h2, h3⟩ := hsc.fits y hy
  have hne : y ≠ [] := by
    rintro rfl
    have := hsc.notNone
    simp only [List.length_nil] at h1
    omega
  have hle : y.length * ticks * (2 * s.sampleType) ≤ frameSize.toNat * channels * (2 * s.sampleType) := by
    rw [h1, Nat.mul_comm frameSize.toNat]
    exact Nat.mul_le_mul_right _ (Nat.mul_le_mul_left _ h2)
  have hsm := hsc.small
  obtain ⟨b, b1, b2, -⟩ := C32_frames_are_interleaved y ticks s.sampleType _ hne h3 hsc.type hle (by omega)
  have := writeFrame_ok b1
  subst this
  exact ⟨ticks, h2, by rw [b2, h1], C32_exact_buffer _ _ _ _ _ b1 (Nat.le_refl _), b1⟩

private theorem renders_length {r : B.State} {us : List OutputUnit} {xs : List Rendered} (h : Renders B r us xs) : xs.length = us.length := by
  induction h with
  | nil => rfl
  | cons _ _ ih => simp [ih]

private theorem unitsBack_length (x : Descriptors) (n : UInt32) (us : List TemporalUnitView) :
    ∀ (k : Nat) (e : List BlockWithData), (unitsBack x n k e us).length = us.length := by
  induction us with
  | nil => intro k e; rfl
  | cons u us ih => intro k e; simp [unitsBack, ih]

/-! ### One pass of the loop -/

/-- What is in the buffer of a decoder that has nothing to give out. -/
private def Rests (early block : Nat) (p0 : Processor B) (T : Bits) (taken : List Rendered) (d : Decoder B) : Prop :=
  if d.ended then Complete p0 T taken else d.buffer.src.length ≤ max 2097152 (early + block)

private theorem Rests.of {T : Bits} {taken : List Rendered} {d : Decoder B} (h : Waits p0 T taken d) : Rests early block p0 T taken d := by
  unfold Waits at h
  unfold Rests
  split
  · next he => rw [if_pos he] at h; exact h
  · next he =>
    rw [if_neg he] at h
    exact Nat.le_trans h (Nat.le_max_left _ _)

private structure Open (s : DecoderSettings) (p0 : Processor B) (early block : Nat) (T Q : Bits) (eof : Bool) (taken : List Rendered)
    (d : Decoder B) : Prop where
  going : Going p0 T Q taken d
  ended : d.ended = eof
  settings : d.settings = s
  rests : d.pending = [] → Rests early block p0 T taken d

private theorem dumped (hsc : Scene H s S x k p0 xs early block channels rate frameSize h0) {Q : Bits} {eof : Bool} (fuel : Nat) :
    ∀ {taken : List Rendered} {d : Decoder B}, xs.length < taken.length + fuel → Open s p0 early block (bytesBits (S.drop k)) Q eof taken d →
    ∃ d' taken', dumpUnits (frameSize.toNat * channels * (2 * s.sampleType)) fuel d
        (writer channels rate s.sampleType frameSize h0 (taken.map (pcmOf s.sampleType)).flatten) =
          .ok (d', writer channels rate s.sampleType frameSize h0 (taken'.map (pcmOf s.sampleType)).flatten) ∧
      Open s p0 early block (bytesBits (S.drop k)) Q eof taken' d' ∧ d'.pending = [] := by
  have hg0 := initAll_good hsc.init
  have hT : (bytesBits (S.drop k)).length < 8 * 4294967295 := by
    have := hsc.size
    rw [bytesBits_length, List.length_drop]; omega
  induction fuel with
  | zero =>
    intro taken d hf ho
    obtain ⟨p, hr, -⟩ := ho.going
    have := (hr.prefix hsc.prompt.complete).length_le
    rw [List.length_append] at this
    omega
  | succ fuel ih =>
    intro taken d hf ho
    by_cases hpe : d.pending = []
    · refine ⟨d, taken, ?_, ho, hpe⟩
      simp only [dumpUnits, Decoder.isUnitAvailable, hpe, List.isEmpty_nil, Bool.not_true, Bool.false_eq_true, ↓reduceIte]
    · have hpe2 : d.pending.isEmpty = false := by
        cases hx : d.pending with
        | nil => exact absurd hx hpe
        | cons a l => rfl
      have hpre : taken ++ [d.pending] <+: xs := by
        obtain ⟨p, hr, -⟩ := ho.going
        have := hr.prefix hsc.prompt.complete
        simpa [Decoder.pendings, hpe2] using this
      have hmem : d.pending ∈ xs := hpre.subset (by simp)
      obtain ⟨ticks, t1, t2, -, t4⟩ := pcm_of hsc hmem
      have hset := ho.settings
      obtain ⟨d', g1, g2, g3, g4, g5⟩ := ho.going.getOutput (outs := xs) hg0 hT hsc.prompt hpe (by rw [hset]; exact t4)
      rw [hset] at g1
      have ho' : Open s p0 early block (bytesBits (S.drop k)) Q eof (taken ++ [d.pending]) d' :=
        ⟨g2, g3.trans ho.ended, g4.trans hset, fun he => Rests.of (g5 he)⟩
      obtain ⟨d'', taken', i1, i2, i3⟩ := ih (by rw [List.length_append, List.length_singleton]; omega) ho'
      refine ⟨d'', taken', ?_, i2, i3⟩
      simp only [dumpUnits, Decoder.isUnitAvailable, hpe2, Bool.not_false, ↓reduceIte, g1]
      rw [writer_write hsc.type hsc.notNone t1 t2]
      simp only
      rw [← i1]
      simp only [List.map_append, List.map_cons, List.map_nil, List.flatten_append, List.flatten_cons, List.flatten_nil, List.append_nil]

private theorem output_made (hsc : Scene H s S x k p0 xs early block channels rate frameSize h0) {Q : Bits} {eof : Bool}
    {taken : List Rendered} {d : Decoder B} (ho : Open s p0 early block (bytesBits (S.drop k)) Q eof taken d) :
    outputOf H d none = .ok (some (writer channels rate s.sampleType frameSize h0 [], frameSize.toNat * channels * (2 * s.sampleType))) := by
  obtain ⟨p, hr, e1, e2, e3⟩ := ho.going
  obtain ⟨b1, b2, b3⟩ := bytes_of hsc.type
  obtain ⟨l, hl⟩ := hsc.layout
  have hb : 2 * s.sampleType ≠ 0 := by rcases hsc.type with h | h <;> omega
  have h16 : 2 * s.sampleType * 8 = 16 * s.sampleType := by omega
  have hmod : frameSize.toNat * channels * (2 * s.sampleType) % 4294967296 = frameSize.toNat * channels * (2 * s.sampleType) :=
    Nat.mod_eq_of_lt hsc.small
  simp only [outputOf, Decoder.isDescriptorProcessingComplete, setUpOutput, Decoder.getFrameSize, Decoder.getNumberOfOutputChannels,
    Decoder.getSampleRate, Decoder.getOutputMix, hr.processor, e1, e2, hsc.rateOf, hsc.channelsOf, hl, ho.settings, b1, hb, h16,
    Option.isSome_some, ↓reduceIte, Bind.bind, Except.bind, Int.toNat_natCast, hmod]
  simp only [WavWriter.create, b3, ↓reduceIte, hsc.head, writer]
  simp

private theorem decode_pending (bytes : List UInt8) (d : Decoder B) (hp : d.processor = none) : (d.decode bytes).2.pending = d.pending := by
  unfold Decoder.decode
  split
  · rfl
  · split
    · rfl
    · rw [hp]
      simp only
      unfold Decoder.setUp
      simp only
      split
      · next heq => split at heq <;> (try split at heq) <;> cases heq <;> rfl
      · next heq => split at heq <;> (try split at heq) <;> cases heq <;> rfl

private theorem parse_nothing : (match ((parseDescriptors false).runA ⟨bytesBits [], 0, true⟩).1 with
    | .ok none => true
    | _ => false) = true := by decide +kernel

/-- Before the descriptors are there: at most `early` bytes have been read. -/
private structure Shut (s : DecoderSettings) (early : Nat) (P : List UInt8) (d : Decoder B) : Prop where
  waiting : Waiting P d
  ended : d.ended = false
  settings : d.settings = s
  few : P.length ≤ early

private theorem fed_open (hsc : Scene H s S x k p0 xs early block channels rate frameSize h0) {bytes : List UInt8} {Q : Bits} {eof : Bool}
    (hb : bytes.length ≤ block) (hQ : eof = true → Q = []) {taken : List Rendered} {d : Decoder B}
    (ho : Open s p0 early block (bytesBits (S.drop k)) (bytesBits bytes ++ Q) false taken d) (hpe : d.pending = []) :
    ∃ d', feedBlock bytes eof d = .ok d' ∧ Open s p0 early block (bytesBits (S.drop k)) Q eof taken d' := by
  have hg0 := initAll_good hsc.init
  have hT : (bytesBits (S.drop k)).length < 8 * 4294967295 := by
    have := hsc.size
    rw [bytesBits_length, List.length_drop]; omega
  obtain ⟨c1, c2, c3⟩ := hsc.blocks
  have hr := ho.rests hpe
  unfold Rests at hr
  rw [ho.ended, if_neg (by simp)] at hr
  obtain ⟨d1, g1, g2, g3, g4, g5⟩ := ho.going.feed (outs := xs) hg0 hT hsc.prompt ho.ended hpe (by omega)
  unfold feedBlock
  simp only [g1]
  cases eof with
  | false =>
    simp only [Bool.false_eq_true, ↓reduceIte]
    exact ⟨d1, rfl, g2, g3, g4.trans ho.settings, fun he => Rests.of (g5 he)⟩
  | true =>
    have hq := hQ rfl
    subst hq
    obtain ⟨d2, k1, k2, k3, k4, k5⟩ := g2.signalEnd (outs := xs) hg0 hT hsc.prompt
    simp only [↓reduceIte, k1]
    exact ⟨d2, rfl, k2, k3, k4.trans (g4.trans ho.settings), fun he => Rests.of (k5 he)⟩

private theorem fed_shut (hsc : Scene H s S x k p0 xs early block channels rate frameSize h0) {P bytes rest : List UInt8} {eof : Bool}
    (hS : S = P ++ (bytes ++ rest)) (hb : bytes.length ≤ block) (hQ : eof = true → rest = []) {d : Decoder B} (ho : Shut s early P d) :
    ∃ d', feedBlock bytes eof d = .ok d' ∧ ((eof = false ∧ Shut s early (P ++ bytes) d') ∨
      Open s p0 early block (bytesBits (S.drop k)) (bytesBits rest) eof [] d') := by
  have hg0 := initAll_good hsc.init
  have hT : (bytesBits (S.drop k)).length < 8 * 4294967295 := by
    have := hsc.size
    rw [bytesBits_length, List.length_drop]; omega
  obtain ⟨c1, c2, c3⟩ := hsc.blocks
  have hfew := ho.few
  have hlen : (P ++ bytes).length ≤ 4194304 := by rw [List.length_append]; omega
  have hS2 : S = (P ++ bytes) ++ rest := by rw [hS, List.append_assoc]
  have hpre : P ++ bytes <+: S := ⟨rest, hS2.symm⟩
  obtain ⟨r, hr1, hr2⟩ := hsc.part _ hpre hlen
  obtain ⟨o, o1, o2⟩ := ho.waiting.call_ok (c := .decode bytes) (fun _ _ => ho.ended) hlen hr1
    (fun y hy => by rw [(hr2 y hy).1, ho.settings]; exact ⟨p0, hsc.init⟩)
  obtain ⟨d1, hd1⟩ : ∃ d1, d.call (.decode bytes) = (.ok o, d1) := ⟨_, Prod.ext o1 rfl⟩
  rw [hd1] at o2
  obtain ⟨rfl, hset, hended, -, hcase⟩ := ho.waiting.call hd1
  have hdec : d.decode bytes = (.ok (), d1) := by
    unfold Decoder.call at hd1
    simp only at hd1
    generalize d.decode bytes = w at hd1 ⊢
    rcases w with ⟨e | u, d2⟩
    · cases hd1
    · cases hd1; rfl
  have hpend := decode_pending bytes d ho.waiting.processor
  rw [hdec, ho.waiting.pending] at hpend
  simp only at hpend
  rw [ho.ended] at hended
  simp only [reduceCtorEq, decide_false, Bool.or_false] at hended
  simp only [DecoderCall.fed] at hcase o2
  rcases hcase with hw | ⟨p, y, j, -, a1, a2, a3, a4, a5⟩
  · cases eof with
    | false =>
      refine ⟨d1, by simp [feedBlock, hdec], .inl ⟨rfl, hw, hended, hset.trans ho.settings, ?_⟩⟩
      rcases hw.asked with hn | hn
      · rw [hn]; exact Nat.zero_le _
      · refine Decidable.byContradiction fun hcon => ?_
        rw [hsc.soon _ hpre (by omega)] at hn
        simp at hn
    | true =>
      exfalso
      have hq := hQ rfl
      subst hq
      rw [List.append_nil] at hS2
      have hl := hsc.long
      rcases hw.asked with hn | hn
      · have h1 := hsc.soon (P ++ bytes) hpre (by rw [← hS2]; exact hl)
        rw [hn] at h1
        have h2 := parse_nothing
        rw [h1] at h2
        cases h2
      · rw [hsc.soon _ hpre (by rw [← hS2]; exact hl)] at hn
        simp at hn
  · rw [hr1] at a1
    simp only [Except.ok.injEq] at a1
    obtain ⟨rfl, hj⟩ := hr2 y a1
    have hjk : j = k := by omega
    subst hjk
    rw [ho.settings, hsc.init] at a4
    simp only [Except.ok.injEq] at a4
    subst a4
    have hle : j ≤ (P ++ bytes).length := by
      have := (parse_ends false (bytesBits (P ++ bytes)) 0 true (Nat.zero_le _) (by rw [bytesBits_length]; omega)).done y (by rw [hr1, a1])
      rw [a2, bytesBits_length] at this
      omega
    have hdata : bytesBits ((P ++ bytes).drop j) ++ bytesBits rest = bytesBits (S.drop j) := by
      rw [hS2, List.drop_append_of_le_length hle, bytesBits_append]
    have hrun := a5 (bytesBits rest)
    rw [hdata] at hrun
    have hgo : Going p0 (bytesBits (S.drop j)) (bytesBits rest) [] d1 := ⟨p0, hrun, rfl, rfl, rfl⟩
    cases eof with
    | false =>
      refine ⟨d1, by simp [feedBlock, hdec], .inr ⟨hgo, hended, hset.trans ho.settings, fun _ => ?_⟩⟩
      unfold Rests
      rw [hended, if_neg (by simp)]
      rw [List.length_append] at o2
      exact Nat.le_trans (by omega) (Nat.le_max_right _ _)
    | true =>
      have hq := hQ rfl
      subst hq
      obtain ⟨d2, k1, k2, k3, k4, k5⟩ := Going.signalEnd (outs := xs) hgo hg0 hT hsc.prompt
      refine ⟨d2, by simp [feedBlock, hdec, k1], .inr ⟨k2, k3, k4.trans (hset.trans ho.settings), fun he => Rests.of (k5 he)⟩⟩

/-! ### The loop -/

private theorem played (hsc : Scene H s S x k p0 xs early block channels rate frameSize h0) (units : Nat) (hu : xs.length < units) (fuel : Nat) :
    ∀ {P rest : List UInt8} {d : Decoder B} {w : Option (WavWriter × Nat)}, S = P ++ rest → rest.length / block < fuel →
    ((w = none ∧ Shut s early P d) ∨
      ∃ taken, w = some (writer channels rate s.sampleType frameSize h0 (taken.map (pcmOf s.sampleType)).flatten,
          frameSize.toNat * channels * (2 * s.sampleType)) ∧
        Open s p0 early block (bytesBits (S.drop k)) (bytesBits rest) false taken d ∧ d.pending = []) →
    ∃ d', playLoop H units block fuel rest d w = .ok (d', some (writer channels rate s.sampleType frameSize h0
      (xs.map (pcmOf s.sampleType)).flatten, frameSize.toNat * channels * (2 * s.sampleType))) := by
  induction fuel with
  | zero => intro P rest d w _ hf; exact absurd hf (Nat.not_lt_zero _)
  | succ fuel ih =>
    intro P rest d w hS hf hst
    obtain ⟨c1, c2, c3⟩ := hsc.blocks
    have hb : (rest.take block).length ≤ block := by rw [List.length_take]; omega
    have hsplit : rest.take block ++ rest.drop block = rest := List.take_append_drop _ _
    have hQ : decide (rest.length < block) = true → rest.drop block = [] := by
      intro h
      rw [List.drop_eq_nil_iff]
      have := of_decide_eq_true h
      omega
    have hS2 : S = P ++ (rest.take block ++ rest.drop block) := by rw [hsplit]; exact hS
    have hS3 : S = (P ++ rest.take block) ++ rest.drop block := by rw [List.append_assoc]; exact hS2
    have hfuel : ¬ rest.length < block → (rest.drop block).length / block < fuel := by
      intro h
      rw [List.length_drop]
      have : rest.length / block = (rest.length - block) / block + 1 := by
        rw [← Nat.add_div_right _ c1, Nat.sub_add_cancel (by omega)]
      omega
    -- after a block has been read and the output file exists
    have key : ∀ (d1 : Decoder B) taken, Open s p0 early block (bytesBits (S.drop k)) (bytesBits (rest.drop block)) (decide (rest.length < block)) taken d1 →
        feedBlock (rest.take block) (decide (rest.length < block)) d = .ok d1 →
        outputOf H d1 w = .ok (some (writer channels rate s.sampleType frameSize h0 (taken.map (pcmOf s.sampleType)).flatten,
          frameSize.toNat * channels * (2 * s.sampleType))) →
        ∃ d', playLoop H units block (fuel + 1) rest d w = .ok (d', some (writer channels rate s.sampleType frameSize h0
          (xs.map (pcmOf s.sampleType)).flatten, frameSize.toNat * channels * (2 * s.sampleType))) := by
      intro d1 taken ho hfeed hout
      obtain ⟨d2, taken', g1, g2, g3⟩ := dumped hsc units (Nat.lt_of_lt_of_le hu (Nat.le_add_left _ _)) ho
      simp only [playLoop, hfeed, hout, dumpAvailable, g1]
      by_cases he : rest.length < block
      · rw [if_pos he]
        have hr := g2.rests g3
        unfold Rests at hr
        rw [g2.ended, if_pos (by simpa using he)] at hr
        rw [hr.unique hsc.prompt.complete]
        exact ⟨_, rfl⟩
      · rw [if_neg he]
        have hfalse : decide (rest.length < block) = false := by simpa using he
        rw [hfalse] at g2
        exact ih hS3 (hfuel he) (.inr ⟨taken', rfl, g2, g3⟩)
    rcases hst with ⟨rfl, ho⟩ | ⟨taken, rfl, ho, hpe⟩
    · obtain ⟨d1, f1, ⟨f2, f3⟩ | f2⟩ := fed_shut hsc hS2 hb hQ ho
      · have hproc := f3.waiting.processor
        have hnone : outputOf H d1 none = .ok none := by
          simp [outputOf, Decoder.isDescriptorProcessingComplete, hproc]
        have he : ¬ rest.length < block := by simpa using f2
        simp only [playLoop, f1, hnone, dumpAvailable]
        rw [if_neg he]
        exact ih hS3 (hfuel he) (.inl ⟨rfl, f3⟩)
      · exact key d1 [] f2 f1 (output_made hsc f2)
    · rw [← hsplit, bytesBits_append] at ho
      obtain ⟨d1, f1, f2⟩ := fed_open hsc hb (fun h => by rw [hQ h]; rfl) ho hpe
      exact key d1 taken f2 f1 rfl

end

/-- **C57 (the decoder program).** The program decodes a stream that has been written (its descriptors and its temporal units, with any
encoding of lengths) to a WAV file: its header says how many samples there are, and it has the samples that each temporal unit is rendered
to, in order, nothing more and nothing less.  The size of the blocks in which the file is read does not matter, as long as the descriptors, the first
temporal unit and two blocks fit in 4 MiB. -/
theorem C57_the_decoder_program_writes_the_sound (B : Backend) (H : WavHeaders) (hH : HonestHeaders H) (s : DecoderSettings)
    (ha : s.android = false) (ht : s.sampleType = 1 ∨ s.sampleType = 2)
    (d : SequenceObus) (x : Descriptors) (n : UInt32) (us : List TemporalUnitView) (delimiters : Bool) (h : Transmitted d x n us delimiters)
    (g : LebGen) (descriptors : List UInt8) (units : List (List UInt8)) (hd : DescriptorBytes g d descriptors)
    (hu : List.Forall₂ (UnitBytes g delimiters) us units) (hl : (descriptors ++ units.flatten).length < 4294967295)
    (p0 : Processor B) (hi : initAll s x = .ok p0) (xs : List Rendered) (hr : Renders B p0.renderer (unitsBack x n 0 [] us) xs)
    (channels : Nat) (hc : numChannelsFromLayout p0.layout = .ok (channels : Int)) (hpos : 0 < channels)
    (rate frameSize : UInt32) (hrate : p0.rate = some (rate, frameSize)) (hfits : ∀ y ∈ xs, FitsIn channels frameSize.toNat y)
    (hmix : ∃ l, p0.layout.toOutput = .ok l) (hbuf : frameSize.toNat * channels * (2 * s.sampleType) < 4294967296)
    (hhead : ∃ h0, H (UInt8.ofNat (16 * s.sampleType)) 0 rate channels = some h0)
    (block : Nat) (hb0 : 0 < block) (hb1 : block ≤ 2097152) (hb2 : descriptors.length + (units.headD []).length + 2 * block ≤ 4194304)
    (pv : Bool) (dumps fuel : Nat) (hdumps : us.length < dumps) (hfuel : (descriptors ++ units.flatten).length / block < fuel) :
    ∃ bs, List.Forall₂ (OutputBytes s.sampleType) xs bs ∧
      playFile B H s pv dumps fuel block (descriptors ++ units.flatten) =
        .ok (some (headerOf H true (UInt8.ofNat (16 * s.sampleType)) rate channels (bs.flatten.length / (2 * s.sampleType)) ++ bs.flatten)) := by
  obtain ⟨k1, k2, k3⟩ := h.stream hd hu hl
  obtain ⟨h0, hh0⟩ := hhead
  have hne : ∀ y ∈ xs, y ≠ [] := by
    rintro y hy rfl
    have := (hfits _ hy).1
    simp at this
    omega
  have hsc : Scene H s (descriptors ++ units.flatten) x descriptors.length p0 xs (descriptors.length + (units.headD []).length) block channels rate
      frameSize h0 := by
    refine ⟨ha, fun P hP hlen => ?_, fun P hP hlen => ?_, hi, h.prompt k3 hu hi hr hne, hl, ?_, ⟨hb0, hb1, hb2⟩, ht, hc, hrate, hmix, hfits,
      hpos, hbuf, hh0⟩
    · obtain ⟨r, hr⟩ := k2 P hP
      obtain ⟨q1, q2⟩ := parse_create P
      refine ⟨r, by rw [← q1]; exact hr, ?_⟩
      rintro y rfl
      obtain ⟨r1, r2⟩ := k1.parts P hP hlen y hr
      exact ⟨r1, by omega⟩
    · rw [← (parse_create P).1]
      exact h.early hd hu hl hP hlen
    · rw [List.length_append]
      cases units with
      | nil => simp
      | cons a l => simp
  have hlen : xs.length = us.length := by
    rw [renders_length hr, unitsBack_length]
  obtain ⟨d', hd'⟩ := played hsc dumps (by omega) fuel (P := []) (rest := descriptors ++ units.flatten) (d := Decoder.create s pv) (w := none)
    rfl hfuel (.inl ⟨rfl, Waiting.create ha pv, rfl, rfl, Nat.zero_le _⟩)
  refine ⟨xs.map (pcmOf s.sampleType), ?_, ?_⟩
  · rw [List.forall₂_map_right_iff, List.forall₂_same]
    intro y hy
    obtain ⟨-, -, -, q, -⟩ := pcm_of hsc hy
    exact q
  · unfold playFile
    rw [hd']
    simp only [Except.ok.injEq]
    exact writer_final hH hh0 _

/-! ### Any file -/

section
variable {B : Backend} {H : WavHeaders} {s : DecoderSettings} {pv : Bool}

/-- A decoder after the calls `cs`, which all returned OK and gave out `bytes`. -/
private structure Sofar (s : DecoderSettings) (pv : Bool) (cs : List DecoderCall) (d : Decoder B) (bytes : List UInt8) : Prop where
  decoder : (decoding B s pv cs).2 = d
  ok : AllOk (decoding B s pv cs).1
  bytes : (given (decoding B s pv cs).1).flatten = bytes

private theorem given_append (a b : List (Except Err (List UInt8))) : given (a ++ b) = given a ++ given b := by
  unfold given; rw [List.filterMap_append]

private theorem given_one (o : List UInt8) : (given [.ok o]).flatten = o := by
  cases o <;> simp [given]

private theorem Sofar.step {cs : List DecoderCall} {d d' : Decoder B} {bytes o : List UInt8} {c : DecoderCall} (h : Sofar s pv cs d bytes)
    (hc : d.call c = (.ok o, d')) : Sofar s pv (cs ++ [c]) d' (bytes ++ o) := by
  have hd := h.decoder
  have hr : decoding B s pv (cs ++ [c]) = ((decoding B s pv cs).1 ++ [.ok o], d') := by
    unfold decoding at hd ⊢
    rw [Decoder.calls_append, hd]
    simp only [Decoder.calls, hc]
  refine ⟨by rw [hr], ?_, ?_⟩
  · rw [hr]
    intro r hr
    rcases List.mem_append.mp hr with hr | hr
    · exact h.ok r hr
    · rw [List.mem_singleton] at hr
      exact ⟨o, hr⟩
  · rw [hr, given_append, List.flatten_append, h.bytes, given_one]

/-- What a decoder says of its output. -/
private def shown (d : Decoder B) : Option (Layout × Option (UInt32 × UInt32) × UInt32) := d.processor.map fun p => (p.layout, p.rate, p.mixId)

private theorem shown_decodeOne (eos : Bool) (d : Decoder B) : shown (Decoder.decodeOne eos d).2 = shown d := by
  unfold Decoder.decodeOne
  split
  · rfl
  · next p hp =>
    unfold shown
    rw [hp]
    split
    · simp [hp]
    · rfl
    · rfl
    · split
      · rfl
      · split
        · rfl
        · rfl

private theorem shown_getOutput (size : Nat) (d : Decoder B) : shown (d.getOutput size).2 = shown d := by
  unfold Decoder.getOutput
  split
  · rfl
  · cases writeFrameToSpan d.pending d.settings.sampleType size with
    | error e =>
      simp only
      have h2 := shown_decodeOne (d.fromDescriptors || d.ended) d
      generalize Decoder.decodeOne (d.fromDescriptors || d.ended) d = r at h2 ⊢
      rcases r with ⟨_ | _, _⟩ <;> exact h2
    | ok o =>
      simp only
      have h2 := shown_decodeOne (d.fromDescriptors || d.ended) { d with pending := [] }
      generalize Decoder.decodeOne (d.fromDescriptors || d.ended) { d with pending := [] } = r at h2 ⊢
      rcases r with ⟨_ | _, _⟩ <;> exact h2

private theorem shown_signalEnd (d : Decoder B) : shown d.signalEnd.2 = shown d := by
  unfold Decoder.signalEnd
  simp only
  split
  · rw [shown_decodeOne]; rfl
  · rfl

private theorem shown_decode (bytes : List UInt8) (d : Decoder B) (hp : d.processor ≠ none) : shown (d.decode bytes).2 = shown d := by
  unfold Decoder.decode
  split
  · rfl
  · split
    · rfl
    · split
      · next h => exact absurd h hp
      · next p h =>
        simp only
        split
        · rw [shown_decodeOne]; simp [shown, h]
        · simp [shown, h]

/-- The output file of a decoder. -/
private def FileFor (H : WavHeaders) (s : DecoderSettings) (d : Decoder B) (bytes : List UInt8) (w : Option (WavWriter × Nat)) : Prop :=
  match w with
  | none => d.processor = none ∧ bytes = [] ∧ d.pending = []
  | some w => ∃ (frameSize : UInt32) (channels : Int) (rate : UInt32) (h0 : List UInt8),
      d.getFrameSize = .ok frameSize ∧ d.getNumberOfOutputChannels = .ok channels ∧ d.getSampleRate = .ok rate ∧
      (s.sampleType = 1 ∨ s.sampleType = 2) ∧ H (UInt8.ofNat (16 * s.sampleType)) 0 rate channels.toNat = some h0 ∧
      w.1 = writer channels.toNat rate s.sampleType frameSize h0 bytes

private theorem getters {d d' : Decoder B} (h : shown d' = shown d) : d'.getFrameSize = d.getFrameSize ∧
    d'.getNumberOfOutputChannels = d.getNumberOfOutputChannels ∧ d'.getSampleRate = d.getSampleRate ∧
    (d'.processor = none ↔ d.processor = none) := by
  unfold shown at h
  unfold Decoder.getFrameSize Decoder.getNumberOfOutputChannels Decoder.getSampleRate
  cases h1 : d.processor with
  | none =>
    rw [h1, Option.map_none, Option.map_eq_none_iff] at h
    rw [h]
    exact ⟨rfl, rfl, rfl, Iff.rfl⟩
  | some p => cases h2 : d'.processor with
    | none => rw [h1, h2] at h; cases h
    | some p' =>
      rw [h1, h2] at h
      simp only [Option.map_some, Option.some.injEq, Prod.mk.injEq] at h
      simp only [h.1, h.2.1, true_and, reduceCtorEq]

private theorem FileFor.mono {d d' : Decoder B} {bytes : List UInt8} {w : WavWriter × Nat} (h : FileFor H s d bytes (some w))
    (hs : shown d' = shown d) : FileFor H s d' bytes (some w) := by
  obtain ⟨g1, g2, g3, g4⟩ := getters hs
  unfold FileFor at h ⊢
  simp only [g1, g2, g3]; exact h

private theorem written_ok {t channels : Nat} (ht : t = 1 ∨ t = 2) {rate frameSize : UInt32} {h0 bytes more : List UInt8} {w : WavWriter}
    (h : (writer channels rate t frameSize h0 bytes).write more = (.ok (), w)) : w = writer channels rate t frameSize h0 (bytes ++ more) := by
  obtain ⟨-, b2, -⟩ := bytes_of ht
  unfold WavWriter.write writer at h
  simp only [Bool.not_true, Bool.false_eq_true, ↓reduceIte, b2] at h
  have e1 : 16 * t * channels / 8 = channels * (2 * t) := by
    rw [show 16 * t * channels = 8 * (channels * (2 * t)) by rw [show 16 * t = 8 * (2 * t) by omega, Nat.mul_assoc, Nat.mul_comm (2 * t)]]
    exact Nat.mul_div_cancel_left _ (by decide)
  have e2 : 16 * t / 8 = 2 * t := by omega
  have tp : 0 < 2 * t := by omega
  rw [e1, e2] at h
  split at h
  · next h0l =>
    have : more = [] := by simpa using h0l
    subst this
    cases h
    rw [List.append_nil]; rfl
  · split at h
    · cases h
    · split at h
      · cases h
      · next hmod =>
        split at h
        · cases h
        · cases h
          obtain ⟨q, hq⟩ := Nat.dvd_of_mod_eq_zero (Decidable.not_not.mp hmod)
          have e4 : more.length = (channels * q) * (2 * t) := by rw [hq, Nat.mul_right_comm]
          unfold writer
          rw [List.length_append, e4, Nat.add_mul_div_right _ _ tp, Nat.mul_div_cancel _ tp]
          simp

private theorem dumped_any (size fuel : Nat) : ∀ {cs : List DecoderCall} {d d' : Decoder B} {bytes : List UInt8} {w w' : WavWriter},
    dumpUnits size fuel d w = .ok (d', w') → Sofar s pv cs d bytes → FileFor H s d bytes (some (w, size)) →
    ∃ n bytes', Sofar s pv (cs ++ List.replicate n (.getOutput size)) d' bytes' ∧ FileFor H s d' bytes' (some (w', size)) ∧
      d'.isUnitAvailable = false := by
  induction fuel with
  | zero => intro cs d d' bytes w w' h; cases h
  | succ fuel ih =>
    intro cs d d' bytes w w' h hs hf
    unfold dumpUnits at h
    split at h
    · split at h
      · cases h
      · next o d1 hg =>
        split at h
        · cases h
        · next w1 hw =>
          obtain ⟨frameSize, channels, rate, h0, f1, f2, f3, f4, f5, f6⟩ := hf
          simp only at f6
          subst f6
          have hw1 := written_ok f4 hw
          have hsh := shown_getOutput size d
          rw [hg] at hsh
          have hf1 : FileFor H s d (bytes ++ o) (some (w1, size)) := ⟨frameSize, channels, rate, h0, f1, f2, f3, f4, f5, hw1⟩
          obtain ⟨n, bytes', i1, i2, i3⟩ := ih h (hs.step (c := .getOutput size) hg) (hf1.mono hsh)
          exact ⟨n + 1, bytes', by rw [List.replicate_succ, List.append_cons]; exact i1, i2, i3⟩
    · next hu =>
      cases h
      exact ⟨0, bytes, by simpa using hs, hf, by simpa using hu⟩

private theorem fed_any {cs : List DecoderCall} {d d' : Decoder B} {bytes block : List UInt8} {eof : Bool} (h : feedBlock block eof d = .ok d')
    (hs : Sofar s pv cs d bytes) : Sofar s pv (cs ++ .decode block :: if eof then [.signalEnd] else []) d' bytes := by
  unfold feedBlock at h
  split at h
  · cases h
  · next d1 h1 =>
    have s1 := hs.step (c := .decode block) (o := []) (d' := d1) (by simp only [Decoder.call, h1])
    rw [List.append_nil] at s1
    cases eof with
    | false => cases h; exact s1
    | true =>
      simp only [↓reduceIte] at h ⊢
      split at h
      · cases h
      · next d2 h2 =>
        cases h
        have s2 := s1.step (c := .signalEnd) (o := []) (d' := d') (by simp only [Decoder.call, h2])
        rw [List.append_nil, List.append_assoc] at s2
        exact s2

private theorem fed_shown {d d' : Decoder B} {block : List UInt8} {eof : Bool} (h : feedBlock block eof d = .ok d') (hp : d.processor ≠ none) :
    shown d' = shown d := by
  unfold feedBlock at h
  split at h
  · cases h
  · next d1 h1 =>
    have s1 := shown_decode block d hp
    rw [h1] at s1
    simp only at s1
    split at h
    · split at h
      · cases h
      · next d2 h2 =>
        cases h
        have s2 := shown_signalEnd d1
        rw [h2] at s2
        exact s2.trans s1
    · cases h; exact s1

private theorem fed_pending {d d' : Decoder B} {block : List UInt8} {eof : Bool} (h : feedBlock block eof d = .ok d') (hp : d.processor = none)
    (he : d.pending = []) (hp' : d'.processor = none) : d'.pending = [] := by
  unfold feedBlock at h
  split at h
  · cases h
  · next d1 h1 =>
    have s1 := decode_pending block d hp
    rw [h1] at s1
    simp only at s1
    split at h
    · split at h
      · cases h
      · next d2 h2 =>
        cases h
        have s2 := shown_signalEnd d1
        rw [h2] at s2
        have hp1 : d1.processor = none := (getters s2).2.2.2.mp hp'
        unfold Decoder.signalEnd at h2
        simp only [hp1, Option.isSome_none, Bool.and_false, Bool.false_eq_true, ↓reduceIte] at h2
        cases h2
        exact s1.trans he
    · cases h; exact s1.trans he

private theorem output_any {d : Decoder B} {bytes : List UInt8} {w w' : Option (WavWriter × Nat)} (h : outputOf H d w = .ok w')
    (hset : d.settings = s) (hf : FileFor H s d bytes w ∨ (w = none ∧ bytes = [] ∧ (d.processor = none → d.pending = []))) :
    FileFor H s d bytes w' := by
  cases w with
  | some w =>
    cases h
    rcases hf with hf | ⟨hf, -⟩
    · exact hf
    · cases hf
  | none =>
    have hb : bytes = [] ∧ (d.processor = none → d.pending = []) := by
      rcases hf with hf | hf
      · exact ⟨hf.2.1, fun _ => hf.2.2⟩
      · exact hf.2
    obtain ⟨rfl, hb⟩ := hb
    unfold outputOf at h
    simp only at h
    split at h
    · split at h
      · cases h
      · next w1 hw =>
        split at h
        · cases h
        · cases h
          unfold setUpOutput at hw
          cases hfs : d.getFrameSize with
          | error e => rw [hfs] at hw; cases hw
          | ok frameSize =>
            rw [hfs] at hw
            simp only [Bind.bind, Except.bind] at hw
            split at hw
            · cases hw
            · next hbp =>
              cases hch : d.getNumberOfOutputChannels with
              | error e => rw [hch] at hw; cases hw
              | ok channels => cases hra : d.getSampleRate with
                | error e => rw [hch, hra] at hw; cases hw
                | ok rate =>
                  rw [hch, hra] at hw
                  simp only at hw
                  rw [hset] at hbp hw
                  have ht : s.sampleType = 1 ∨ s.sampleType = 2 := by
                    unfold bytesPerSample at hbp
                    split at hbp
                    · exact .inl ‹_›
                    · split at hbp
                      · exact .inr ‹_›
                      · exact absurd rfl hbp
                  obtain ⟨b1, b2, b3⟩ := bytes_of ht
                  rw [b1, show 2 * s.sampleType * 8 = 16 * s.sampleType by omega] at hw
                  unfold WavWriter.create at hw
                  rw [if_pos b3] at hw
                  simp only [↓reduceIte] at hw
                  cases hh : H (UInt8.ofNat (16 * s.sampleType)) 0 rate channels.toNat with
                  | none => rw [hh] at hw; cases hw
                  | some h0 =>
                    rw [hh] at hw
                    cases hw
                    exact ⟨frameSize, channels, rate, h0, hfs, hch, hra, ht, hh, by simp [writer]⟩
    · next hc =>
      cases h
      have hn : d.processor = none := by simpa [Decoder.isDescriptorProcessingComplete] using hc
      exact ⟨hn, rfl, hb hn⟩

private theorem sofar_settings {cs : List DecoderCall} {d : Decoder B} {bytes : List UInt8} (h : Sofar s pv cs d bytes) : d.settings = s := by
  rw [← h.decoder]
  unfold decoding
  have : ∀ (cs : List DecoderCall) (d : Decoder B), (d.calls cs).2.settings = d.settings := by
    intro cs
    induction cs with
    | nil => intro d; rfl
    | cons c cs ih => intro d; simp only [Decoder.calls, ih, Decoder.call_settings]
  rw [this]; rfl

private theorem fed_get (n size : Nat) : fedBytes (List.replicate n (.getOutput size)) = [] := by
  rw [fedBytes_eq]
  induction n with
  | zero => rfl
  | succ n ih => rw [List.replicate_succ, List.flatMap_cons, ih]; rfl

private theorem fed_append (a b : List DecoderCall) : fedBytes (a ++ b) = fedBytes a ++ fedBytes b := by
  simp only [fedBytes_eq, List.flatMap_append]

private theorem loop_any {units block : Nat} (fuel : Nat) : ∀ {cs : List DecoderCall} {rest bytes : List UInt8} {d d' : Decoder B}
    {w w' : Option (WavWriter × Nat)}, playLoop H units block fuel rest d w = .ok (d', w') → Sofar s pv cs d bytes → .signalEnd ∉ cs →
    FileFor H s d bytes w →
    ∃ mid n size bytes', .signalEnd ∉ cs ++ mid ∧ fedBytes mid = rest ∧
      Sofar s pv (cs ++ mid ++ .signalEnd :: List.replicate n (.getOutput size)) d' bytes' ∧ FileFor H s d' bytes' w' ∧
      d'.isUnitAvailable = false := by
  induction fuel with
  | zero => intro cs rest bytes d d' w w' h; cases h
  | succ fuel ih =>
    intro cs rest bytes d d' w w' h hs hno hf
    unfold playLoop at h
    split at h
    · cases h
    · next d1 hfeed =>
      have s1 := fed_any hfeed hs
      split at h
      · cases h
      · next w1 hout =>
        have hf1 : FileFor H s d1 bytes w ∨ (w = none ∧ bytes = [] ∧ (d1.processor = none → d1.pending = [])) := by
          cases w with
          | none => exact .inr ⟨rfl, hf.2.1, fed_pending hfeed hf.1 hf.2.2⟩
          | some w =>
            refine .inl (hf.mono (fed_shown hfeed ?_))
            intro hp
            obtain ⟨_, _, _, _, f1, -⟩ := hf
            unfold Decoder.getFrameSize at f1
            rw [hp] at f1
            cases f1
        have hf2 := output_any hout (sofar_settings s1) hf1
        split at h
        · cases h
        · next d2 w2 hdump =>
          have key : ∃ n size bytes', Sofar s pv ((cs ++ .decode (rest.take block) :: if decide (rest.length < block) then [.signalEnd] else []) ++
              List.replicate n (.getOutput size)) d2 bytes' ∧ FileFor H s d2 bytes' w2 ∧ (d2.isUnitAvailable = false) := by
            cases w1 with
            | none =>
              simp only [dumpAvailable] at hdump
              cases hdump
              exact ⟨0, 0, bytes, by simpa using s1, hf2, by simp [Decoder.isUnitAvailable, hf2.2.2]⟩
            | some w1 =>
              simp only [dumpAvailable] at hdump
              split at hdump
              · cases hdump
              · next d3 w3 hu =>
                cases hdump
                obtain ⟨n, bytes', i1, i2, i3⟩ := dumped_any (H := H) w1.2 units hu s1 hf2
                exact ⟨n, w1.2, bytes', i1, i2, i3⟩
          obtain ⟨n, size, bytes', k1, k2, k3⟩ := key
          by_cases he : rest.length < block
          · rw [if_pos he] at h
            cases h
            rw [if_pos (by simpa using he)] at k1
            refine ⟨[.decode (rest.take block)], n, size, bytes', by simp [hno], ?_, by simpa using k1, k2, k3⟩
            rw [fedBytes_eq]
            simp only [List.flatMap_cons, List.flatMap_nil, List.append_nil, DecoderCall.fed]
            exact List.take_of_length_le (by omega)
          · rw [if_neg he] at h
            rw [if_neg (by simpa using he)] at k1
            obtain ⟨mid, m, size', bytes'', j1, j2, j3, j4, j5⟩ := ih h k1 (by simp [hno]) k2
            refine ⟨.decode (rest.take block) :: List.replicate n (.getOutput size) ++ mid, m, size', bytes'', ?_, ?_, ?_, j4, j5⟩
            · simpa using j1
            · rw [fed_append, j2, show (DecoderCall.decode (rest.take block) :: List.replicate n (DecoderCall.getOutput size)) =
                [.decode (rest.take block)] ++ List.replicate n (.getOutput size) from rfl, fed_append, fed_get, fedBytes_eq]
              simp [DecoderCall.fed]
            · simpa using j3

end

/-- **C57 (the decoder program, any file).** Whatever is in the input file: if the program ends without an error then the output is that of a history of
calls of a decoder, which were all given an OK, in which the whole file was pushed before the end was signalled, and after which there is no temporal unit
that is available.  If the descriptors have been found, the output file has a header with the number of channels and the sample rate that the
decoder says, and then just what the decoder gave out, in order; the header says how many samples there are.  If there are no descriptors then no output
file is made. -/
theorem C57_the_decoder_program_adds_nothing (B : Backend) (H : WavHeaders) (hH : HonestHeaders H) (s : DecoderSettings) (pv : Bool)
    (dumps fuel block : Nat) (file : List UInt8) (output : Option (List UInt8)) (h : playFile B H s pv dumps fuel block file = .ok output) :
    ∃ (pushes : List DecoderCall) (n size : Nat) (cs : List DecoderCall), cs = pushes ++ .signalEnd :: List.replicate n (.getOutput size) ∧
      .signalEnd ∉ pushes ∧ fedBytes pushes = file ∧ AllOk (decoding B s pv cs).1 ∧ (decoding B s pv cs).2.isUnitAvailable = false ∧
      ((output = none ∧ given (decoding B s pv cs).1 = [] ∧ (decoding B s pv cs).2.isDescriptorProcessingComplete = false) ∨
        ∃ channels rate samples, (s.sampleType = 1 ∨ s.sampleType = 2) ∧
          (decoding B s pv cs).2.getNumberOfOutputChannels = .ok channels ∧ (decoding B s pv cs).2.getSampleRate = .ok rate ∧
          samples = (given (decoding B s pv cs).1).flatten.length / (2 * s.sampleType) ∧
          output = some (headerOf H true (UInt8.ofNat (16 * s.sampleType)) rate channels.toNat samples ++
            (given (decoding B s pv cs).1).flatten)) := by
  unfold playFile at h
  have h0 : Sofar (B := B) s pv [] (Decoder.create s pv) [] := ⟨rfl, (fun r hr => by cases hr), rfl⟩
  split at h
  · cases h
  · next d' hl =>
    cases h
    obtain ⟨mid, n, size, bytes, g1, g2, g3, g4, g5⟩ := loop_any fuel hl h0 (by simp) ⟨rfl, rfl, rfl⟩
    rw [List.nil_append] at g1 g3
    refine ⟨mid, n, size, _, rfl, g1, g2, g3.ok, by rw [g3.decoder]; exact g5, .inl ⟨rfl, ?_, ?_⟩⟩
    · have hb := g3.bytes
      rw [g4.2.1, List.flatten_eq_nil_iff] at hb
      rw [List.eq_nil_iff_forall_not_mem]
      intro b hm
      have := hb b hm
      subst this
      unfold given at hm
      obtain ⟨r, -, hr⟩ := List.mem_filterMap.mp hm
      split at hr <;> simp at hr
    · rw [g3.decoder]
      simp [Decoder.isDescriptorProcessingComplete, g4.1]
  · next d' w hl =>
    cases h
    obtain ⟨mid, n, size, bytes, g1, g2, g3, g4, g5⟩ := loop_any fuel hl h0 (by simp) ⟨rfl, rfl, rfl⟩
    rw [List.nil_append] at g1 g3
    obtain ⟨frameSize, channels, rate, hd, f1, f2, f3, f4, f5, f6⟩ := g4
    refine ⟨mid, n, size, _, rfl, g1, g2, g3.ok, by rw [g3.decoder]; exact g5, .inr ⟨channels, rate, _, f4, by rw [g3.decoder]; exact f2,
      by rw [g3.decoder]; exact f3, rfl, ?_⟩⟩
    rw [f6, writer_final hH f5, g3.bytes]

end Iamf.Props
