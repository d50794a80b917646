import Verif.Props.SetUp
/-
  C53, for decoders: which bytes make a decoder ready to play, and what it says that it plays.
-/
namespace Iamf.Props
open Iamf

/-! ### Specification -/

/-- The descriptors at the start of the bytes: all of them (`alone`), or those before the first temporal unit. -/
def ParsedFrom (alone : Bool) (bytes : List UInt8) (x : Descriptors) : Prop :=
  ((parseDescriptors alone).run (RBuf.create 1024 bytes true)).1 = .ok (some x)

/-- The layout for the chosen sub-mix: the one asked for, or its first one. -/
def LayoutFor (s : DecoderSettings) (sub : SubMix) (l : Layout) : Prop :=
  s.layout = some l ∨ s.layout = none ∧ ∃ y, sub.layouts.head? = some y ∧ y.layout = l

/-- What the decoder tells the user: the mix presentation and the layout it plays, its channels, and the sample rate and frame size if
there is just one codec configuration. -/
structure Announces {B : Backend} (s : DecoderSettings) (x : Descriptors) (d : Decoder B) : Prop where
  complete : d.isDescriptorProcessingComplete = true
  mix : ∃ m sub l, Chosen s x m sub ∧ LayoutFor s sub l ∧
    d.getOutputMix = l.toOutput.map (fun o => (m.id, o)) ∧ d.getNumberOfOutputChannels = numChannelsFromLayout l
  one : ∀ c, x.codecs = [c] → d.getSampleRate = .ok c.2.outputRate ∧ d.getFrameSize = .ok c.2.config.numSamplesPerFrame
  several : x.codecs.length ≠ 1 → d.getSampleRate = .error .invalidArgument ∧ d.getFrameSize = .error .invalidArgument

/-- A user of the API asks for the profiles 0 to 5 and a layout of the API. -/
structure AskedFor (s : DecoderSettings) : Prop where
  profiles : ∀ p ∈ s.profiles, p ≤ 5
  layout : ∃ o : Option OutputLayout, s.layout = o.map OutputLayout.toLayout

/-! ### Proof -/

private theorem asked_layout {s : DecoderSettings} (h : AskedFor s) : ∀ l, s.layout = some l → HasSoundSystem l := by
  intro l hl
  obtain ⟨o, ho⟩ := h.layout
  rw [ho] at hl
  cases o with
  | none => cases hl
  | some o =>
    cases hl
    cases o with
    | soundSystem s => exact fun _ => ⟨_, _, rfl⟩
    | binaural => intro h2; exact absurd h2 (by decide)

section
variable {B : Backend}

private theorem setUp_iff {d : Decoder B} {P : List UInt8} (hf : d.buffer.Fit) (hsrc : d.buffer.src = P) (hpos : d.buffer.abs.pos = 0) :
    ((∃ d', d.setUp = (.ok true, d')) ↔ ∃ x p, ((parseDescriptors d.fromDescriptors).runA ⟨bytesBits P, 0, true⟩).1 = .ok (some x) ∧
      initAll (B := B) d.settings x = .ok p) ∧
    (∀ d', d.setUp = (.ok true, d') → ∃ x p, ((parseDescriptors d.fromDescriptors).runA ⟨bytesBits P, 0, true⟩).1 = .ok (some x) ∧
      initAll d.settings x = .ok p ∧ d'.processor = some p) ∧
    (d.setUp.1 ≠ .ok true → d.setUp.2.processor = d.processor) ∧ (d.fromDescriptors = true → d.setUp.1 ≠ .ok false) := by
  have hP : P.length ≤ 4194304 := by rw [← hsrc]; exact hf.small
  have habs : d.buffer.abs = ⟨bytesBits P, 0, d.buffer.abs.valid⟩ := by
    have h2 : d.buffer.abs.src = bytesBits P := by simp only [RBuf.abs, hsrc]
    rw [← h2, ← hpos]
  have hres : ∀ d', d.setUp = (.ok true, d') → ∃ x p, ((parseDescriptors d.fromDescriptors).runA ⟨bytesBits P, 0, true⟩).1 = .ok (some x) ∧
      initAll d.settings x = .ok p ∧ d'.processor = some p := by
    intro d' h
    obtain ⟨q1, -, q3, -⟩ := (createProcessor (B := B) d.settings d.fromDescriptors).run_refines d.buffer hf.wf
    unfold Decoder.setUp at h
    match hr : (createProcessor (B := B) d.settings d.fromDescriptors).run d.buffer with
    | (.error e, b1) => rw [hr] at h; simp at h
    | (.ok none, b1) => rw [hr] at h; simp at h
    | (.ok (some (p, bytes)), b1) =>
      rw [hr, habs] at q1 q3
      obtain ⟨x, k, c1, c2, c3, c4, c5, rfl⟩ := createProcessor_runA (B := B) hP (Prod.ext q1.symm q3.symm)
      rw [hr] at h
      simp only at h
      match hfl : b1.flush with
      | (.error e, b2) => rw [hfl] at h; simp at h
      | (.ok (), b2) =>
        rw [hfl] at h
        simp only [Prod.mk.injEq, Except.ok.injEq] at h
        obtain ⟨-, rfl⟩ := h
        exact ⟨x, p, c1, c2, rfl⟩
  refine ⟨⟨fun ⟨d', h⟩ => ?_, fun ⟨x, p, h1, h2⟩ => ?_⟩, hres, fun h => ?_, fun hm h => ?_⟩
  · obtain ⟨x, p, h1, h2, -⟩ := hres d' h
    exact ⟨x, p, h1, h2⟩
  · have he := parse_ends d.fromDescriptors (bytesBits P) 0 true (Nat.zero_le _) (by rw [bytesBits_length]; omega)
    obtain ⟨-, -, -, -, -, h8, -⟩ := he.done x h1
    obtain ⟨b, hb, -⟩ := setUp_ok (k := ((parseDescriptors d.fromDescriptors).runA ⟨bytesBits P, 0, true⟩).2.pos / 8) hf hsrc hpos h1
      (by omega) h2
    exact ⟨_, hb⟩
  · unfold Decoder.setUp at h ⊢
    match hr : (createProcessor (B := B) d.settings d.fromDescriptors).run d.buffer with
    | (.error e, b1) => rfl
    | (.ok none, b1) => rfl
    | (.ok (some (p, bytes)), b1) =>
      rw [hr] at h
      simp only at h ⊢
      match hfl : b1.flush with
      | (.error e, b2) => rfl
      | (.ok (), b2) => rw [hfl] at h; exact absurd rfl h
  · obtain ⟨q1, -, q3, -⟩ := (createProcessor (B := B) d.settings d.fromDescriptors).run_refines d.buffer hf.wf
    unfold Decoder.setUp at h
    match hr : (createProcessor (B := B) d.settings d.fromDescriptors).run d.buffer with
    | (.error e, b1) => rw [hr] at h; simp at h
    | (.ok none, b1) =>
      rw [hr, habs] at q1 q3
      have := createProcessor_runA (B := B) hP (Prod.ext q1.symm q3.symm)
      simp only at this
      rw [hm] at this
      exact absurd this.1 (by decide)
    | (.ok (some (p, bytes)), b1) =>
      rw [hr] at h
      simp only at h
      match hfl : b1.flush with
      | (.error e, b2) => rw [hfl] at h; simp at h
      | (.ok (), b2) => rw [hfl] at h; simp at h

private theorem parsed_iff (alone : Bool) (bytes : List UInt8) (x : Descriptors) :
    ParsedFrom alone bytes x ↔ ((parseDescriptors alone).runA ⟨bytesBits bytes, 0, true⟩).1 = .ok (some x) := by
  obtain ⟨q1, -⟩ := (parseDescriptors alone).run_refines (RBuf.create 1024 bytes true) (RBuf.wf_create _ _ _ (.inl (by decide)))
  rw [RBuf.abs_create] at q1
  unfold ParsedFrom
  rw [q1]

private theorem parsed_good {alone : Bool} {bytes : List UInt8} {x : Descriptors} (hlen : bytes.length ≤ 4194304)
    (h : ((parseDescriptors alone).runA ⟨bytesBits bytes, 0, true⟩).1 = .ok (some x)) : ReadDescriptors x ∧ ConsistentDescriptors x := by
  have he := parse_ends alone (bytesBits bytes) 0 true (Nat.zero_le _) (by rw [bytesBits_length]; omega)
  exact ⟨parsed_descriptors h, (he.done x h).1 ⟨by simp [Descriptors.empty], by simp [Descriptors.empty], by simp [Descriptors.empty],
    by simp [Descriptors.empty], by simp [Descriptors.empty]⟩⟩

private theorem pushed_bytes (pv : Bool) (D : List UInt8) :
    (D.length ≤ 4194304 → ∃ b, (RBuf.create Decoder.kInitialBufferSize [] pv).pushBytes D = (.ok (), b)) ∧
    match (RBuf.create Decoder.kInitialBufferSize [] pv).pushBytes D with
    | (.ok (), b) => b.Fit ∧ b.src = D ∧ b.abs.pos = 0 ∧ D.length ≤ 4194304
    | (.error _, _) => True := by
  have hf0 := RBuf.Fit.create pv
  refine ⟨fun hl => ?_, ?_⟩
  · obtain ⟨b, hb, -⟩ := push_refines D (RBuf.create Decoder.kInitialBufferSize [] pv) hf0.wf hf0.cap
      (by simp only [kEntireObuSizeMaxTwoMegabytes, RBuf.create, List.length_nil]; omega)
    exact ⟨b, hb⟩
  · match hb : (RBuf.create Decoder.kInitialBufferSize [] pv).pushBytes D with
    | (.error e, b) => trivial
    | (.ok (), b) =>
      obtain ⟨f1, f2, f3⟩ := hf0.push hb
      have hsrc : b.src = D := by rw [f2]; rfl
      exact ⟨f1, hsrc, by rw [f3]; rfl, by rw [← hsrc]; exact f1.small⟩

/-- What the user sees of a processor is not changed by later calls. -/
private def SameChoice (p q : Processor B) : Prop := q.mixId = p.mixId ∧ q.layout = p.layout ∧ q.rate = p.rate

private theorem decodeOne_choice {d : Decoder B} {p : Processor B} (h : d.processor = some p) (eos : Bool) :
    ∃ q, (Decoder.decodeOne eos d).2.processor = some q ∧ SameChoice p q := by
  have hp : SameChoice p p := ⟨rfl, rfl, rfl⟩
  unfold Decoder.decodeOne
  rw [h]
  simp only
  match hr : (processUnit p.context eos p.state).run d.buffer with
  | (.error e, b) => exact ⟨p, rfl, hp⟩
  | (.ok (.error e, st), b) => exact ⟨_, rfl, rfl, rfl, rfl⟩
  | (.ok (.ok (none, c), st), b) =>
    simp only
    match hb : b.flush with
    | (r, b') => exact ⟨_, rfl, rfl, rfl, rfl⟩
  | (.ok (.ok (some u, c), st), b) =>
    simp only
    match hu : Decoder.render p.renderer u with
    | (.error e, rs) => exact ⟨_, rfl, rfl, rfl, rfl⟩
    | (.ok y, rs) =>
      simp only
      match ho : d.reordered y with
      | .error e => exact ⟨_, rfl, rfl, rfl, rfl⟩
      | .ok z =>
        simp only
        match hb : b.flush with
        | (r, b') => exact ⟨_, rfl, rfl, rfl, rfl⟩

private theorem call_choice {d : Decoder B} {p : Processor B} (h : d.processor = some p) (c : DecoderCall) :
    ∃ q, (d.call c).2.processor = some q ∧ SameChoice p q := by
  have hp : SameChoice p p := ⟨rfl, rfl, rfl⟩
  cases c with
  | decode bytes =>
    have : (d.call (.decode bytes)).2 = (d.decode bytes).2 := by
      simp only [Decoder.call]; split <;> simp_all
    rw [this]
    unfold Decoder.decode
    split
    · exact ⟨p, h, hp⟩
    · match hb : d.buffer.pushBytes bytes with
      | (.error e, b) => exact ⟨p, h, hp⟩
      | (.ok (), b) =>
        simp only [h]
        split
        · exact decodeOne_choice (d := ⟨d.settings, d.fromDescriptors, b, some p, d.pending, d.ended, _, d.descriptors⟩) rfl _
        · exact ⟨p, rfl, hp⟩
  | getOutput size =>
    have : (d.call (.getOutput size)).2 = (d.getOutput size).2 := rfl
    rw [this]
    unfold Decoder.getOutput
    split
    · exact ⟨p, h, hp⟩
    · simp only
      cases hw : writeFrameToSpan d.pending d.settings.sampleType size with
      | ok w =>
        simp only
        have := decodeOne_choice (d := { d with pending := [] }) h (d.fromDescriptors || d.ended)
        generalize Decoder.decodeOne (d.fromDescriptors || d.ended) { d with pending := [] } = w at this ⊢
        rcases w with ⟨_ | _, _⟩ <;> exact this
      | error e =>
        simp only
        have := decodeOne_choice (d := d) h (d.fromDescriptors || d.ended)
        generalize Decoder.decodeOne (d.fromDescriptors || d.ended) d = w at this ⊢
        rcases w with ⟨_ | _, _⟩ <;> exact this
  | signalEnd =>
    have : (d.call .signalEnd).2 = d.signalEnd.2 := by
      simp only [Decoder.call]; split <;> simp_all
    rw [this]
    unfold Decoder.signalEnd
    dsimp only
    split
    · exact decodeOne_choice (d := ⟨d.settings, d.fromDescriptors, d.buffer, d.processor, d.pending, true, d.reorderer, d.descriptors⟩) h true
    · exact ⟨p, h, hp⟩

private theorem calls_choice (cs : List DecoderCall) {d : Decoder B} {p : Processor B} (h : d.processor = some p) :
    ∃ q, (d.calls cs).2.processor = some q ∧ SameChoice p q := by
  induction cs generalizing d p with
  | nil => exact ⟨p, h, rfl, rfl, rfl⟩
  | cons c cs ih =>
    obtain ⟨q, h1, h2, h3, h4⟩ := call_choice h c
    obtain ⟨q', k1, k2, k3, k4⟩ := ih h1
    exact ⟨q', k1, by rw [k2, h2], by rw [k3, h3], by rw [k4, h4]⟩

private theorem announced {s : DecoderSettings} {x : Descriptors} {d : Decoder B} {p q : Processor B} (hp : PlaysChosen s x p)
    (hd : d.processor = some q) (hq : SameChoice p q) : Announces s x d := by
  obtain ⟨q1, q2, q3⟩ := hq
  obtain ⟨m, sub, h1, h2, h3⟩ := hp.mix
  refine ⟨by unfold Decoder.isDescriptorProcessingComplete; rw [hd]; rfl, ⟨m, sub, p.layout, h1, ?_, ?_, ?_⟩, fun c hc => ?_, fun hn => ?_⟩
  · cases hl : s.layout with
    | none =>
      obtain ⟨l, k1, k2⟩ := h3 hl
      exact .inr ⟨hl, l, k1, k2.symm⟩
    | some l => exact .inl (by rw [hl, hp.layout l hl])
  · unfold Decoder.getOutputMix
    rw [hd]
    simp only [q2, q1, h2]
    cases p.layout.toOutput <;> rfl
  · unfold Decoder.getNumberOfOutputChannels
    rw [hd]
    simp only [q2]
  · have := (hp.rate c.2.outputRate c.2.config.numSamplesPerFrame).mpr ⟨c, hc, rfl, rfl⟩
    unfold Decoder.getSampleRate Decoder.getFrameSize
    rw [hd]
    simp only [q3, this]
    exact ⟨trivial, trivial⟩
  · have : p.rate = none := by
      cases hr : p.rate with
      | none => rfl
      | some v =>
        obtain ⟨c, hc, -⟩ := (hp.rate v.1 v.2).mp hr
        rw [hc] at hn
        exact absurd rfl hn
    unfold Decoder.getSampleRate Decoder.getFrameSize
    rw [hd]
    simp only [q3, this]
    exact ⟨trivial, trivial⟩

end

variable {M : GainMath Rat} {E : RenderEnv} {C : Codecs} {t : TrimmingSettings}

private theorem created_setUp {B : Backend} (s : DecoderSettings) (pv : Bool) (bytes : List UInt8) :
    (Decoder.createFromDescriptors (B := B) s pv bytes) = match (RBuf.create Decoder.kInitialBufferSize [] pv).pushBytes bytes with
      | (.error e, _) => (.error e, Decoder.create s pv)
      | (.ok (), b) => match Decoder.setUp (B := B) ⟨s, true, b, none, [], false, none, []⟩ with
        | (.error e, d) => (.error e, d)
        | (.ok _, d) => (.ok (), d) := rfl

/-- What creating a decoder from descriptors comes to. -/
private theorem creation_iff (hE : GoodEnv E) {s : DecoderSettings} (hs : AskedFor s) (pv : Bool) (bytes : List UInt8) :
    ((∃ d, Decoder.createFromDescriptors (B := standardBackend M E C t) s pv bytes = (.ok (), d)) ↔
      bytes.length ≤ 4194304 ∧ ∃ x, ParsedFrom true bytes x ∧ CanPlay C s x) ∧
    ∀ d, Decoder.createFromDescriptors (B := standardBackend M E C t) s pv bytes = (.ok (), d) →
      ∃ x p, ParsedFrom true bytes x ∧ PlaysChosen s x p ∧ d.processor = some p := by
  obtain ⟨h1, h2⟩ := pushed_bytes pv bytes
  simp only [created_setUp, parsed_iff]
  match hb : (RBuf.create Decoder.kInitialBufferSize [] pv).pushBytes bytes with
  | (.error e, b) =>
    refine ⟨⟨fun ⟨d, h⟩ => (by simp at h), fun ⟨hl, _⟩ => ?_⟩, fun d h => (by simp at h)⟩
    obtain ⟨b', hb'⟩ := h1 hl
    rw [hb] at hb'
    simp at hb'
  | (.ok (), b) =>
    rw [hb] at h2
    obtain ⟨f1, f2, f3, f4⟩ := h2
    obtain ⟨g1, g2, g3, g4⟩ := setUp_iff (B := standardBackend M E C t) (d := ⟨s, true, b, none, [], false, none, []⟩) f1 f2 f3
    simp only at g1 g2 g4 ⊢
    have hiff : (∃ x p, ((parseDescriptors true).runA ⟨bytesBits bytes, 0, true⟩).1 = .ok (some x) ∧
        initAll (B := standardBackend M E C t) s x = .ok p) ↔
        ∃ x, ((parseDescriptors true).runA ⟨bytesBits bytes, 0, true⟩).1 = .ok (some x) ∧ CanPlay C s x := by
      refine exists_congr fun x => ⟨fun ⟨p, k1, k2⟩ => ?_, fun ⟨k1, k2⟩ => ?_⟩
      · obtain ⟨r1, r2⟩ := parsed_good f4 k1
        exact ⟨k1, (initAll_iff hE t hs.profiles (asked_layout hs) r1 r2).1.mp ⟨p, k2⟩⟩
      · obtain ⟨r1, r2⟩ := parsed_good f4 k1
        obtain ⟨p, hp⟩ := (initAll_iff (M := M) hE t hs.profiles (asked_layout hs) r1 r2).1.mpr k2
        exact ⟨p, k1, hp⟩
    rw [← hiff, ← g1]
    match hsu : Decoder.setUp (B := standardBackend M E C t) ⟨s, true, b, none, [], false, none, []⟩ with
    | (.error e, d) => exact ⟨⟨fun ⟨d', h⟩ => (by simp at h), fun ⟨_, d', h⟩ => (by simp at h)⟩, fun d' h => (by simp at h)⟩
    | (.ok false, d) => exact absurd (congrArg Prod.fst hsu) (g4 trivial)
    | (.ok true, d) =>
      refine ⟨⟨fun _ => ⟨f4, d, rfl⟩, fun _ => ⟨d, rfl⟩⟩, fun d' h => ?_⟩
      simp only [Prod.mk.injEq, true_and] at h
      subst h
      obtain ⟨x, p, k1, k2, k3⟩ := g2 d hsu
      obtain ⟨r1, r2⟩ := parsed_good f4 k1
      exact ⟨x, p, k1, (initAll_iff hE t hs.profiles (asked_layout hs) r1 r2).2 p k2, k3⟩

/-- **C53.** A decoder can be created from the bytes of descriptors just if they are not too many, can be parsed, and what the user
asks for can be played: the descriptors are sound, one of the mix presentations is allowed by a requested profile, and the codecs
take the substreams of the chosen sub-mix. -/
theorem C53_which_descriptors_can_be_played (hE : GoodEnv E) {s : DecoderSettings} (hs : AskedFor s) (pv : Bool) (bytes : List UInt8) :
    (∃ d, Decoder.createFromDescriptors (B := standardBackend M E C t) s pv bytes = (.ok (), d)) ↔
      bytes.length ≤ 4194304 ∧ ∃ x, ParsedFrom true bytes x ∧ CanPlay C s x := (creation_iff hE hs pv bytes).1

/-- **C53.** What such a decoder tells the user, then and after any calls. -/
theorem C53_what_a_created_decoder_plays (hE : GoodEnv E) {s : DecoderSettings} (hs : AskedFor s) (pv : Bool) (bytes : List UInt8)
    (d : Decoder (standardBackend M E C t)) (h : Decoder.createFromDescriptors s pv bytes = (.ok (), d)) (cs : List DecoderCall) :
    ∃ x, ParsedFrom true bytes x ∧ Announces s x (d.calls cs).2 := by
  obtain ⟨x, p, h1, h2, h3⟩ := (creation_iff hE hs pv bytes).2 d h
  obtain ⟨q, h4, h5⟩ := calls_choice cs h3
  exact ⟨x, h1, announced h2 h4 h5⟩

/-- **C53.** A decoder that is given a stream is ready to play just if the descriptors before the first temporal unit have come and can
be played; it then tells what it plays, then and after any calls. -/
theorem C53_which_streams_can_be_played (hE : GoodEnv E) {s : DecoderSettings} (hs : AskedFor s) (pv : Bool) (bytes : List UInt8)
    (hlen : bytes.length ≤ 4194304) :
    (((Decoder.create (B := standardBackend M E C t) s pv).decode bytes).2.isDescriptorProcessingComplete = true ↔
      ∃ x, ParsedFrom false bytes x ∧ CanPlay C s x) ∧
    ∀ cs, ((Decoder.create (B := standardBackend M E C t) s pv).decode bytes).2.isDescriptorProcessingComplete = true →
      ∃ x, ParsedFrom false bytes x ∧ Announces s x ((((Decoder.create (B := standardBackend M E C t) s pv).decode bytes).2.calls cs).2) := by
  obtain ⟨h1, h2⟩ := pushed_bytes pv bytes
  obtain ⟨b, hb⟩ := h1 hlen
  rw [hb] at h2
  obtain ⟨f1, f2, f3, -⟩ := h2
  have hd : ((Decoder.create (B := standardBackend M E C t) s pv).decode bytes).2 =
      (Decoder.setUp (B := standardBackend M E C t) ⟨s, false, b, none, [], false, none, []⟩).2 := by
    unfold Decoder.decode
    simp only [Decoder.create, Bool.false_eq_true, if_false, hb]
    generalize Decoder.setUp (B := standardBackend M E C t) ⟨s, false, b, none, [], false, none, []⟩ = w
    rcases w with ⟨_ | _, _⟩ <;> rfl
  rw [hd]
  simp only [parsed_iff]
  obtain ⟨g1, g2, g3, -⟩ := setUp_iff (B := standardBackend M E C t) (d := ⟨s, false, b, none, [], false, none, []⟩) f1 f2 f3
  simp only at g1 g2 g3
  have hiff : (∃ x p, ((parseDescriptors false).runA ⟨bytesBits bytes, 0, true⟩).1 = .ok (some x) ∧
      initAll (B := standardBackend M E C t) s x = .ok p) ↔
      ∃ x, ((parseDescriptors false).runA ⟨bytesBits bytes, 0, true⟩).1 = .ok (some x) ∧ CanPlay C s x := by
    refine exists_congr fun x => ⟨fun ⟨p, k1, k2⟩ => ?_, fun ⟨k1, k2⟩ => ?_⟩
    · obtain ⟨r1, r2⟩ := parsed_good hlen k1
      exact ⟨k1, (initAll_iff hE t hs.profiles (asked_layout hs) r1 r2).1.mp ⟨p, k2⟩⟩
    · obtain ⟨r1, r2⟩ := parsed_good hlen k1
      obtain ⟨p, hp⟩ := (initAll_iff (M := M) hE t hs.profiles (asked_layout hs) r1 r2).1.mpr k2
      exact ⟨p, k1, hp⟩
  rw [← hiff, ← g1]
  by_cases hok : (Decoder.setUp (B := standardBackend M E C t) ⟨s, false, b, none, [], false, none, []⟩).1 = .ok true
  · have heq : Decoder.setUp (B := standardBackend M E C t) ⟨s, false, b, none, [], false, none, []⟩ =
        (.ok true, (Decoder.setUp (B := standardBackend M E C t) ⟨s, false, b, none, [], false, none, []⟩).2) := Prod.ext hok rfl
    obtain ⟨x, p, k1, k2, k3⟩ := g2 _ heq
    obtain ⟨r1, r2⟩ := parsed_good hlen k1
    have hplays := (initAll_iff hE t hs.profiles (asked_layout hs) r1 r2).2 p k2
    refine ⟨⟨fun _ => ⟨_, heq⟩, fun _ => ?_⟩, fun cs _ => ?_⟩
    · unfold Decoder.isDescriptorProcessingComplete
      rw [k3]; rfl
    · obtain ⟨q, h4, h5⟩ := calls_choice cs k3
      exact ⟨x, k1, announced hplays h4 h5⟩
  · have hnone := g3 hok
    have hfalse : ¬ (Decoder.setUp (B := standardBackend M E C t) ⟨s, false, b, none, [], false, none, []⟩).2.isDescriptorProcessingComplete = true := by
      unfold Decoder.isDescriptorProcessingComplete
      rw [hnone]; exact nofun
    refine ⟨⟨fun h => absurd h hfalse, fun ⟨d', h⟩ => ?_⟩, fun cs h => absurd h hfalse⟩
    rw [h] at hok
    exact absurd rfl hok

end Iamf.Props
