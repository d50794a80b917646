import Verif.Props.Generator
import Verif.Props.Lpcm
/-
  C44 for audio elements that are coded as LPCM: nothing has to be assumed about the encoders.
-/
namespace Iamf.Props
open Iamf

/-- The substream `i` of one of the audio elements is coded as LPCM with `l`, and has `channels` channels and frames of `n` samples. -/
def PcmSubstream (elements : List (UInt32 × ElementWithData)) (i : UInt32) (l : LpcmConfig) (channels : Nat) (n : UInt32) : Prop :=
  ∃ x ∈ elements, ∃ c, x.2.codec = some c ∧ c.config.decoderConfig = .lpcm l ∧ c.config.numSamplesPerFrame = n ∧
    ∃ z ∈ x.2.data.labels, z.1 = i ∧ z.2.length = channels

/-- Every audio element is coded as LPCM with a valid configuration, in substreams of one or two channels. -/
def AllPcm (elements : List (UInt32 × ElementWithData)) : Prop :=
  ∀ x ∈ elements, ∃ c l, x.2.codec = some c ∧ c.config.decoderConfig = .lpcm l ∧ ValidLpcm l ∧ ∀ z ∈ x.2.data.labels, z.2.length = 1 ∨ z.2.length = 2

/-- The bytes decode to the samples, up to the bits that are not kept. -/
def DecodesTo (l : LpcmConfig) (channels : Nat) (n : UInt32) (bytes : List UInt8) (samples : List (List Int32)) : Prop :=
  ∃ d, LpcmDecoder.create l channels n = .ok d ∧ d.decode bytes = .ok (samples.map fun s => s.map (kept l.sampleSize))

/-- LPCM encoders hold nothing back, and their bytes decode to the samples. -/
def lpcmSpec (elements : List (UInt32 × ElementWithData)) : EncoderSpec lpcmEncoders where
  holding i st w := w = [] ∧ PcmSubstream elements i st.1 st.2.1 st.2.2 ∧ ValidLpcm st.1 ∧ (st.2.1 = 1 ∨ st.2.1 = 2)
  coded samples f bytes := ∃ l channels n, PcmSubstream elements f.substream l channels n ∧ DecodesTo l channels n bytes samples

private theorem decoder_made {l : LpcmConfig} (h : ValidLpcm l) (channels : Nat) (n : UInt32) :
    LpcmDecoder.create l channels n = .ok ⟨channels, n, l.littleEndian, l.sampleSize.toNat / 8⟩ := by
  obtain ⟨d, hd⟩ := (C37_decoder_for_valid_configurations l channels n).mpr h
  rw [hd, (created hd).2]

theorem lpcm_faithful (elements : List (UInt32 × ElementWithData)) : Faithful lpcmEncoders (lpcmSpec elements) where
  encode := by
    rintro s ⟨⟨l, ch, n⟩, delay, done, fin⟩ w x f ⟨hw, hp, hv, hch⟩ hf hs heq
    simp only at hf
    subst hf hw
    simp only at hp hv hch
    simp only [lpcmEncoders, LpcmEncoder.encode, LpcmEncoder.isFinished, LpcmEncoder.validateInput, Bool.false_and, Bool.false_eq_true, if_false]
    by_cases hl : x.length = ch
    · cases x with
      | nil => simp only [List.length_nil] at hl; omega
      | cons a x =>
        by_cases ha : a.length = n.toNat
        · obtain ⟨frame, h1, -, h2⟩ := lpcm_frame hv hch (a :: x) hl ha (fun s hs => by rw [heq s hs a (by simp), ha])
          simp only [hl, ha, ne_eq, not_true_eq_false, if_false, h1, Bind.bind, Except.bind]
          refine ⟨rfl, [(a :: x, f)], [(f, frame)], [], rfl, ⟨rfl, hp, hv, hch⟩, rfl, .cons ⟨rfl, l, ch, n, hs ▸ hp, _, decoder_made hv ch n, ?_⟩ .nil⟩
          rw [h2]
          refine congrArg Except.ok (List.map_congr_left fun s hs => ?_)
          rw [List.take_of_length_le (by rw [heq s hs a (by simp), ha])]
        · simp only [hl, ha, ne_eq, not_true_eq_false, not_false_eq_true, if_false, if_true, Bind.bind, Except.bind]
          exact rfl
    · simp only [hl, ne_eq, not_false_eq_true, if_true, Bind.bind, Except.bind]
      exact rfl
  finalize := by
    rintro s e w ⟨hw, -⟩ hf
    subst hw
    exact ⟨rfl, [], (List.append_nil _).symm, .nil⟩

theorem lpcm_new {elements : List (UInt32 × ElementWithData)} (h : AllPcm elements) :
    NewEncoders (lpcmSpec elements) newLpcmEncoder (fun _ => 0) elements where
  fresh := by
    intro x hx c hc z hz
    obtain ⟨c', l, h1, h2, h3, h4⟩ := h x hx
    rw [hc, Option.some.injEq] at h1
    subst h1
    unfold newLpcmEncoder
    rw [h2]
    simp only
    cases he : (LpcmEncoder.create l z.2.length c.config.numSamplesPerFrame : Except Err (LpcmEncoder GenFrame)) with
    | error e =>
      unfold LpcmEncoder.create at he
      split at he
      · cases he; exact rfl
      · split at he
        · cases he; exact rfl
        · cases he
    | ok e => exact ⟨⟨rfl, ⟨x, hx, c, hc, h2, rfl, z, hz, rfl, rfl⟩, h3, h4 z hz⟩, rfl, rfl, rfl⟩

/-! ### What the bytes decode to -/

private theorem padded_map {S T : Type} (g : S → T) (n : Nat) (zero : S) (q : List S) : padded n (g zero) (q.map g) = (padded n zero q).map g := by
  unfold padded
  rw [List.map_append, List.map_replicate, List.length_map]

private theorem cutFrames_map {S T : Type} (g : S → T) (n : Nat) (zero : S) (bs : List (List S)) (q : List S) :
    cutFrames n (g zero) (q.map g) (bs.map fun b => b.map g) = (cutFrames n zero q bs).map fun f => f.map g := by
  induction bs generalizing q with
  | nil => rfl
  | cons b bs ih =>
    simp only [cutFrames, List.map_cons]
    rw [← List.map_append, padded_map, ← List.map_drop, ih, List.map_take]

private theorem int32_zero : normalizedToInt32 0 = 0 := by decide +kernel

private theorem zip_map_map {α β γ : Type} (ls : List α) (f : α → β) (g : α × β → γ) : (ls.zip (ls.map f)).map g = ls.map fun l => g (l, f l) := by
  induction ls with
  | nil => rfl
  | cons a ls ih => simp [ih]

/-- **C44 (LPCM).**  With LPCM encoders, however the generator is called: nothing crashes, and the bytes of every frame decode, with a decoder for the
codec config of its audio element, to the samples that the frame holds, divided by the output gain of their channel, up to the bits that the
configuration does not keep. -/
theorem C44_lpcm_frames_decode_to_their_samples {metadata : List FrameMetadata} {elements : List (UInt32 × ElementWithData)}
    {downMixing : IdMap DownmixingConfig} {parameters : ParametersManager} {timing : TimingModule} (hpcm : AllPcm elements)
    (h : Prepared (lpcmSpec elements) newLpcmEncoder (fun _ => 0) metadata elements downMixing parameters timing)
    (linear : Int16 → Rat) (first : FrameMetadata) (hfirst : metadata.head? = some first) (calls : List GeneratorCall)
    (hok : ∀ c ∈ calls, CallOk (listedLabels metadata) c)
    (hroom : ∀ x ∈ elements, first.trimEnd.toNat + (frameSizeOf x.2).toNat * (addCount calls + 1) < 4294967296) :
    Reports (generate lpcmEncoders linear newLpcmEncoder metadata elements downMixing parameters timing calls) fun y =>
      ∀ x ∈ elements, ∀ c l, x.2.codec = some c → c.config.decoderConfig = .lpcm l → ∀ cfg, downMixing x.1 = some cfg →
      ∀ z ∈ x.2.data.labels, ∀ f ∈ ofSubstream z.1 y.2.1.flatten,
        f.1.samples.length = z.2.length ∧
        ∃ d, LpcmDecoder.create l z.2.length c.config.numSamplesPerFrame = .ok d ∧
          d.decode f.2 = .ok ((z.2.zip f.1.samples).map fun k => k.2.map fun s => kept l.sampleSize (normalizedToInt32 (s / gainOf linear cfg.gains k.1))) := by
  refine (C44_frames_hold_the_samples (lpcm_faithful elements) h linear first hfirst calls hok hroom).mono ?_
  rintro ⟨delay, fss, g⟩ ⟨⟨-, hD⟩, hall⟩ x hx c l hc hl cfg hcfg z hz f hf
  simp only at hD hall hf
  have hd : delay = 0 := by
    rcases hD with h0 | ⟨_, _, _, _, h0⟩ <;> exact h0
  subst hd
  -- the labels of the element
  obtain ⟨a, ha, hax⟩ := List.mem_map.mp (h.all x hx)
  have hls := listed_of h.once ha
  rw [hax] at hls
  obtain ⟨R, F, hfr, -⟩ := hall x hx c hc a.labels hls cfg hcfg
  obtain ⟨j, hj⟩ := List.getElem?_of_mem hf
  have hframe := hfr.frame z hz j f hj
  obtain ⟨f0, hsub, -, hsame, l', channels, n, ⟨x', hx', c', hc', hl', hn', z', hz', hzi, hzl⟩, d, hd1, hd2⟩ := hframe.bytes
  -- it is the same substream
  have hx2 : x' = x ∧ z' = z := by
    have key : ∀ (es : List (UInt32 × ElementWithData)), (es.flatMap fun x => idsOf x.2).Nodup → ∀ x ∈ es, ∀ x' ∈ es, ∀ z ∈ x.2.data.labels,
        ∀ z' ∈ x'.2.data.labels, z'.1 = z.1 → x' = x ∧ z' = z := by
      intro es hes x hx x' hx' z hz z' hz' hi
      have h1 : ∀ x ∈ es, ∀ z ∈ x.2.data.labels, z.1 ∈ idsOf x.2 := fun x _ z hz => List.mem_map_of_mem (f := Prod.fst) hz
      induction es with
      | nil => cases hx
      | cons e es ih =>
        rw [List.flatMap_cons, List.nodup_append] at hes
        rcases List.mem_cons.mp hx with e1 | k1 <;> rcases List.mem_cons.mp hx' with e2 | k2
        · subst e1 e2
          exact ⟨rfl, eq_of_nodup_map (f := Prod.fst) hes.1 hz' hz hi⟩
        · subst e1
          exact absurd rfl (hes.2.2 z.1 (h1 x hx z hz) z'.1 (List.mem_flatMap.mpr ⟨x', k2, h1 x' hx' z' hz'⟩) |> fun k => by rw [hi] at k; exact k)
        · subst e2
          exact absurd rfl (hes.2.2 z'.1 (h1 x' hx' z' hz') z.1 (List.mem_flatMap.mpr ⟨x, k1, h1 x hx z hz⟩) |> fun k => by rw [hi] at k; exact k)
        · exact ih hes.2.1 k1 k2 fun x hx z hz => h1 x (by simp [hx]) z hz
    exact key elements h.ids x hx x' hx' z hz z' hz' (by rw [hzi, hsub])
  obtain ⟨rfl, rfl⟩ := hx2
  rw [hc, Option.some.injEq] at hc'
  subst hc'
  rw [hl] at hl'
  injection hl' with hl'
  subst hl' hn' hzl
  refine ⟨by rw [hframe.samples, List.length_map], d, hd1, ?_⟩
  rw [hd2, hframe.samples, zip_map_map, List.map_map]
  refine congrArg Except.ok (List.map_congr_left fun lab _ => ?_)
  simp only [Function.comp, spotOf]
  obtain ⟨g, hg⟩ : ∃ g : Rat → Int32, g = fun s => normalizedToInt32 (s / gainOf linear cfg.gains lab) := ⟨_, rfl⟩
  have hg0 : g 0 = 0 := by rw [hg]; simp only; rw [zero_div]; exact int32_zero
  have hcut := cutFrames_map g c.config.numSamplesPerFrame.toNat 0 ((R ++ F).map fun r => r.block lab) []
  rw [hg0, List.map_nil, List.map_map] at hcut
  have henc : (fun r : Round => toEncoder linear cfg.gains lab (r.block lab)) = (fun b : Samples => b.map g) ∘ fun r => r.block lab := by
    rw [hg]; rfl
  rw [henc]
  show List.map _ ((cutFrames _ 0 (List.replicate 0 0) _).getD j []) = List.map _ ((cutFrames _ 0 (List.replicate 0 0) _).getD j [])
  rw [List.replicate_zero, List.replicate_zero, hcut, List.getD_eq_getElem?_getD, List.getD_eq_getElem?_getD, List.getElem?_map]
  cases (cutFrames c.config.numSamplesPerFrame.toNat (0 : Rat) [] ((R ++ F).map fun r => r.block lab))[j]? with
  | none => rfl
  | some s => simp only [Option.map_some, Option.getD_some, List.map_map, hg]; rfl

end Iamf.Props
