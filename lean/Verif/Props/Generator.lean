import Verif.Props.GeneratorCreate
/-
  C44: what a user of the frame generator sees.
-/
namespace Iamf.Props
open Iamf

variable {L : EncoderLib}

/-! ### The specification -/

/-- The block of samples `p`, given for an audio element with the labels `listed`, becomes the round `r`: as many samples, down-mixed for the
channels of the substreams. -/
structure MixedTo (mixers : List DownMix) (listed : List Label) (subs : SubstreamLabels) (p : Label → Samples) (r : Round) : Prop where
  ticks : ∀ l ∈ listed, (p l).length = r.ticks
  mixed : ∃ m, runDownMixers r.mixing.factors mixers (fun l => if l ∈ listed then some (p l) else none) = .ok m ∧
    ∀ y ∈ subs, ∀ l ∈ y.2, m l = some (r.block l)

/-- Frame number `j` of the substream `s` with the labels `ls`, when the rounds are `H`: the samples of all rounds, with zeros before them, are cut
into frames of `n` samples; a frame that would not be full is filled up with zeros. -/
structure IsFrame (C : EncoderSpec L) (S : Spot) (startTotal : Nat) (H : List Round) (trimEnd : Nat) (s : UInt32) (ls : List Label) (j : Nat)
    (f : GenFrame × List UInt8) : Prop where
  substream : f.1.substream = s
  element : f.1.element = S.element
  start : f.1.start = (j * S.n.toNat : Nat)
  stop : f.1.stop = ((j + 1) * S.n.toNat : Nat)
  samples : f.1.samples = ls.map fun l => (cutFrames S.n.toNat 0 (List.replicate S.delay 0) (H.map fun r => r.block l)).getD j []
  mixing : (H[j]?).map Round.mixing = some f.1.mixing
  trimStart : f.1.trimStart.toNat = min S.n.toNat (startTotal - j * S.n.toNat)
  trimEnd : f.1.trimEnd.toNat = trimEnd
  flag : f.1.trimFlag = (decide (f.1.trimEnd ≠ 0) || decide (f.1.trimStart ≠ 0))
  bytes : ∃ f0 : GenFrame, f0.substream = s ∧ f0.start = f.1.start ∧ f0.samples = f.1.samples ∧
    C.coded (ls.map fun l => (cutFrames S.n.toNat 0 (List.replicate S.start 0) (H.map fun r => toEncoder S.linear S.gains l (r.block l))).getD j [])
      f0 f.2

/-- What is trimmed at the end of frame number `j`: the zeros that fill it up.  At the end of the last frame, if it did not come out before the end
was announced: what the user asked for; and in addition, all zeros that were added to any frame, unless the user has counted them in. -/
def trimmedAtEnd (S : Spot) (userEnd : Nat) (addPadding over : Bool) (early : Nat) (H : List Round) (j : Nat) : Nat :=
  if over = true ∧ early ≤ j ∧ j + 1 = H.length then userEnd + (if addPadding then S.pads H else 0)
  else (padLengths S.n.toNat S.delay (H.map Round.ticks)).getD j 0

/-- All that comes out for an audio element: `R` are the rounds of the blocks that were given, `F` the rounds without samples that empty the queue.
`early` is how many frames of a substream came out before the end was announced, `over` is whether it has ended, and `out` is what came out. -/
structure ElementFrames (C : EncoderSpec L) (S : Spot) (startTotal userEnd : Nat) (addPadding : Bool) (mixers : List DownMix) (listed : List Label)
    (subs : SubstreamLabels) (given : List (Label → Samples)) (announced : Bool) (early : UInt32 → Nat) (over : UInt32 → Bool)
    (out : UInt32 → List (GenFrame × List UInt8)) (R F : List Round) : Prop where
  rounds : List.Forall₂ (MixedTo mixers listed subs) given R
  flushed : Flushed S R F
  only_then : announced = false → F = []
  even : ∀ r ∈ R ++ F, ∀ y ∈ subs, ∀ l ∈ y.2, (r.block l).length = r.ticks
  count : ∀ y ∈ subs, (out y.1).length ≤ (R ++ F).length
  complete : ∀ y ∈ subs, over y.1 = true → (out y.1).length = (R ++ F).length ∧ S.left (R ++ F) = 0
  fits : ∀ y ∈ subs, ∀ f ∈ out y.1, f.1.trimEnd ≤ S.n
  frame : ∀ y ∈ subs, ∀ j f, (out y.1)[j]? = some f →
    IsFrame C S startTotal (R ++ F) (trimmedAtEnd S userEnd addPadding (over y.1) (early y.1) (R ++ F) j) y.1 y.2 j f

/-- The down-mixing parameters of the rounds of an audio element with `n` samples per frame, when the parameter blocks `added` were added: they are
those of the parameter blocks that were used.  If `own` (no other audio element has demixing parameters with the same id), the blocks of samples that
were given used the parameter blocks `found`. -/
structure ElementMixings (definition : Option (ParamBase × DefaultDemixingInfo)) (n : Nat) (added : BlockWithData → Prop) (own : Prop)
    (found : List (Option BlockWithData)) (R F : List Round) : Prop where
  mixings : MixingsFor definition n ((R ++ F).map Round.demixing) ((R ++ F).map Round.mixing)
  added : ∀ r ∈ R ++ F, ∀ b, r.demixing = some b → added b
  found : own → R.map Round.demixing = found

/-- No other audio element has demixing parameters with the same id. -/
def OwnDemixing (elements : List (UInt32 × ElementWithData)) (x : UInt32 × ElementWithData) : Prop :=
  ∀ x' ∈ elements, x' ≠ x → ∀ b d b' d', demixingDefinition x.2.obu = some (b, d) → demixingDefinition x'.2.obu = some (b', d') → b'.id ≠ b.id

/-! ### Lists -/

theorem cutFrames_get {S : Type} (n : Nat) (zero : S) (q : List S) (bs : List (List S)) (j : Nat) :
    (cutFrames n zero q bs)[j]? = (bs[j]?).map fun b => (padded n zero (restOf n zero q (bs.take j) ++ b)).take n := by
  induction bs generalizing q j with
  | nil => simp [cutFrames]
  | cons b bs ih =>
    cases j with
    | zero => rfl
    | succ j => simp only [cutFrames, List.getElem?_cons_succ, ih, List.take_succ_cons, restOf]

theorem padLengths_get (n q : Nat) (bs : List Nat) (j : Nat) :
    (padLengths n q bs)[j]? = (bs[j]?).map fun b => n - (restLength n q (bs.take j) + b) := by
  induction bs generalizing q j with
  | nil => simp [padLengths]
  | cons b bs ih =>
    cases j with
    | zero => rfl
    | succ j => simp only [padLengths, List.getElem?_cons_succ, ih, List.take_succ_cons, restLength]

theorem framesFrom_get (S : Spot) (s : UInt32) (ls : List Label) (G H : List Round) (j : Nat) :
    (S.framesFrom s ls G H)[j]? = (H[j]?).map fun r => S.frameOf s ls (G ++ H.take j) r := by
  induction H generalizing G j with
  | nil => simp [Spot.framesFrom]
  | cons r H ih =>
    cases j with
    | zero => simp [Spot.framesFrom]
    | succ j => simp only [Spot.framesFrom, List.getElem?_cons_succ, ih, List.take_succ_cons, List.append_assoc, List.cons_append, List.nil_append]

private theorem forall₂_get {α β : Type} {R : α → β → Prop} {as : List α} {bs : List β} (h : List.Forall₂ R as bs) {j : Nat} {b : β}
    (hb : bs[j]? = some b) : ∃ a, as[j]? = some a ∧ R a b := by
  induction h generalizing j with
  | nil => simp at hb
  | cons h1 h2 ih =>
    cases j with
    | zero => simp only [List.getElem?_cons_zero, Option.some.injEq] at hb; subst hb; exact ⟨_, rfl, h1⟩
    | succ j => simp only [List.getElem?_cons_succ] at hb ⊢; exact ih hb

/-! ### From the state -/

/-- The answers so far, from the stage of a substream. -/
private theorem stage_sent {C : EncoderSpec L} {W : World} {g : FrameGenerator L.State} {S : Spot} {H : List Round}
    {sent : List (GenFrame × List UInt8)} {s : UInt32} {ls : List Label} (h : Stage C W g S H sent s ls) :
    sent.length ≤ H.length ∧ (isOver (g.encoders s) = true → sent.length = H.length ∧ S.left H = 0) ∧
    ∀ (j : Nat) f, sent[j]? = some f → ∃ r, H[j]? = some r ∧ C.Answers (S.frameOf s ls (H.take j) r) f := by
  have key : ∀ {rest : List (GenFrame × List UInt8)} {ins w : List (List (List Int32) × GenFrame)}, S.framesFrom s ls [] H = ins ++ w →
      List.Forall₂ C.Answers ins (sent ++ rest) → sent.length ≤ H.length ∧
      ∀ (j : Nat) f, sent[j]? = some f → ∃ r, H[j]? = some r ∧ C.Answers (S.frameOf s ls (H.take j) r) f := by
    intro rest ins w he hf
    have hl := hf.length_eq
    have hl2 := congrArg List.length he
    rw [S.framesFrom_length] at hl2
    rw [List.length_append] at hl hl2
    refine ⟨by omega, fun j f hj => ?_⟩
    have hj' : (sent ++ rest)[j]? = some f := by
      have := (List.getElem?_eq_some_iff.mp hj).1
      rw [List.getElem?_append_left this]; exact hj
    obtain ⟨a, ha, hab⟩ := forall₂_get hf hj'
    have : (S.framesFrom s ls [] H)[j]? = some a := by
      rw [he, List.getElem?_append_left (List.getElem?_eq_some_iff.mp ha).1]; exact ha
    rw [framesFrom_get, Option.map_eq_some_iff] at this
    obtain ⟨r, hr, hra⟩ := this
    refine ⟨r, hr, ?_⟩
    rw [List.nil_append] at hra
    rw [hra]; exact hab
  cases h with
  | opened h =>
    obtain ⟨x, hx, hf, ins, w, he, -, ha⟩ := h.enc
    obtain ⟨k1, k2⟩ := key he ha
    refine ⟨k1, fun hc => ?_, k2⟩
    rw [hx] at hc
    simp [isOver, Encoder.isFinished, hf] at hc
  | closed x a b c d e f t =>
    obtain ⟨k1, k2⟩ := key (w := []) (List.append_nil _).symm f
    refine ⟨k1, fun hc => ?_, k2⟩
    rw [d] at hc
    simp only [isOver, Encoder.isFinished, e, Bool.true_and] at hc
    have hl := f.length_eq
    rw [List.isEmpty_iff.mp hc, S.framesFrom_length, List.append_nil] at hl
    exact ⟨hl.symm, b⟩
  | gone a b c d f =>
    obtain ⟨k1, k2⟩ := key (w := []) (rest := []) (List.append_nil _).symm (by rw [List.append_nil]; exact f)
    refine ⟨k1, fun _ => ?_, k2⟩
    have hl := f.length_eq
    rw [S.framesFrom_length] at hl
    exact ⟨hl.symm, b⟩

private theorem ofNat_small {k : Nat} (h : k < 4294967296) : (UInt32.ofNat k).toNat = k := by
  rw [UInt32.toNat_ofNat']; exact Nat.mod_eq_of_lt h

private theorem end_fits {C : EncoderSpec L} {W : World} {g : FrameGenerator L.State} {G : History} {given : UInt32 → List (Label → Samples)} {b : Nat}
    (h : Inv C W g G given b) {x : UInt32 × ElementWithData} (hx : x ∈ W.elements) : W.endTotal (W.spot x) (G.rounds x.1) < 4294967296 := by
  by_cases hp : g.phase = .flushing
  · exact (h.space hp x hx).fits
  · have := h.room hp x hx
    omega

/-- What the state says about the frames that came out. -/
theorem frames_of_inv {C : EncoderSpec L} {W : World} {g : FrameGenerator L.State} {G : History}
    {given : UInt32 → List (Label → Samples)} {b : Nat} (h : Inv C W g G given b) {x : UInt32 × ElementWithData} (hx : x ∈ W.elements)
    {ls : List Label} (hl : W.labels x.1 = some ls) {cfg : DownmixingConfig} (hc : W.downMixing x.1 = some cfg) :
    ∃ R F, ElementFrames C (W.spot x) W.startTotal W.userEnd W.addPadding cfg.mixers ls x.2.data.labels (given x.1) (g.phase = .flushing)
      G.before (fun i => isOver (g.encoders i)) G.out R F ∧ G.rounds x.1 = R ++ F := by
  obtain ⟨R, F, hRF, hgiven, hfl, hnot⟩ := h.story x hx ls hl
  have hend := end_fits h hx
  have heven := h.core.even x hx
  have hlen : ∀ y ∈ x.2.data.labels, (G.out y.1).length = (G.sent y.1).length := fun y hy => out_length h.core hx hy
  refine ⟨R, F, ⟨?_, hfl, fun ha => hnot (by simpa using ha), ?_, fun y hy => ?_, fun y hy ho => ?_,
    fun y hy => h.core.fits x hx y hy, fun y hy j f hj => ?_⟩, hRF⟩
  · refine hgiven.imp fun p r hr => ⟨hr.ticks, ?_⟩
    obtain ⟨cfg', m, hm1, hm2, hm3⟩ := hr.mixed
    rw [hc, Option.some.injEq] at hm1
    subst hm1
    exact ⟨m, hm2, hm3⟩
  · intro r hr y hy l hlm
    rw [hRF] at heven
    exact heven r hr l (List.mem_flatMap.mpr ⟨y, hy, hlm⟩)
  · rw [hlen y hy, ← hRF]
    exact (stage_sent (h.core.stage x hx y hy)).1
  · rw [hlen y hy, ← hRF]
    exact (stage_sent (h.core.stage x hx y hy)).2.1 ho
  · rw [← hRF]
    rw [h.core.out x hx y hy] at hj
    unfold World.outputs at hj
    rw [List.getElem?_mapIdx, Option.map_eq_some_iff] at hj
    obtain ⟨a, ha, hfa⟩ := hj
    obtain ⟨r, hr, hans, hcode⟩ := (stage_sent (h.core.stage x hx y hy)).2.2 j a ha
    obtain ⟨hjl, hrj⟩ := List.getElem?_eq_some_iff.mp hr
    have hnlt := (W.spot x).n.toNat_lt
    have htake : (List.take j (G.rounds x.1)).length = j := by rw [List.length_take]; omega
    -- the pieces
    have hsamples : ∀ l, (padded (W.spot x).n.toNat 0 ((W.spot x).obuQueue (List.take j (G.rounds x.1)) l ++ r.block l)).take (W.spot x).n.toNat =
        (cutFrames (W.spot x).n.toNat 0 (List.replicate (W.spot x).delay 0) ((G.rounds x.1).map fun r => r.block l)).getD j [] := by
      intro l
      rw [List.getD_eq_getElem?_getD, cutFrames_get, List.getElem?_map, hr]
      simp only [Option.map_some, Option.getD_some, ← List.map_take]
      rfl
    have henc : ∀ l, (padded (W.spot x).n.toNat 0 ((W.spot x).encQueue (List.take j (G.rounds x.1)) l ++
          toEncoder (W.spot x).linear (W.spot x).gains l (r.block l))).take (W.spot x).n.toNat =
        (cutFrames (W.spot x).n.toNat 0 (List.replicate (W.spot x).start 0)
          ((G.rounds x.1).map fun r => toEncoder (W.spot x).linear (W.spot x).gains l (r.block l))).getD j [] := by
      intro l
      rw [List.getD_eq_getElem?_getD, cutFrames_get, List.getElem?_map, hr]
      simp only [Option.map_some, Option.getD_some, ← List.map_take]
      rfl
    have hpad : (padLengths (W.spot x).n.toNat (W.spot x).delay ((G.rounds x.1).map Round.ticks)).getD j 0 =
        (W.spot x).n.toNat - ((W.spot x).left (List.take j (G.rounds x.1)) + r.ticks) := by
      rw [List.getD_eq_getElem?_getD, padLengths_get, List.getElem?_map, hr]
      simp only [Option.map_some, Option.getD_some, ← List.map_take]
      rfl
    subst hfa
    simp only [Spot.frameOf] at hans hcode
    refine ⟨by simp only [finalFrame, hans], by simp only [finalFrame, hans], by simp only [finalFrame, hans, htake], by simp only [finalFrame, hans, htake],
      ?_, by simp only [finalFrame, hans, hr, Option.map_some], ?_, ?_, ?_, ?_⟩
    · simp only [finalFrame, hans]
      exact List.map_congr_left fun l _ => hsamples l
    · simp only [finalFrame]
      exact ofNat_small (by omega)
    · simp only [finalFrame]
      unfold trimmedAtEnd
      by_cases hlast : isLastFrame (g.encoders y.1) (G.before y.1) (G.rounds x.1).length j = true
      · rw [if_pos hlast]
        unfold isLastFrame at hlast
        simp only [Bool.and_eq_true, decide_eq_true_eq] at hlast
        rw [if_pos ⟨hlast.1.1, hlast.1.2, hlast.2⟩, ofNat_small hend]
        unfold World.endTotal
        split <;> simp
      · rw [if_neg hlast]
        rw [if_neg, hans, hpad]
        · exact ofNat_small (by omega)
        · rintro ⟨h1, h2, h3⟩
          exact hlast (by simp [isLastFrame, h1, h2, h3])
    · simp only [finalFrame, decide_not]
    · refine ⟨a.1, by rw [hans], ?_, ?_, ?_⟩
      · simp only [finalFrame]
      · simp only [finalFrame]
      · have hm : (y.2.map fun l => (padded (W.spot x).n.toNat 0 ((W.spot x).encQueue (List.take j (G.rounds x.1)) l ++
            toEncoder (W.spot x).linear (W.spot x).gains l (r.block l))).take (W.spot x).n.toNat) = _ := List.map_congr_left fun l _ => henc l
        rw [hm, ← hans] at hcode
        exact hcode

/-! ### Any list of calls -/

/-- The spot of an audio element when the codec delay is `delay`. -/
def spotOf (linear : Int16 → Rat) (delayOf : CodecObu → UInt32) (delay : UInt32) (x : UInt32 × ElementWithData) (c : CodecObu) (gains : LabelGains) : Spot :=
  ⟨c.config.numSamplesPerFrame, delay.toNat, delay.toNat - (delayOf c).toNat, linear, gains, x.1⟩

/-- Whether the end is announced in a list of calls, and frames were asked for after that. -/
def flushBegun : List GeneratorCall → Bool
  | [] => false
  | .finalize :: cs => cs.any fun c => match c with
    | .output => true
    | _ => false
  | _ :: cs => flushBegun cs

private theorem phaseAfter_late {p : GeneratorPhase} (hp : p ≠ .taking) (calls : List GeneratorCall) :
    phaseAfter p calls = .flushing ↔ p = .flushing ∨ (calls.any fun c => match c with
      | .output => true
      | _ => false) = true := by
  induction calls generalizing p with
  | nil => simp [phaseAfter]
  | cons c cs ih =>
    rw [phaseAfter]
    cases c with
    | output =>
      have : phaseStep p .output = .flushing := if_neg hp
      rw [this, ih (p := .flushing) nofun]; simp
    | finalize =>
      have : phaseStep p .finalize = p := if_neg hp
      rw [this, ih hp]; simp
    | add e l s => exact (ih hp).trans (by simp)
    | addDemixing b => exact (ih hp).trans (by simp)

theorem flushBegun_iff (calls : List GeneratorCall) : phaseAfter .taking calls = .flushing ↔ flushBegun calls = true := by
  induction calls with
  | nil => simp [phaseAfter, flushBegun]
  | cons c cs ih =>
    rw [phaseAfter]
    cases c with
    | output => exact ih
    | finalize =>
      rw [show phaseStep .taking .finalize = .finalizeCalled from rfl, phaseAfter_late (p := .finalizeCalled) nofun]
      simp [flushBegun]
    | add e l s => exact ih
    | addDemixing b => exact ih

/-- A generator is created and called. -/
def generate (L : EncoderLib) (linear : Int16 → Rat) (newEncoder : CodecObu → Nat → UInt32 → Except Err (Encoder L.State)) (metadata : List FrameMetadata)
    (elements : List (UInt32 × ElementWithData)) (downMixing : IdMap DownmixingConfig) (parameters : ParametersManager) (timing : TimingModule)
    (calls : List GeneratorCall) : Except Err (UInt32 × List (List (GenFrame × List UInt8)) × FrameGenerator L.State) := do
  let g ← FrameGenerator.create newEncoder metadata elements downMixing parameters timing
  let y ← FrameGenerator.calls L linear calls g
  .ok (g.delay, y.1, y.2)

/-- `D` is the largest delay of an encoder. -/
def LargestDelay (delayOf : CodecObu → UInt32) (elements : List (UInt32 × ElementWithData)) (D : UInt32) : Prop :=
  (∀ x ∈ elements, ∀ c, x.2.codec = some c → delayOf c ≤ D) ∧ (D = 0 ∨ ∃ x ∈ elements, ∃ c, x.2.codec = some c ∧ D = delayOf c)

/-- **C44 (frames hold the samples).**  A generator is created for audio elements, and called in any way: samples for listed labels, parameter blocks
with demixing data, the announcement of the end, and requests for frames, in any order.  Then nothing crashes; and if no call reports a failure, the
frames of every substream are those of `ElementFrames`: the blocks of samples that were given until the end was announced, down-mixed, come out in
order in frames of equal size with consecutive timestamps, after the zeros for the largest codec delay; the frames carry the trimming that the user asked
for, and bytes that the encoder made from the same samples.  The down-mixing is that of `ElementMixings`: the parameters of the parameter block that
was added since the block of samples before (`demixingOf`), or the default ones.  A generator that no longer generates frames has put out all. -/
theorem C44_frames_hold_the_samples {C : EncoderSpec L} (F : Faithful L C) {newEncoder : CodecObu → Nat → UInt32 → Except Err (Encoder L.State)}
    {delayOf : CodecObu → UInt32} {metadata : List FrameMetadata} {elements : List (UInt32 × ElementWithData)} {downMixing : IdMap DownmixingConfig}
    {parameters : ParametersManager} {timing : TimingModule} (h : Prepared C newEncoder delayOf metadata elements downMixing parameters timing)
    (linear : Int16 → Rat) (first : FrameMetadata) (hfirst : metadata.head? = some first) (calls : List GeneratorCall)
    (hok : ∀ c ∈ calls, CallOk (listedLabels metadata) c)
    (hroom : ∀ x ∈ elements, first.trimEnd.toNat + (frameSizeOf x.2).toNat * (addCount calls + 1) < 4294967296) :
    Reports (generate L linear newEncoder metadata elements downMixing parameters timing calls) fun y =>
      LargestDelay delayOf elements y.1 ∧
      ∀ x ∈ elements, ∀ c, x.2.codec = some c → ∀ ls, listedLabels metadata x.1 = some ls → ∀ cfg, downMixing x.1 = some cfg →
        ∃ R F, ElementFrames C (spotOf linear delayOf y.1 x c cfg.gains)
          (first.trimStart.toNat + if first.startIncludesDelay then 0 else y.1.toNat) first.trimEnd.toNat (!first.endIncludesPadding)
          cfg.mixers ls x.2.data.labels (blocksOf x.1 ls (fun _ => []) calls) (flushBegun calls)
          (fun i => (ofSubstream i (y.2.1.take (callsBefore calls)).flatten).length) (fun i => isOver (y.2.2.encoders i))
          (fun i => ofSubstream i y.2.1.flatten) R F ∧
        ElementMixings (demixingDefinition x.2.obu) c.config.numSamplesPerFrame.toNat (fun b => .addDemixing b ∈ calls) (OwnDemixing elements x)
          (demixingOf x.1 (demixingId x) ls (fun _ => []) none calls) R F ∧
        (y.2.2.generatingFrames = false → ∀ z ∈ x.2.data.labels, isOver (y.2.2.encoders z.1) = true ∧
          (ofSubstream z.1 y.2.1.flatten).length = (R ++ F).length) := by
  unfold generate
  refine Reports.bind (create_spec h linear fun b => .addDemixing b ∈ calls) fun g ⟨h1, h2, h3, hpar, h4⟩ => ?_
  obtain ⟨h5, hsane, hinv⟩ := h4 first hfirst
  obtain ⟨W, hW⟩ : ∃ W, W = worldOf linear delayOf metadata first elements downMixing g.order g.delay
    fun b => .addDemixing b ∈ calls := ⟨_, rfl⟩
  rw [← hW] at hsane hinv
  have hlin : W.linear = linear := by rw [hW]; rfl
  have hWe : W.elements = elements := by rw [hW]; rfl
  have hWl : W.labels = listedLabels metadata := by rw [hW]; rfl
  have hWd : W.downMixing = downMixing := by rw [hW]; rfl
  have hrun := run_spec F hsane calls g History.start (fun _ => []) (hinv _ hroom) (fun c hc => by rw [hWl]; exact hok c hc)
    (fun b hb => by rw [hW]; exact hb)
  rw [hlin] at hrun
  refine Reports.bind hrun ?_
  rintro ⟨fss, g'⟩ ⟨G, given, k1, k2, k3, k4, -, k6, k7⟩
  simp only at k1 k2 k3 k4 k6
  rw [h3] at k6
  refine ⟨⟨h1, h2⟩, fun x hx c hc ls hl cfg hcfg => ?_⟩
  have hx' : x ∈ W.elements := by rw [hWe]; exact hx
  have hl' : W.labels x.1 = some ls := by rw [hWl]; exact hl
  have hc' : W.downMixing x.1 = some cfg := by rw [hWd]; exact hcfg
  obtain ⟨R, Fl, hfr, hRF⟩ := frames_of_inv k1 hx' hl' hc'
  have hspot : W.spot x = spotOf linear delayOf g.delay x c cfg.gains := by
    unfold World.spot spotOf World.gains
    rw [hc', hlin]
    simp only [frameSizeOf, hc]
    rw [hW]
    simp only [worldOf]
    congr 1
    unfold delayAt
    rw [lookup_of_nodup h.keys hx]
    simp only [hc]
  have hgiven : given x.1 = blocksOf x.1 ls (fun _ => []) calls := by
    rw [k3 x hx' ls hl', if_pos h3]; rfl
  have hout : ∀ i, G.out i = ofSubstream i fss.flatten := fun i => by rw [k2 i]; rfl
  rw [hspot, hgiven] at hfr
  have hst : W.startTotal = first.trimStart.toNat + if first.startIncludesDelay then 0 else g.delay.toNat := by rw [hW]; rfl
  have hue : W.userEnd = first.trimEnd.toNat := by rw [hW]; rfl
  have hap : W.addPadding = !first.endIncludesPadding := by rw [hW]; rfl
  rw [hst, hue, hap] at hfr
  have hbefore : ∀ z ∈ x.2.data.labels, G.before z.1 = (ofSubstream z.1 (fss.take (callsBefore calls)).flatten).length := by
    intro z hz
    rw [k4 x hx' z hz, if_pos h3]
    show 0 + _ = _
    rw [Nat.zero_add]
  refine ⟨R, Fl, ⟨hfr.rounds, hfr.flushed, fun ha => hfr.only_then (by rw [k6, decide_eq_false_iff_not, flushBegun_iff, ha]; exact nofun), hfr.even, fun z hz => ?_, fun z hz ho => ?_,
    fun z hz => by simp only; rw [← hout]; exact hfr.fits z hz, fun z hz j f hj => ?_⟩, ?_, fun hgen z hz => ?_⟩
  · rw [← hout]; exact hfr.count z hz
  · simp only at ho ⊢
    rw [← hout]; exact hfr.complete z hz ho
  · simp only at hj ⊢
    rw [← hout] at hj
    rw [← hbefore z hz]
    exact hfr.frame z hz j f hj
  · have hmix := k1.core.mixes x hx'
    rw [hRF] at hmix
    refine ⟨?_, fun r hr b hb => ?_, fun hown => ?_⟩
    · have := hmix.2.1
      rw [hspot] at this
      exact this
    · have := hmix.2.2 r hr b hb
      rw [hW] at this
      exact this
    · obtain ⟨more, hmore⟩ := k7 x hx' (by unfold OwnBlocks; rw [hWe]; exact hown) ls hl'
      have hwait : waitingBlock g.parameters x.1 = none := by
        rw [hpar]
        exact ((created_demix_state h.created (by rw [List.map_map]; exact h.keys) fun _ => True).2 x.1 x.2.obu
          (List.mem_map_of_mem (f := fun x : UInt32 × ElementWithData => (x.1, x.2.obu)) hx)).2
      have hp0 : History.start.pending x.1 = fun _ => [] := rfl
      rw [if_pos h3, hRF, hwait, hp0, List.map_append, show History.start.rounds x.1 = [] from rfl, List.map_nil, List.nil_append] at hmore
      refine (List.append_inj hmore ?_).1
      rw [demixingOf_length, List.length_map, hfr.rounds.length_eq]
  · rw [← hout]
    suffices ho : isOver (g'.encoders z.1) = true from ⟨ho, (hfr.complete z hz ho).1⟩
    have hin : z.1 ∈ g'.order := by
      rw [k1.core.order, hsane.order.2]
      exact List.mem_flatMap.mpr ⟨x, hx', List.mem_map_of_mem (f := Prod.fst) hz⟩
    simp only [FrameGenerator.generatingFrames, List.any_eq_false] at hgen
    have := hgen z.1 hin
    rw [Option.not_isSome_iff_eq_none.mp this]
    rfl

/-- Every answer that is not empty has exactly one frame for each substream in `substreams`, at first; later, some substreams may have dropped out
for good. -/
def OneFrameEach (substreams : List UInt32) : List (List (GenFrame × List UInt8)) → Prop
  | [] => True
  | fs :: fss =>
    (fs = [] ∨ (fs.map fun f => f.1.substream).Perm substreams) ∧
    ∃ left : List UInt32, left.Sublist substreams ∧ OneFrameEach left fss

private theorem one_frame_each {order : List UInt32} (hnd : order.Nodup) (fss : List (List (GenFrame × List UInt8))) :
    ∀ {alive : UInt32 → Prop} {substreams : List UInt32}, substreams.Nodup → (∀ i, i ∈ substreams ↔ i ∈ order ∧ alive i) → LockStep order alive fss →
      OneFrameEach substreams fss := by
  induction fss with
  | nil => intro _ _ _ _ _; trivial
  | cons fs fss ih =>
    rintro alive substreams hs hmem ⟨h1, h2, h3, alive', h4, h5⟩
    haveI : DecidablePred alive' := fun _ => Classical.propDecidable _
    refine ⟨?_, substreams.filter fun i => decide (alive' i), List.filter_sublist, ih (hs.filter _) (fun i => ?_) h5⟩
    · by_cases he : fs = []
      · exact .inl he
      · refine .inr ((List.perm_ext_iff_of_nodup (h1.nodup hnd) hs).mpr fun i => ⟨fun hi => (hmem i).mpr ⟨h1.subset hi, ?_⟩, fun hi =>
          h3 he i ((hmem i).mp hi).1 ((hmem i).mp hi).2⟩)
        obtain ⟨f, hf, rfl⟩ := List.mem_map.mp hi
        exact h2 f hf
    · rw [List.mem_filter, decide_eq_true_eq, hmem]
      exact ⟨fun h => ⟨h.1.1, h.2⟩, fun h => ⟨⟨h.1, h4 i h.2⟩, h.2⟩⟩

/-- **C44 (lock step).**  However a generator is called, every call either puts out no frame, or exactly one frame for every substream of every audio
element that has not ended; and after a substream has ended nothing comes for it. -/
theorem C44_one_frame_for_every_substream {C : EncoderSpec L} (F : Faithful L C) {newEncoder : CodecObu → Nat → UInt32 → Except Err (Encoder L.State)}
    {delayOf : CodecObu → UInt32} {metadata : List FrameMetadata} {elements : List (UInt32 × ElementWithData)} {downMixing : IdMap DownmixingConfig}
    {parameters : ParametersManager} {timing : TimingModule} (h : Prepared C newEncoder delayOf metadata elements downMixing parameters timing)
    (linear : Int16 → Rat) (first : FrameMetadata) (hfirst : metadata.head? = some first) (calls : List GeneratorCall)
    (hok : ∀ c ∈ calls, CallOk (listedLabels metadata) c)
    (hroom : ∀ x ∈ elements, first.trimEnd.toNat + (frameSizeOf x.2).toNat * (addCount calls + 1) < 4294967296) :
    Reports (generate L linear newEncoder metadata elements downMixing parameters timing calls) fun y =>
      OneFrameEach (elements.flatMap fun x => x.2.data.labels.map Prod.fst) y.2.1 := by
  unfold generate
  refine Reports.bind (create_spec h linear fun b => .addDemixing b ∈ calls) fun g ⟨h1, h2, h3, hpar, h4⟩ => ?_
  obtain ⟨h5, hsane, hinv⟩ := h4 first hfirst
  obtain ⟨W, hW⟩ : ∃ W, W = worldOf linear delayOf metadata first elements downMixing g.order g.delay
    fun b => .addDemixing b ∈ calls := ⟨_, rfl⟩
  rw [← hW] at hsane hinv
  have hlin : W.linear = linear := by rw [hW]; rfl
  have hWe : W.elements = elements := by rw [hW]; rfl
  have hWl : W.labels = listedLabels metadata := by rw [hW]; rfl
  have hrun := run_spec F hsane calls g History.start (fun _ => []) (hinv _ hroom) (fun c hc => by rw [hWl]; exact hok c hc)
    (fun b hb => by rw [hW]; exact hb)
  rw [hlin] at hrun
  refine Reports.bind hrun ?_
  rintro ⟨fss, g'⟩ ⟨G, given, -, -, -, -, k5, -, -⟩
  have hI := hinv _ hroom
  refine one_frame_each hsane.order.1 fss (alive := fun i => (g.encoders i).isSome = true) ?_ (fun i => ?_) k5
  · have := hsane.ids
    unfold World.substreams at this
    rw [hWe] at this
    exact this
  · rw [hsane.order.2]
    unfold World.substreams
    rw [hWe]
    refine ⟨fun hi => ⟨hi, ?_⟩, fun hi => hi.1⟩
    obtain ⟨x, hx, hi⟩ := List.mem_flatMap.mp hi
    obtain ⟨z, hz, rfl⟩ := List.mem_map.mp hi
    cases hI.core.stage x (by rw [hWe]; exact hx) z hz with
    | opened ho => obtain ⟨e, he, -⟩ := ho.enc; rw [he]; rfl
    | closed e _ _ hp => rw [h3] at hp; cases hp
    | gone _ _ hp => rw [h3] at hp; cases hp

/-! ### What is left after trimming -/

/-- The samples of a channel in a frame that are not trimmed. -/
def keptIn (f : GenFrame) (samples : Samples) : Samples := (samples.take (samples.length - f.trimEnd.toNat)).drop f.trimStart.toNat

/-- The samples of channel number `k` that are not trimmed in any of the frames. -/
def keptSamples (k : Nat) (fs : List (GenFrame × List UInt8)) : Samples := fs.flatMap fun f => keptIn f.1 (f.1.samples.getD k [])

/-- Frames that are only filled up at the end hold all samples. -/
private theorem cut_concat {α : Type} (n : Nat) (zero : α) (q : List α) (bs : List (List α))
    (h : ∀ j, j + 1 < bs.length → (padLengths n q.length (bs.map List.length)).getD j 0 = 0) :
    (cutFrames n zero q bs).flatten ++ restOf n zero q bs =
      q ++ bs.flatten ++ List.replicate (padLengths n q.length (bs.map List.length)).sum zero := by
  induction bs generalizing q with
  | nil => simp [cutFrames, restOf, padLengths]
  | cons b bs ih =>
    simp only [cutFrames, restOf, List.flatten_cons, List.map_cons, padLengths, List.sum_cons]
    cases bs with
    | nil =>
      simp only [cutFrames, restOf, List.flatten_nil, List.append_nil, List.map_nil, padLengths, List.sum_nil, Nat.add_zero]
      rw [List.take_append_drop]
      unfold padded
      rw [List.length_append]
    | cons c bs =>
      have h0 := h 0 (by simp)
      simp only [List.map_cons, padLengths, List.getD_cons_zero] at h0
      have hp : padded n zero (q ++ b) = q ++ b := by
        unfold padded
        rw [List.length_append, h0]; simp
      rw [hp, List.append_assoc]
      have hlen : q.length + b.length + (n - (q.length + b.length)) - n = ((q ++ b).drop n).length := by
        rw [List.length_drop, List.length_append]; omega
      rw [ih ((q ++ b).drop n) fun j hj => ?_]
      · rw [hlen, h0, Nat.zero_add]
        rw [← List.append_assoc, ← List.append_assoc, List.take_append_drop, List.append_assoc q b]
      · have := h (j + 1) (by simp only [List.length_cons] at hj ⊢; omega)
        simp only [List.map_cons] at this ⊢
        rw [padLengths, List.getD_cons_succ, hlen] at this
        exact this

/-- Trimming in frames is trimming of the whole. -/
private theorem kept_concat (n s e k : Nat) (he : e ≤ n) (fs : List (GenFrame × List UInt8)) : ∀ (Fs : List Samples) (j0 : Nat), fs.length = Fs.length →
    (∀ F ∈ Fs, F.length = n) →
    (∀ j f, fs[j]? = some f → Fs[j]? = some (f.1.samples.getD k []) ∧ f.1.trimStart.toNat = min n (s - (j0 + j) * n) ∧
      f.1.trimEnd.toNat = if j + 1 = fs.length then e else 0) →
    keptSamples k fs = (Fs.flatten.take (Fs.length * n - e)).drop (s - j0 * n) := by
  unfold keptSamples
  induction fs with
  | nil => intro Fs j0 hl _ _; cases Fs with
    | nil => simp
    | cons F Fs => cases hl
  | cons f fs ih =>
    intro Fs j0 hl hn hf
    cases Fs with
    | nil => cases hl
    | cons F Fs =>
      have hFn := hn F (by simp)
      obtain ⟨h1, h2, h3⟩ := hf 0 f rfl
      simp only [List.getElem?_cons_zero, Option.some.injEq] at h1
      simp only [List.length_cons, Nat.add_right_cancel_iff] at hl
      have hrest := ih Fs (j0 + 1) hl (fun F hF => hn F (by simp [hF])) fun j g hg => by
        obtain ⟨k1, k2, k3⟩ := hf (j + 1) g hg
        refine ⟨k1, ?_, ?_⟩
        · rw [k2]; congr 3; omega
        · rw [k3]; simp only [List.length_cons, Nat.add_right_cancel_iff]
      rw [List.flatMap_cons, hrest]
      unfold keptIn
      rw [← h1, h2, h3, hFn]
      simp only [List.flatten_cons, List.length_cons]
      cases hfs : fs with
      | nil =>
        have hFs : Fs = [] := by
          rw [hfs] at hl
          exact List.length_eq_zero_iff.mp hl.symm
        subst hFs
        simp only [List.length_nil, Nat.zero_add, if_true, List.flatten_nil, List.append_nil, Nat.one_mul, List.take_nil, List.drop_nil, Nat.add_zero]
        by_cases hs : s - j0 * n ≤ n
        · rw [Nat.min_eq_right hs]
        · rw [Nat.min_eq_left (by omega), List.drop_eq_nil_of_le, List.drop_eq_nil_of_le]
          · rw [List.length_take]; omega
          · rw [List.length_take]; omega
      | cons g gs =>
        have hle : e ≤ Fs.length * n := by
          rw [← hl, hfs, List.length_cons, Nat.succ_mul]; omega
        rw [if_neg (by simp), Nat.sub_zero, List.take_of_length_le (by omega)]
        rw [show (Fs.length + 1) * n - e = F.length + (Fs.length * n - e) by rw [Nat.succ_mul]; omega, List.take_length_add_append, List.drop_append, hFn]
        simp only [Nat.add_zero]
        congr 1
        · by_cases hs : s - j0 * n ≤ n
          · rw [Nat.min_eq_right hs]
          · rw [Nat.min_eq_left (by omega), List.drop_eq_nil_of_le (by omega), List.drop_eq_nil_of_le (by omega)]
        · congr 1
          rw [Nat.succ_mul]; omega

/-- After blocks that each fill a frame, only the last frame is filled up with zeros. -/
private theorem pads_last (S : Spot) (R F : List Round) (hfl : Flushed S R F) (hbig : ∀ r ∈ R.dropLast, S.n.toNat ≤ r.ticks) (j : Nat)
    (hj : j + 1 < (R ++ F).length) : (padLengths S.n.toNat S.delay ((R ++ F).map Round.ticks)).getD j 0 = 0 := by
  rw [List.getD_eq_getElem?_getD, padLengths_get, List.getElem?_map]
  have hjl : j < (R ++ F).length := by omega
  rw [List.getElem?_eq_getElem hjl]
  simp only [Option.map_some, Option.getD_some, ← List.map_take]
  show S.n.toNat - (S.left ((R ++ F).take j) + _) = 0
  -- what comes after a round that is filled up
  have stop : ∀ (H : List Round) (r : Round), S.left H + r.ticks < S.n.toNat → S.left (H ++ [r]) = 0 := by
    intro H r h
    unfold Spot.left at h ⊢
    rw [List.map_append, List.map_singleton, restLength_append]
    omega
  refine Decidable.byContradiction fun hne => ?_
  have hlt : S.left ((R ++ F).take j) + (R ++ F)[j].ticks < S.n.toNat := by omega
  have h0 := stop _ _ hlt
  rw [List.take_append_getElem hjl] at h0
  -- the next round is one that flushes
  have hnext : R.length ≤ j + 1 := by
    refine Decidable.byContradiction fun hc => ?_
    have hjR : j < R.length := by omega
    have hm : R[j] ∈ R.dropLast := by
      rw [List.mem_iff_getElem]
      exact ⟨j, by rw [List.length_dropLast]; omega, by rw [List.getElem_dropLast]⟩
    have := hbig _ hm
    rw [List.getElem_append_left hjR] at hlt
    omega
  -- take the rounds that flush apart there
  obtain ⟨A, B, hAB, hA⟩ : ∃ A B, F = A ++ B ∧ R ++ A = (R ++ F).take (j + 1) := by
    refine ⟨F.take (j + 1 - R.length), F.drop (j + 1 - R.length), (List.take_append_drop _ _).symm, ?_⟩
    rw [List.take_append, List.take_of_length_le (l := R) (by omega)]
  rw [← hA] at h0
  rw [hAB, flushed_append] at hfl
  cases B with
  | nil =>
    have := congrArg List.length hA
    rw [List.append_nil] at hAB
    rw [← hAB, List.length_take] at this
    omega
  | cons b B => exact hfl.2.2.1 h0

/-- **C44 (trimming gives the samples back).**  For what `C44_frames_hold_the_samples` says about an audio element: when a substream has ended, its
last frame did not come out before the end was announced, all blocks but the last one fill a frame, and zeros that fill up are trimmed in addition to what
the user asked for, then the samples that are not trimmed are those that were given (down-mixed), without the `startTotal − delay` first ones and the
`userEnd` last ones. -/
theorem C44_trimmed_frames_are_the_samples {C : EncoderSpec L} {S : Spot} {startTotal userEnd : Nat} {mixers : List DownMix} {listed : List Label}
    {subs : SubstreamLabels} {given : List (Label → Samples)} {announced : Bool} {early : UInt32 → Nat} {over : UInt32 → Bool}
    {out : UInt32 → List (GenFrame × List UInt8)} {R F : List Round}
    (h : ElementFrames C S startTotal userEnd true mixers listed subs given announced early over out R F) (hdelay : S.delay ≤ startTotal)
    (hlisted : listed ≠ []) (hbig : ∀ p ∈ given.dropLast, ∀ l ∈ listed, S.n.toNat ≤ (p l).length) (y : UInt32 × List Label) (hy : y ∈ subs)
    (hover : over y.1 = true) (hearly : out y.1 ≠ [] → early y.1 < (out y.1).length) (k : Nat) (l : Label) (hk : y.2[k]? = some l) :
    keptSamples k (out y.1) = ((R.flatMap fun r => r.block l).take ((R.flatMap fun r => r.block l).length - userEnd)).drop (startTotal - S.delay) := by
  obtain ⟨hlen, hleft⟩ := h.complete y hy hover
  have hl : l ∈ y.2 := List.mem_of_getElem? hk
  have hticks : ∀ r ∈ R.dropLast, S.n.toNat ≤ r.ticks := by
    obtain ⟨l0, hl0⟩ := List.exists_mem_of_ne_nil _ hlisted
    have hr := h.rounds
    clear * - hr hbig hl0
    induction hr with
    | nil => intro r hr; cases hr
    | @cons p r ps rs h1 h2 ih =>
      intro r' hr'
      cases h2 with
      | nil => cases hr'
      | @cons p2 r2 ps2 rs2 h3 h4 =>
        simp only [List.dropLast_cons₂, List.mem_cons] at hr'
        rcases hr' with rfl | hr'
        · rw [← h1.ticks l0 hl0]
          exact hbig p (by simp [List.dropLast]) l0 hl0
        · exact ih (fun p' hp' => hbig p' (by rw [List.dropLast_cons₂]; exact List.mem_cons_of_mem _ hp')) r' hr'
  have hpads := pads_last S R F h.flushed hticks
  -- as a whole
  have hblocks : ((R ++ F).map fun r => r.block l).map List.length = (R ++ F).map Round.ticks := by
    rw [List.map_map]
    exact List.map_congr_left fun r hr => h.even r hr y hy l hl
  have hzero : ∀ r ∈ F, r.block l = [] := by
    intro r hr
    have hfl := h.flushed
    have : ∀ (H F : List Round), Flushed S H F → ∀ r ∈ F, r.ticks = 0 := by
      intro H F
      induction F generalizing H with
      | nil => intro _ r hr; cases hr
      | cons a F ih =>
        intro hf r hr
        rcases List.mem_cons.mp hr with rfl | hr
        · exact hf.1
        · exact ih _ hf.2.2 r hr
    have h0 := this R F hfl r hr
    have h1 := h.even r (List.mem_append_right _ hr) y hy l hl
    exact List.length_eq_zero_iff.mp (h1.trans h0)
  have hflat : ((R ++ F).map fun r => r.block l).flatten = R.flatMap fun r => r.block l := by
    rw [← List.flatMap_def, List.flatMap_append]
    have : (F.flatMap fun r => r.block l) = [] := List.flatMap_eq_nil_iff.mpr hzero
    rw [this, List.append_nil]
  obtain ⟨input, hinput⟩ : ∃ input, input = R.flatMap fun r => r.block l := ⟨_, rfl⟩
  have hwhole : (cutFrames S.n.toNat 0 (List.replicate S.delay (0 : Rat)) ((R ++ F).map fun r => r.block l)).flatten =
      List.replicate S.delay 0 ++ input ++ List.replicate (S.pads (R ++ F)) 0 := by
    have := cut_concat S.n.toNat (0 : Rat) (List.replicate S.delay 0) ((R ++ F).map fun r => r.block l) (fun j hj => by
      rw [hblocks, List.length_replicate]
      exact hpads j (by rw [List.length_map] at hj; exact hj))
    rw [hflat, hblocks, List.length_replicate] at this
    have hrest : restOf S.n.toNat 0 (List.replicate S.delay (0 : Rat)) ((R ++ F).map fun r => r.block l) = [] := by
      refine List.length_eq_zero_iff.mp ?_
      rw [restOf_length, hblocks, List.length_replicate]
      exact hleft
    rw [hrest, List.append_nil] at this
    rw [hinput]
    exact this
  obtain ⟨Fs, hFs⟩ : ∃ Fs, Fs = cutFrames S.n.toNat 0 (List.replicate S.delay (0 : Rat)) ((R ++ F).map fun r => r.block l) := ⟨_, rfl⟩
  have hFl : Fs.length = (R ++ F).length := by rw [hFs, cutFrames_length, List.length_map]
  have hFn : ∀ f ∈ Fs, f.length = S.n.toNat := by rw [hFs]; exact cutFrames_full _ _ _ _
  rw [← hFs] at hwhole
  have hN : Fs.length * S.n.toNat = S.delay + input.length + S.pads (R ++ F) := by
    have h1 := congrArg List.length hwhole
    rw [List.length_flatten, List.map_congr_left (g := fun _ => S.n.toNat) hFn, List.map_const', List.sum_replicate_nat] at h1
    simp only [List.length_append, List.length_replicate] at h1
    exact h1
  rw [← hinput]
  by_cases hnone : out y.1 = []
  · have hz : (R ++ F).length = 0 := by rw [← hlen, hnone]; rfl
    rw [hFl, hz, Nat.zero_mul] at hN
    have hi : input = [] := List.length_eq_zero_iff.mp (by omega)
    rw [hnone, hi]
    simp [keptSamples]
  have hpos := List.length_pos_iff.mpr hnone
  have hear := hearly hnone
  -- the last frame
  obtain ⟨e, he⟩ : ∃ e, e = userEnd + S.pads (R ++ F) := ⟨_, rfl⟩
  have htrim : ∀ j f, (out y.1)[j]? = some f → f.1.trimEnd.toNat = if j + 1 = (out y.1).length then e else 0 := by
    intro j f hf
    have := (h.frame y hy j f hf).trimEnd
    rw [this]
    unfold trimmedAtEnd
    by_cases hj : j + 1 = (out y.1).length
    · rw [if_pos hj, if_pos ⟨hover, by omega, by rw [← hlen]; exact hj⟩, if_pos rfl, he]
    · rw [if_neg hj, if_neg fun hc => hj (by rw [hlen]; exact hc.2.2)]
      have hlt := (List.getElem?_eq_some_iff.mp hf).1
      exact hpads j (by rw [← hlen]; omega)
  have hen : e ≤ S.n.toNat := by
    have hlast : (out y.1)[(out y.1).length - 1]? = some ((out y.1)[(out y.1).length - 1]'(by omega)) := List.getElem?_eq_getElem _
    have h1 := htrim _ _ hlast
    rw [if_pos (by omega)] at h1
    have h2 := h.fits y hy _ (List.getElem_mem (h := (by omega : (out y.1).length - 1 < (out y.1).length)))
    rw [UInt32.le_iff_toNat_le, h1] at h2
    exact h2
  have hkept := kept_concat S.n.toNat startTotal e k hen (out y.1) Fs 0 (by rw [hlen, hFl]) hFn fun j f hf => by
    have hfr := h.frame y hy j f hf
    refine ⟨?_, by rw [hfr.trimStart, Nat.zero_add], htrim j f hf⟩
    have hjF : j < Fs.length := by rw [hFl, ← hlen]; exact (List.getElem?_eq_some_iff.mp hf).1
    rw [hfr.samples, List.getD_eq_getElem?_getD, List.getElem?_map, hk]
    simp only [Option.map_some, Option.getD_some]
    rw [← hFs, List.getD_eq_getElem?_getD, List.getElem?_eq_getElem hjF]
    rfl
  rw [hkept, hwhole, hN, he, Nat.zero_mul, Nat.sub_zero, List.append_assoc]
  rw [show S.delay + input.length + S.pads (R ++ F) - (userEnd + S.pads (R ++ F)) = S.delay + input.length - userEnd by omega]
  by_cases hu : userEnd ≤ input.length
  · rw [show S.delay + input.length - userEnd = (List.replicate S.delay (0 : Rat)).length + (input.length - userEnd) by
      rw [List.length_replicate]; omega, List.take_length_add_append, List.take_append_of_le_length (by omega)]
    rw [List.drop_append, List.drop_eq_nil_of_le (by rw [List.length_replicate]; exact hdelay), List.length_replicate, List.nil_append]
  · rw [List.take_append_of_le_length (by rw [List.length_replicate]; omega), List.drop_eq_nil_of_le (by rw [List.length_take, List.length_replicate]; omega)]
    rw [show input.length - userEnd = 0 by omega]
    simp

end Iamf.Props
