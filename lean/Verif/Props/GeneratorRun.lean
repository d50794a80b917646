import Verif.Props.GeneratorPop
/-
  Lemmas for C44: every call keeps the state in order.
-/
namespace Iamf.Props
open Iamf

/-! ### Putting frames out -/

/-- The rounds of an audio element: those for the blocks of samples that were given, then those that flush. -/
def Story (W : World) (G : History) (given : UInt32 → List (Label → Samples)) (flushing : Prop) : Prop :=
  ∀ x ∈ W.elements, ∀ ls, W.labels x.1 = some ls → ∃ R F, G.rounds x.1 = R ++ F ∧ List.Forall₂ (RoundOf W x ls) (given x.1) R ∧
    Flushed (W.spot x) R F ∧ (¬ flushing → F = [])

/-- The state between two calls, when `b` more blocks of samples may come. -/
structure Inv {L : EncoderLib} (C : EncoderSpec L) (W : World) (g : FrameGenerator L.State) (G : History) (given : UInt32 → List (Label → Samples))
    (b : Nat) : Prop where
  core : Core C W g G
  incomplete : Incomplete W G
  busy : ∀ x ∈ W.elements, Busy g x ((W.spot x).left (G.rounds x.1))
  room : g.phase ≠ .flushing → ∀ x ∈ W.elements, W.endTotal (W.spot x) (G.rounds x.1) + (W.spot x).n.toNat * (b + 1) < 4294967296
  space : g.phase = .flushing → ∀ x ∈ W.elements, Space W G x
  story : Story W G given (g.phase = .flushing)

theorem Space.fits {W : World} {G : History} {x : UInt32 × ElementWithData} (h : Space W G x) : W.endTotal (W.spot x) (G.rounds x.1) < 4294967296 := by
  unfold Space at h
  omega

private theorem isOver_erase {σ : Type} (m : IdMap (Encoder σ)) (i : UInt32) : isOver (FrameGenerator.eraseFinished m i) = isOver (m i) := by
  unfold FrameGenerator.eraseFinished
  cases m i with
  | none => rfl
  | some e =>
    simp only
    split
    next h => simp only [isOver, h]
    · rfl

theorem erase_core {L : EncoderLib} {C : EncoderSpec L} {W : World} {g : FrameGenerator L.State} {G : History} (h : Core C W g G) :
    Core C W ⟨g.labels, g.elements, g.order, FrameGenerator.eraseFinished g.encoders, g.samples, g.data, g.trimming, g.downMixing, g.parameters, g.timing,
      g.phase, g.delay⟩ G := by
  refine ⟨h.labels, h.elements, h.order, h.downMixing, h.safe, h.filed, h.mixes, h.even, fun x hx y hy => ?_, h.waits, h.before, fun x hx y hy => ?_, fun x hx y hy => ?_, h.fits⟩
  · cases h.stage x hx y hy with
    | opened ho =>
      refine .opened ⟨ho.data, ?_, ho.stamp, ho.trim⟩
      obtain ⟨e, he, hf, hs⟩ := ho.enc
      refine ⟨e, ?_, hf, hs⟩
      simp only [FrameGenerator.eraseFinished, he, Encoder.isFinished, hf, Bool.false_and, Bool.false_eq_true, if_false]
    | closed e a b c d fin f t =>
      cases hd : e.done with
      | nil =>
        refine .gone a b c ?_ (by rw [hd, List.append_nil] at f; exact f)
        simp only [FrameGenerator.eraseFinished, d, Encoder.isFinished, fin, hd, List.isEmpty_nil, Bool.and_true, if_true]
      | cons p q =>
        refine .closed e a b c ?_ fin f t
        simp only [FrameGenerator.eraseFinished, d, Encoder.isFinished, fin, hd, List.isEmpty_cons, Bool.and_false, Bool.false_eq_true, if_false]
    | gone a b c d f =>
      refine .gone a b c ?_ f
      simp only [FrameGenerator.eraseFinished, d]
  · simp only [isOver_erase]
    exact h.late x hx y hy
  · refine (h.out x hx y hy).trans ?_
    unfold World.outputs isLastFrame
    simp only [isOver_erase]

private theorem erase_some {σ : Type} (m : IdMap (Encoder σ)) (i : UInt32) (h : (FrameGenerator.eraseFinished m i).isSome) : (m i).isSome := by
  unfold FrameGenerator.eraseFinished at h
  cases hm : m i with
  | none => rw [hm] at h; exact h
  | some e => rfl

theorem Reports.mono {α : Type} {x : Except Err α} {Q R : α → Prop} (h : Reports x Q) (hr : ∀ a, Q a → R a) : Reports x R := by
  cases x with
  | error e => exact h
  | ok a => exact hr a h

open FrameGenerator in
/-- The second half of `OutputFrames`. -/
private theorem pop_half {L : EncoderLib} {C : EncoderSpec L} {W : World} (hW : Sane W) {g : FrameGenerator L.State} {G : History}
    {given : UInt32 → List (Label → Samples)} {b : Nat} (h : Inv C W g G given b) :
    Reports (do
      let (frames, g) ← (if (g.order.all fun i => match g.encoders i with
          | none => true
          | some e => e.framesAvailable) = true then popFrames g.order g else .ok ([], g))
      (.ok (frames, ⟨g.labels, g.elements, g.order, eraseFinished g.encoders, g.samples, g.data, g.trimming, g.downMixing, g.parameters, g.timing,
        g.phase, g.delay⟩) : Except Err (List (GenFrame × List UInt8) × FrameGenerator L.State))) fun y => ∃ G', Inv C W y.2 G' given b ∧
      y.2.phase = g.phase ∧ G'.pending = G.pending ∧ G'.rounds = G.rounds ∧
      (y.1 = [] ∨ y.1.map (fun f => f.1.substream) = W.order.filter fun i => (g.encoders i).isSome) ∧
      (∀ i, G'.out i = G.out i ++ y.1.filter fun f => f.1.substream = i) ∧
      (∀ i, G'.before i = if g.phase = .flushing then G.before i else (G'.sent i).length) ∧
      ∀ i, (y.2.encoders i).isSome → (g.encoders i).isSome := by
  have hend : ∀ x ∈ W.elements, W.endTotal (W.spot x) (G.rounds x.1) < 4294967296 := by
    intro x hx
    by_cases hp : g.phase = .flushing
    · exact (h.space hp x hx).fits
    · have := h.room hp x hx; omega
  by_cases hc : (g.order.all fun i => match g.encoders i with
      | none => true
      | some e => e.framesAvailable) = true
  · rw [if_pos hc, h.core.order]
    refine Reports.bind (pop_spec hW W.order g G hW.order.1 (fun _ => _root_.id) h.core h.busy hend fun i hi e he => ?_) ?_
    · rw [List.all_eq_true] at hc
      have := hc i (h.core.order ▸ hi)
      rw [he] at this
      intro hd
      simp [Encoder.framesAvailable, hd] at this
    · rintro ⟨fs, g1⟩ ⟨G1, k1, k2, k3, k4, k5, k6, k7, k8, k9⟩
      refine ⟨G1, ⟨erase_core k1, ?_, ?_, ?_, ?_, ?_⟩, k5, k3, k2, .inr k6, k7, k8, fun i hi => by rw [← k9 i]; exact erase_some _ i hi⟩
      · intro x hx ls hl k hk
        rw [k3] at hk
        exact h.incomplete x hx ls hl k hk
      · intro x hx hp y hy hd
        rw [k2]
        simp only at hd k4
        rw [k4] at hd
        exact h.busy x hx (k5 ▸ hp) y hy hd
      · intro hp x hx
        rw [k2]
        exact h.room (fun hc => hp (k5.trans hc)) x hx
      · intro hp x hx
        have := h.space (k5.symm.trans hp) x hx
        unfold Space at this ⊢
        rw [k2]; exact this
      · intro x hx ls hl
        obtain ⟨R, F, s1, s2, s3, s4⟩ := h.story x hx ls hl
        exact ⟨R, F, by rw [k2]; exact s1, s2, s3, fun hn => s4 fun hc => hn (k5.trans hc)⟩
  · rw [if_neg hc]
    refine ⟨G, ⟨erase_core h.core, h.incomplete, h.busy, h.room, h.space, h.story⟩, rfl, rfl, rfl, .inl rfl, fun i => (List.append_nil _).symm, fun i => ?_,
      fun i hi => erase_some _ i hi⟩
    split
    · rfl
    next hp => exact (h.core.before i).2 hp

open FrameGenerator in
theorem output_spec {L : EncoderLib} {C : EncoderSpec L} (F : Faithful L C) {W : World} (hW : Sane W) {g : FrameGenerator L.State} {G : History}
    {given : UInt32 → List (Label → Samples)} {b : Nat} (h : Inv C W g G given b) :
    Reports (g.outputFrames L W.linear) fun y => ∃ G', Inv C W y.2 G' given b ∧
      y.2.phase = (if g.phase = .taking then .taking else .flushing) ∧ (g.phase = .taking → G'.pending = G.pending ∧ G'.rounds = G.rounds) ∧
      (∀ x ∈ W.elements, ∃ R, G'.rounds x.1 = G.rounds x.1 ++ R) ∧
      (y.1 = [] ∨ y.1.map (fun f => f.1.substream) = W.order.filter fun i => (g.encoders i).isSome) ∧
      (∀ i, G'.out i = G.out i ++ y.1.filter fun f => f.1.substream = i) ∧
      (∀ i, G'.before i = if g.phase = .taking then (G'.sent i).length else G.before i) ∧
      ∀ i, (y.2.encoders i).isSome → (g.encoders i).isSome := by
  -- the end of the encoders
  have key : ∀ (g1 : FrameGenerator L.State) (G1 : History), Core C W g1 G1 → Incomplete W G1 → g1.phase = .flushing → (∀ x ∈ W.elements, Space W G1 x) →
      Story W G1 given True → Reports (finalizeEncoders L g1.order g1) fun g2 => Inv C W g2 G1 given b ∧ g2.phase = .flushing ∧
        ∀ i, (g2.encoders i).isSome = (g1.encoders i).isSome := by
    intro g1 G1 k1 k2 k3 k4 k5
    have := finalizeEncoders_spec F hW g1.order g1 (fun i hi => k1.order ▸ hi) k1 k3
    generalize finalizeEncoders L g1.order g1 = res at this ⊢
    cases res with
    | error e => exact this
    | ok g2 =>
      obtain ⟨m1, m2, -, m3, m4⟩ := this
      refine ⟨⟨m1, k2, fun x hx _ y hy hd => m4 x hx y hy (k1.order ▸ hW.in_order hx hy) hd, fun hn => absurd m2 hn, fun _ => k4, ?_⟩, m2, m3⟩
      intro x hx ls hl
      obtain ⟨R, F, s1, s2, s3, -⟩ := k5 x hx ls hl
      exact ⟨R, F, s1, s2, s3, fun hn => absurd m2 hn⟩
  have story : Story W G given True := by
    intro x hx ls hl
    obtain ⟨R, F, s1, s2, s3, -⟩ := h.story x hx ls hl
    exact ⟨R, F, s1, s2, s3, fun hn => absurd trivial hn⟩
  unfold outputFrames
  cases hp : g.phase with
  | taking =>
    show Reports ((if g.phase = .flushing then finalizeEncoders L g.order g else .ok g).bind _) _
    rw [if_neg (by rw [hp]; exact nofun)]
    refine Reports.mono (pop_half hW h) ?_
    rintro y ⟨G', k1, k2, k3, kr, k4, k5, k6, k7⟩
    rw [hp] at k2 k6
    exact ⟨G', k1, k2, fun _ => ⟨k3, kr⟩, fun x _ => ⟨[], by rw [kr, List.append_nil]⟩, k4, k5, k6, k7⟩
  | finalizeCalled =>
    simp only
    obtain ⟨g1, hg1⟩ : ∃ g1 : FrameGenerator L.State, g1 = ⟨g.labels, g.elements, g.order, g.encoders, g.samples, g.data, g.trimming, g.downMixing,
      g.parameters, g.timing, .flushing, g.delay⟩ := ⟨_, rfl⟩
    rw [← hg1]
    have hcore : Core C W g1 G := by
      rw [hg1]
      refine ⟨h.core.labels, h.core.elements, h.core.order, h.core.downMixing, h.core.safe, h.core.filed, h.core.mixes, h.core.even, fun x hx y hy => ?_, h.core.waits, fun i => ?_,
        h.core.late, h.core.out, h.core.fits⟩
      · exact (h.core.stage x hx y hy).transport rfl rfl rfl rfl fun _ => rfl
      · exact ⟨(h.core.before i).1, fun hc => absurd rfl hc⟩
    have hph : g1.phase = .flushing := by rw [hg1]
    have hnf : g.phase ≠ .flushing := by rw [hp]; exact nofun
    have hsp : ∀ x ∈ W.elements, Space W G x := by
      intro x hx
      have := h.room hnf x hx
      unfold Space
      have h2 : (W.spot x).n.toNat * (b + 1) = (W.spot x).n.toNat * b + (W.spot x).n.toNat := Nat.mul_succ _ _
      split <;> omega
    show Reports ((if g1.phase = .flushing then finalizeEncoders L g1.order g1 else .ok g1).bind _) _
    rw [if_pos hph]
    refine Reports.bind (key g1 G hcore h.incomplete hph hsp story) fun g2 hg2 => ?_
    refine Reports.mono (pop_half hW hg2.1) ?_
    rintro y ⟨G', k1, k2, k3, kr, k4, k5, k6, k7⟩
    refine ⟨G', k1, by rw [k2, hg2.2.1]; rfl, fun hc => (by cases hc), fun x _ => ⟨[], by rw [kr, List.append_nil]⟩, ?_, k5, fun i => ?_, fun i hi => by
      have := k7 i hi
      rw [hg2.2.2 i, hg1] at this
      exact this⟩
    · rcases k4 with k4 | k4
      · exact .inl k4
      · right
        rw [k4]
        refine List.filter_congr fun i _ => ?_
        rw [hg2.2.2 i, hg1]
    · rw [k6 i, if_pos hg2.2.1]; rfl
  | flushing =>
    simp only [h.core.elements]
    have hsp := h.space hp
    refine Reports.bind (flush_spec F hW W.elements g G (fun _ => _root_.id) hW.keys h.core hp h.incomplete h.busy hsp) ?_
    rintro g1 ⟨G1, k1, k2, k3, k4, k5, k6, k7, k8, k9⟩
    show Reports ((if g1.phase = .flushing then finalizeEncoders L g1.order g1 else .ok g1).bind _) _
    rw [if_pos k2]
    refine Reports.bind (key g1 G1 k1 k3 k2 k4 ?_) fun g2 hg2 => ?_
    · intro x hx ls hl
      obtain ⟨R, F, s1, s2, s3, -⟩ := story x hx ls hl
      obtain ⟨F', t1, t2⟩ := k5 x hx
      refine ⟨R, F ++ F', by rw [t1, s1, List.append_assoc], s2, ?_, fun hn => absurd trivial hn⟩
      rw [flushed_append]
      exact ⟨s3, s1 ▸ t2⟩
    · refine Reports.mono (pop_half hW hg2.1) ?_
      rintro y ⟨G', m1, m2, m3, mr, m4, m5, m6, m7⟩
      refine ⟨G', m1, by rw [m2, hg2.2.1]; rfl, fun hc => (by cases hc), fun x hx => (by
        obtain ⟨F', t1, -⟩ := k5 x hx
        exact ⟨F', by rw [mr]; exact t1⟩), ?_, fun i => by rw [m5, k7], fun i => ?_, fun i hi => by
        have := m7 i hi
        rw [hg2.2.2 i, k9 i] at this
        exact this⟩
      · rcases m4 with m4 | m4
        · exact .inl m4
        · right
          rw [m4]
          refine List.filter_congr fun i _ => ?_
          rw [hg2.2.2 i, k9 i]
      · rw [m6 i, if_pos hg2.2.1, k8]; rfl

open FrameGenerator in
private theorem pop_parameters {σ : Type} (ids : List UInt32) : ∀ (g : FrameGenerator σ) (y : List (GenFrame × List UInt8) × FrameGenerator σ),
    popFrames ids g = .ok y → y.2.parameters = g.parameters := by
  induction ids with
  | nil => intro g y h; cases h; rfl
  | cons i ids ih =>
    intro g y h
    unfold popFrames at h
    cases he : g.encoders i with
    | none => rw [he] at h; exact ih g y h
    | some e =>
      rw [he] at h
      simp only at h
      split at h
      next f rest e' hpop =>
        split at h
        next t c ht hc =>
          cases ha : applyTrimming c.config.numSamplesPerFrame e'.isFinished t f.1 with
          | error er => rw [ha] at h; cases h
          | ok p =>
            rw [ha] at h
            obtain ⟨g1, hg1⟩ : ∃ g1 : FrameGenerator σ, g1 = ⟨g.labels, g.elements, g.order, g.encoders.set i e', g.samples, g.data,
              g.trimming.set i p.1, g.downMixing, g.parameters, g.timing, g.phase, g.delay⟩ := ⟨_, rfl⟩
            have h' : ((popFrames ids g1).bind fun z => .ok ((p.2, f.2) :: z.1, z.2)) = .ok y := by rw [hg1]; exact h
            cases hz : popFrames ids g1 with
            | error er => rw [hz] at h'; cases h'
            | ok z =>
              rw [hz] at h'
              have := Except.ok.inj h'
              rw [← this]
              exact (ih g1 z hz).trans (by rw [hg1])
        · cases h
      · cases h

open FrameGenerator in
theorem output_parameters {L : EncoderLib} {linear : Int16 → Rat} {g : FrameGenerator L.State} {y : List (GenFrame × List UInt8) × FrameGenerator L.State}
    (hp : g.phase = .taking) (h : g.outputFrames L linear = .ok y) : y.2.parameters = g.parameters := by
  unfold outputFrames at h
  rw [hp] at h
  have h' : ((if g.phase = .flushing then finalizeEncoders L g.order g else .ok g).bind fun g =>
    ((if (g.order.all fun i => match g.encoders i with
          | none => true
          | some e => e.framesAvailable) = true then popFrames g.order g else .ok ([], g)).bind fun z =>
      (.ok (z.1, ⟨z.2.labels, z.2.elements, z.2.order, eraseFinished z.2.encoders, z.2.samples, z.2.data, z.2.trimming, z.2.downMixing, z.2.parameters, z.2.timing,
        z.2.phase, z.2.delay⟩) : Except Err (List (GenFrame × List UInt8) × FrameGenerator L.State)))) = .ok y := h
  rw [if_neg (by rw [hp]; exact nofun)] at h'
  replace h' : ((if (g.order.all fun i => match g.encoders i with
          | none => true
          | some e => e.framesAvailable) = true then popFrames g.order g else .ok ([], g)).bind fun z =>
      (.ok (z.1, ⟨z.2.labels, z.2.elements, z.2.order, eraseFinished z.2.encoders, z.2.samples, z.2.data, z.2.trimming, z.2.downMixing, z.2.parameters, z.2.timing,
        z.2.phase, z.2.delay⟩) : Except Err (List (GenFrame × List UInt8) × FrameGenerator L.State))) = .ok y := h'
  split at h'
  · cases hz : popFrames g.order g with
    | error er => rw [hz] at h'; cases h'
    | ok z =>
      rw [hz] at h'
      rw [← Except.ok.inj h']
      exact pop_parameters _ g z hz
  · rw [← Except.ok.inj h']

end Iamf.Props
