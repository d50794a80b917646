import Verif.Props.EncoderOutput
/-
  C46: the life cycle of an encoder.
-/
namespace Iamf.Props
open Iamf

variable {L : EncoderLib} {P : EncoderParts} {σ : Type} {K : Sink σ} {linear : Int16 → Rat}

/-! ### Making frames -/

theorem frames_keep {e e1 : IamfEncoder L P σ} {rank : UInt32 × Label → Nat} {fs : List (GenFrame × List UInt8)}
    {d m : BlockGenerator × TimingModule × List BlockWithData} {g : FrameGenerator L.State} (hm : MadeFrames linear e e1 rank fs d m g) :
    e1.generator.order = e.generator.order ∧ (e.generator.phase ≠ .taking → e1.generator.phase ≠ .taking) ∧
    (∀ i, e.generator.encoders i = none → e1.generator.encoders i = none) ∧ ((∀ i ∈ e.generator.order, e.generator.encoders i = none) → fs = []) ∧
    (e.finalizeCalled = false → e.generator.phase = .taking → e1.generator.phase = .taking) := by
  obtain ⟨fss1, o1, o2⟩ := output_calls hm.fed hm.output
  obtain ⟨k1, k2, k3, k4, k5, k6⟩ := calls_keep _ o1
  refine ⟨k1, k2, k4, fun hg => ?_, fun hc hp => k6 ?_ hp⟩
  · have := k5 hg
    have hnil : fss1.filter (fun x => !x.isEmpty) = [] := by
      rw [List.filter_eq_nil_iff]
      intro x hx
      simp [this x hx]
    rw [hnil] at o2
    cases fs with
    | nil => rfl
    | cons a b => simp at o2
  · intro c hcm
    rw [hc] at hcm
    simp only [Bool.false_eq_true, if_false, List.append_nil, List.mem_append, List.mem_map, List.mem_singleton] at hcm
    rcases hcm with (⟨x, -, rfl⟩ | ⟨x, -, rfl⟩) | rfl <;> simp

theorem not_generating_iff (e : IamfEncoder L P σ) : e.generating = false ↔
    e.generator.phase ≠ .taking ∧ (∀ i ∈ e.generator.order, e.generator.encoders i = none) ∧ e.timed = [] := by
  unfold IamfEncoder.generating FrameGenerator.takingSamples FrameGenerator.generatingFrames
  simp only [Bool.or_eq_false_iff, decide_eq_false_iff_not, List.any_eq_false, Option.not_isSome_iff_eq_none, Bool.not_eq_false', List.isEmpty_iff]
  exact ⟨fun h => ⟨h.1.1, h.1.2, h.2⟩, fun h => ⟨⟨h.1, h.2.1⟩, h.2.2⟩⟩

theorem ended_iff (e : IamfEncoder L P σ) : ended e = true ↔ e.finalizeCalled = true ∧ e.generating = false := by
  unfold ended
  simp

/-! ### One call -/

/-- What is known about an encoder at any time. -/
structure Settled (e : IamfEncoder L P σ) : Prop where
  mixes : e.mixesFinalized = ended e
  sequencers : e.sequencersFinalized = ended e
  phase : e.finalizeCalled = false → e.generator.phase = .taking ∨ e.generator.order = []

/-- What a call does to the state of an encoder. -/
structure Moves (c : IamfEncoderCall) (a : IamfEncoderAnswer) (e e' : IamfEncoder L P σ) : Prop where
  called : e'.finalizeCalled = (e.finalizeCalled || c.isFinal)
  stops : e.generating = false → e'.generating = false
  taking : e.finalizeCalled = false → e.generator.phase = .taking → e'.generator.phase = .taking
  after : ended e = true → e'.others = e.others ∧ e'.streaming = e.streaming ∧ e'.sequence = e.sequence ∧ ∀ rank buffer, c = .output rank buffer → a = .unit buffer

private theorem of_ends {e e' : IamfEncoder L P σ} (h : Settled e) (hE : Finishes e e') (hm : ended e = true → ended e' = true)
    (hp : e'.finalizeCalled = false → e'.generator.phase = .taking ∨ e'.generator.order = []) : Settled e' := by
  refine ⟨?_, ?_, hp⟩
  · rw [hE.mixes, h.mixes]
    cases he : ended e with
    | false => rfl
    | true => rw [hm he]; rfl
  · rw [hE.sequencers, h.sequencers]
    cases he : ended e with
    | false => rfl
    | true => rw [hm he]; rfl

private theorem nothing_accepted {e e' : IamfEncoder L P σ} (h : AllAccept K [] e e') : e'.others = e.others ∧ e'.streaming = e.streaming := by
  obtain ⟨h1, h2⟩ := h
  refine ⟨?_, accepts_nil h2⟩
  clear h2
  generalize e.others = as at h1
  generalize e'.others = bs at h1
  induction h1 with
  | nil => rfl
  | cons hx _ ih => rw [accepts_nil hx, ih]

theorem call_sane {e e' : IamfEncoder L P σ} (h : Settled e) {c : IamfEncoderCall} {a : IamfEncoderAnswer} (hc : e.call K linear c = .ok (a, e')) :
    Settled e' ∧ Moves c a e e' := by
  cases c with
  | encode u =>
    have key : ∃ b x, e' = { e with blocks := b, cached := x } := by
      simp only [IamfEncoder.call] at hc
      unfold IamfEncoder.encode at hc
      obtain ⟨⟨r, g'⟩, hr⟩ : ∃ x, IamfEncoder.addBlocks u.blocks e.blocks = x := ⟨_, rfl⟩
      rw [hr] at hc
      cases r with
      | error x =>
        simp only [Except.ok.injEq, Prod.mk.injEq] at hc
        exact ⟨g', e.cached, hc.2.symm⟩
      | ok u' =>
        cases hf : e.finalizeCalled with
        | true =>
          simp only [hf, if_true, Except.ok.injEq, Prod.mk.injEq] at hc
          exact ⟨g', e.cached, by rw [← hc.2]⟩
        | false =>
          simp only [hf, Bool.false_eq_true, if_false, Except.ok.injEq, Prod.mk.injEq] at hc
          exact ⟨g', _, by rw [← hc.2]⟩
    obtain ⟨b, x, rfl⟩ := key
    exact ⟨⟨h.mixes, h.sequencers, h.phase⟩, ⟨by simp [IamfEncoderCall.isFinal], fun h => h, fun _ h => h, fun _ => ⟨rfl, rfl, rfl, fun _ _ h => (by cases h)⟩⟩⟩
  | finalizeEncode =>
    simp only [IamfEncoder.call, bind, except_ok, Except.ok.injEq, Prod.mk.injEq] at hc
    obtain ⟨e1, h1, rfl, rfl⟩ := hc
    unfold IamfEncoder.finalizeEncode at h1
    cases hc : e.finalizeCalled with
    | true =>
      rw [if_pos hc, Except.ok.injEq] at h1
      subst h1
      exact ⟨h, by simp [hc], fun h => h, fun _ h => h, fun _ => ⟨rfl, rfl, rfl, fun _ _ h => (by cases h)⟩⟩
    | false =>
      rw [if_neg (by rw [hc]; decide)] at h1
      simp only at h1
      obtain ⟨e0, he0⟩ : ∃ x : IamfEncoder L P σ, x = { e with finalizeCalled := true } := ⟨_, rfl⟩
      rw [← he0] at h1
      have i0 : e0.generator = e.generator ∧ e0.finalizeCalled = true ∧
          e0.timed = e.timed ∧ e0.sequence = e.sequence ∧ e0.mixesFinalized = e.mixesFinalized ∧
          e0.sequencersFinalized = e.sequencersFinalized := by
        subst he0; exact ⟨rfl, rfl, rfl, rfl, rfl, rfl⟩
      clear he0
      obtain ⟨i1, i2, i3, i4, i5, i6⟩ := i0
      have step : SameInside e0 e1 ∧ Finishes e0 e1 := by
        cases hg : e0.generating with
        | true =>
          rw [hg, if_pos rfl, Except.ok.injEq] at h1
          subst h1
          exact ⟨.refl _, (going_parts (e := e0) (by unfold ended; rw [hg, Bool.not_true, Bool.and_false])).1⟩
        | false =>
          rw [hg, if_neg (by decide)] at h1
          simp only [bind, except_ok] at h1
          obtain ⟨e2, h2, h3⟩ := h1
          obtain ⟨a, b, -⟩ := end_parts i2 hg (by rw [i5, i6, h.mixes, h.sequencers]) h2 h3
          exact ⟨a, b⟩
      obtain ⟨s1, s2⟩ := step
      have hne : ended e = false := by unfold ended; rw [hc]; rfl
      have hcalled : e1.finalizeCalled = true := s1.finalizeCalled.trans i2
      refine ⟨of_ends h (.of i4 i5 i6 s2) (fun he => (by rw [hne] at he; cases he)) (fun hf => (by rw [hcalled] at hf; cases hf)), ?_, fun hg => ?_, fun _ hp => ?_,
        fun he => (by rw [hne] at he; cases he)⟩
      · rw [hcalled]; simp [IamfEncoderCall.isFinal]
      · rw [not_generating_iff] at hg ⊢
        rw [s1.generator, s1.timed, i1, i3]; exact hg
      · rw [s1.generator, i1]; exact hp
  | output rank buffer =>
    simp only [IamfEncoder.call, bind, except_ok, Except.ok.injEq, Prod.mk.injEq] at hc
    obtain ⟨⟨b, e3⟩, h3, rfl, rfl⟩ := hc
    obtain ⟨e1, fs, d, m, g, hm, hr⟩ := outputUnit_parts h3
    obtain ⟨r1, r2, r3, r4, r5, r6, r7, r8, r9, r10⟩ := id hm.rest
    obtain ⟨k1, k2, k3, k4, k5⟩ := frames_keep hm
    have hf : e1.mixesFinalized = e1.sequencersFinalized := by rw [r9, r10, h.mixes, h.sequencers]
    have hphase : e1.finalizeCalled = false → e1.generator.phase = .taking ∨ (e1.generator.order = [] ∧ fs = []) := by
      intro hc
      rw [r8] at hc
      rcases h.phase hc with hp | ho
      · exact .inl (k5 hc hp)
      · exact .inr ⟨k1.trans ho, k4 fun i hi => (by rw [ho] at hi; cases hi)⟩
    rcases hr with ⟨rfl, hw⟩ | ⟨f, l, rfl, hw⟩
    · have hn := withoutFrames_parts hw hf
      obtain ⟨i1, i2, i3, i4, i5, i6, i7, i8, i9⟩ := hn.inside
      have hstop : e.generating = false → e3.generating = false := by
        intro hg
        rw [not_generating_iff] at hg ⊢
        obtain ⟨g1, g2, g3⟩ := hg
        refine ⟨by rw [i6]; exact k2 g1, fun i hi => ?_, ?_⟩
        · rw [i6] at hi ⊢; exact k3 i (g2 i (by rw [← k1]; exact hi))
        · rw [hn.timed, r2, g3]; cases e1.finalizeCalled <;> rfl
      have hcalled : e3.finalizeCalled = e.finalizeCalled := i9.trans r8
      have hmono : ended e = true → ended e3 = true := by
        intro he
        rw [ended_iff] at he ⊢
        exact ⟨by rw [hcalled]; exact he.1, hstop he.2⟩
      have hE : Finishes e e3 := .of r1 r9 r10 hn.ends
      refine ⟨of_ends h hE hmono (fun hc => by rw [i6]; exact (hphase (by rw [← i9]; exact hc)).imp (fun x => x) (fun x => x.1)),
        by rw [hcalled]; simp [IamfEncoderCall.isFinal], hstop, fun hc hp => by rw [i6]; exact k5 hc hp, fun he => ?_⟩
      have ht : e1.timed.takeFirst.1 = [] := by
        rw [ended_iff] at he
        rw [r2, ((not_generating_iff e).mp he.2).2.2]; rfl
      obtain ⟨n1, n2⟩ := hn.nothing (.inr ht)
      have hs3 := of_ends h hE hmono (fun hc => by rw [i6]; exact (hphase (by rw [← i9]; exact hc)).imp (fun x => x) (fun x => x.1))
      have hclosing : closing e1 e3 = [] := by
        unfold closing
        rw [r10, h.sequencers, he]; simp
      rw [hclosing] at n2
      obtain ⟨n3, n4⟩ := nothing_accepted n2
      refine ⟨n3.trans r6, n4.trans r7, ?_, fun rank' buffer' hb => ?_⟩
      · exact hE.same (by rw [h.mixes, he]; simp)
      · cases hb; rw [n1]
    · obtain ⟨a, r, hn⟩ := withFrames_parts hw hf (fun hc => by
        rcases hphase hc with h1 | h1
        · exact h1
        · cases h1.2)
      have hgen : e.generating = false → False := by
        intro hg
        have := k4 ((not_generating_iff e).mp hg).2.1
        cases this
      have hcalled : e3.finalizeCalled = e.finalizeCalled := hn.finalizeCalled.trans r8
      have hne : ended e = true → False := fun he => hgen ((ended_iff e).mp he).2
      have hE : Finishes e e3 := .of r1 r9 r10 hn.ends
      refine ⟨of_ends h hE (fun he => absurd he (fun h => hne h)) (fun hc => ?_), by rw [hcalled]; simp [IamfEncoderCall.isFinal],
        fun hg => absurd hg (fun h => hgen h), fun hc hp => by rw [hn.generator]; exact k5 hc hp, fun he => absurd he (fun h => hne h)⟩
      rw [hn.generator]
      exact (hphase (by rw [← hn.finalizeCalled]; exact hc)).imp (fun x => x) (fun x => x.1)

end Iamf.Props
