import Verif.Props.GeneratorRun
/-
  Lemmas for C44: any list of calls.
-/
namespace Iamf.Props
open Iamf

/-! ### The blocks of samples in a list of calls -/

/-- Every label has samples, and all have equally many. -/
def FullBlock (ls : List Label) (p : Label → Samples) : Prop := ∀ l ∈ ls, (p l).length ≠ 0 ∧ ∀ l' ∈ ls, (p l).length = (p l').length

instance (ls : List Label) (p : Label → Samples) : Decidable (FullBlock ls p) := by unfold FullBlock; infer_instance

/-- The blocks of samples that are given for an audio element with these labels, until the end is announced.  `p` are the samples of a block
that is not complete. -/
def blocksOf (id : UInt32) (ls : List Label) : (Label → Samples) → List GeneratorCall → List (Label → Samples)
  | _, [] => []
  | p, .add e l s :: cs =>
    if e = id then
      if FullBlock ls (withSamples p l s) then withSamples p l s :: blocksOf id ls (fun _ => []) cs else blocksOf id ls (withSamples p l s) cs
    else blocksOf id ls p cs
  | _, .finalize :: _ => []
  | p, .output :: cs => blocksOf id ls p cs
  | p, .addDemixing _ :: cs => blocksOf id ls p cs

/-- The parameter block that each block of samples finds, until the end is announced: the last one with this parameter id, if any was added since the
block of samples before. -/
def demixingOf (id : UInt32) (parameter : Option UInt32) (ls : List Label) : (Label → Samples) → Option BlockWithData → List GeneratorCall →
    List (Option BlockWithData)
  | _, _, [] => []
  | p, w, .add e l s :: cs =>
    if e = id then
      if FullBlock ls (withSamples p l s) then w :: demixingOf id parameter ls (fun _ => []) none cs
      else demixingOf id parameter ls (withSamples p l s) w cs
    else demixingOf id parameter ls p w cs
  | _, _, .finalize :: _ => []
  | p, w, .output :: cs => demixingOf id parameter ls p w cs
  | p, w, .addDemixing b :: cs => demixingOf id parameter ls p (if some b.obu.parameterId = parameter then some b else w) cs

theorem demixingOf_length (id : UInt32) (parameter : Option UInt32) (ls : List Label) (cs : List GeneratorCall) :
    ∀ (p : Label → Samples) (w : Option BlockWithData), (demixingOf id parameter ls p w cs).length = (blocksOf id ls p cs).length := by
  induction cs with
  | nil => intro p w; rfl
  | cons c cs ih =>
    intro p w
    cases c with
    | add e l s =>
      unfold demixingOf blocksOf
      split
      · split
        · rw [List.length_cons, List.length_cons, ih]
        · exact ih _ _
      · exact ih _ _
    | finalize => rfl
    | output => exact ih _ _
    | addDemixing b => exact ih _ _

/-- The id of the demixing parameters of an audio element. -/
def demixingId (x : UInt32 × ElementWithData) : Option UInt32 := (demixingDefinition x.2.obu).map fun d => d.1.id

/-- The number of times samples are given. -/
def addCount : List GeneratorCall → Nat
  | [] => 0
  | .add _ _ _ :: cs => addCount cs + 1
  | _ :: cs => addCount cs

/-- How many calls come before the end is announced. -/
def callsBefore : List GeneratorCall → Nat
  | [] => 0
  | .finalize :: _ => 0
  | _ :: cs => callsBefore cs + 1

/-- Samples have a label that is listed for the audio element, and parameter blocks for demixing hold demixing data. -/
def CallOk (labels : IdMap (List Label)) : GeneratorCall → Prop
  | .add e l _ => ∀ ls, labels e = some ls → l ∈ ls
  | .addDemixing b => ∃ d rest, b.obu.subblocks = some (.demixing d) :: rest
  | _ => True

/-! ### Samples -/

theorem Inv.weaken {L : EncoderLib} {C : EncoderSpec L} {W : World} {g : FrameGenerator L.State} {G : History}
    {given : UInt32 → List (Label → Samples)} {b b' : Nat} (h : Inv C W g G given b) (hb : b' ≤ b) : Inv C W g G given b' := by
  refine ⟨h.core, h.incomplete, h.busy, fun hp x hx => ?_, h.space, h.story⟩
  have h1 := h.room hp x hx
  have h2 : (W.spot x).n.toNat * (b' + 1) ≤ (W.spot x).n.toNat * (b + 1) := Nat.mul_le_mul_left _ (by omega)
  omega

/-- Other samples wait. -/
def History.wait (G : History) (id : UInt32) (p : Label → Samples) : History :=
  ⟨G.rounds, G.sent, G.out, fun i => if i = id then p else G.pending i, G.before⟩

/-- What samples do to the blocks that were given, and to those that wait. -/
def BlocksAfter (ls : List Label) (p : Label → Samples) (bs : List (Label → Samples)) (p' : Label → Samples) (bs' : List (Label → Samples)) : Prop :=
  if FullBlock ls p then bs' = bs ++ [p] ∧ p' = fun _ => [] else bs' = bs ∧ p' = p

private theorem lookup_in {α : Type} {m : List (UInt32 × α)} {i : UInt32} {a : α} (h : m.lookup i = some a) : (i, a) ∈ m := by
  induction m with
  | nil => cases h
  | cons x m ih =>
    obtain ⟨j, b⟩ := x
    rw [List.lookup_cons] at h
    split at h
    next he =>
      rw [beq_iff_eq] at he
      rw [Option.some.injEq] at h
      rw [he, ← h]; simp
    · exact List.mem_cons_of_mem _ (ih h)

open FrameGenerator in
theorem add_spec {L : EncoderLib} {C : EncoderSpec L} (F : Faithful L C) {W : World} (hW : Sane W) {g : FrameGenerator L.State} {G : History}
    {given : UInt32 → List (Label → Samples)} {b : Nat} (h : Inv C W g G given (b + 1)) (hp : g.phase = .taking) (e : UInt32) (l : Label) (s : Samples)
    (hl : ∀ ls, W.labels e = some ls → l ∈ ls) :
    Reports (g.addSamples L W.linear e l s) fun g' => ∃ G' given', Inv C W g' G' given' b ∧ g'.phase = .taking ∧ G'.out = G.out ∧ G'.sent = G.sent ∧
      G'.before = G.before ∧ (∀ i, (g'.encoders i).isSome = (g.encoders i).isSome) ∧
      (∀ x ∈ W.elements, ∀ ls, W.labels x.1 = some ls →
        if x.1 = e then BlocksAfter ls (withSamples (G.pending x.1) l s) (given x.1) (G'.pending x.1) (given' x.1)
        else given' x.1 = given x.1 ∧ G'.pending x.1 = G.pending x.1) ∧
      ∀ x ∈ W.elements, OwnBlocks W x → ∀ ls, W.labels x.1 = some ls →
        if x.1 = e ∧ FullBlock ls (withSamples (G.pending x.1) l s) then (G'.rounds x.1).map Round.demixing =
          (G.rounds x.1).map Round.demixing ++ [waitingBlock g.parameters x.1] ∧ waitingBlock g'.parameters x.1 = none
        else G'.rounds x.1 = G.rounds x.1 ∧ waitingBlock g'.parameters x.1 = waitingBlock g.parameters x.1 := by
  have hnf : g.phase ≠ .flushing := by rw [hp]; exact nofun
  unfold addSamples
  rw [if_neg (by simp [hp])]
  by_cases hs : s.isEmpty = true
  · rw [if_pos hs]; rfl
  rw [if_neg hs, h.core.labels]
  have hsl : s.length ≠ 0 := by
    intro hc
    exact hs (List.isEmpty_iff.mpr (List.length_eq_zero_iff.mp hc))
  cases hls : W.labels e with
  | none => rfl
  | some ls =>
    have hlm := hl ls hls
    simp only [h.core.elements]
    cases hlk : W.elements.lookup e with
    | none => rfl
    | some el =>
      simp only
      have hx : (e, el) ∈ W.elements := lookup_in hlk
      obtain ⟨p, hpd⟩ : ∃ p, p = withSamples (G.pending e) l s := ⟨_, rfl⟩
      obtain ⟨g1, hg1⟩ : ∃ g1 : FrameGenerator L.State, g1 = ⟨W.labels, some W.elements, g.order, g.encoders,
        g.samples.set e (((g.samples e).getD []).set l s), g.data, g.trimming, g.downMixing, g.parameters, g.timing, g.phase, g.delay⟩ := ⟨_, rfl⟩
      rw [← hg1]
      have hsam : g1.samples e = some (((g.samples e).getD []).set l s) := by rw [hg1]; exact if_pos rfl
      have hsam' : ∀ i, i ≠ e → g1.samples i = g.samples i := fun i hi => by rw [hg1]; exact if_neg hi
      have hwait := waits_set (h.core.waits (e, el) hx ls hls) hlm s
      rw [← hpd] at hwait
      have hcore : Core C W g1 (G.wait e p) := by
        refine ⟨by rw [hg1], by rw [hg1], by rw [hg1]; exact h.core.order, by rw [hg1]; exact h.core.downMixing, by rw [hg1]; exact h.core.safe, by rw [hg1]; exact h.core.filed, by rw [hg1]; exact h.core.mixes,
          h.core.even, fun x hx y hy => ?_, fun x hx' ls' hl' => ?_, by rw [hg1]; exact h.core.before, by rw [hg1]; exact h.core.late,
          by rw [hg1]; exact h.core.out, h.core.fits⟩
        · rw [hg1]
          exact (h.core.stage x hx y hy).transport rfl rfl rfl rfl _root_.id
        · by_cases he : x.1 = e
          · have hxx : x = (e, el) := hW.same_id hx hx' he
            subst hxx
            rw [hls, Option.some.injEq] at hl'
            subst hl'
            simp only [History.wait, if_true, hsam, Option.getD_some]
            exact hwait
          · simp only [History.wait, if_neg he, hsam' x.1 he]
            exact h.core.waits x hx' ls' hl'
      have hroom := h.room hnf (e, el) hx
      have hmul : (W.spot (e, el)).n.toNat * (b + 1 + 1) = (W.spot (e, el)).n.toNat * (b + 1) + (W.spot (e, el)).n.toNat := Nat.mul_succ _ _
      refine Reports.mono (maybe_spec F hW hcore hx hls fun _ => ?_) ?_
      · show W.endTotal _ (G.rounds e) + _ < _
        simp only at hroom
        omega
      · rintro g' ⟨hph, hes, hcase⟩
        have hph' : g'.phase = .taking := by rw [hph, hg1]; exact hp
        have hnf' : g'.phase ≠ .flushing := by rw [hph']; exact nofun
        have hes' : ∀ i, (g'.encoders i).isSome = (g.encoders i).isSome := fun i => by rw [hes i, hg1]
        have hpend : (G.wait e p).pending e = p := if_pos rfl
        have hpl : p l = s := by rw [hpd]; exact if_pos rfl
        simp only at hcase hpend
        rw [hpend] at hcase
        rw [hsam] at hcase
        simp only [Option.getD_some] at hcase
        have hpar : g1.parameters = g.parameters := by rw [hg1]
        rcases hcase with ⟨hgg, hno⟩ | ⟨-, -, -, hzero⟩ | ⟨r, hcr, hr, -, -, hd1, hd2, hd3⟩
        · -- not complete
          have hnb : ¬ FullBlock ls p := by
            intro hf
            refine hno ⟨s.length, fun l' hl' => ?_⟩
            have h1 := hwait.values l' hl'
            have h2 := hf l' hl'
            have h3 := (hf l hlm).2 l' hl'
            rw [hpl] at h3
            cases hm : List.lookup l' (((g.samples e).getD []).set l s) with
            | none => rw [hm] at h1; simp only [Option.getD_none] at h1; rw [← h1] at h2; exact absurd rfl h2.1
            | some t => rw [hm] at h1; simp only [Option.getD_some] at h1; exact ⟨t, rfl, by rw [h1]; exact h3.symm⟩
          subst hgg
          refine ⟨G.wait e p, given, ⟨hcore, ?_, fun x hx hc => absurd hc hnf', fun _ x hx => ?_, fun hc => absurd hc hnf', ?_⟩, hph', rfl, rfl, rfl, hes', ?_, ?_⟩
          · intro x hx' ls' hl' k hk
            by_cases he : x.1 = e
            · simp only [History.wait, if_pos he] at hk
              have hl2 : W.labels e = some ls' := he ▸ hl'
              rw [hls, Option.some.injEq] at hl2
              subst hl2
              refine Decidable.byContradiction fun hk0 => hnb fun l1 h1 => ⟨by rw [hk l1 h1]; exact hk0, fun l2 h2 => by rw [hk l1 h1, hk l2 h2]⟩
            · simp only [History.wait, if_neg he] at hk
              exact h.incomplete x hx' ls' hl' k hk
          · exact (h.weaken (Nat.le_succ b)).room hnf x hx
          · intro x hx ls' hl'
            obtain ⟨R, F', s1, s2, s3, s4⟩ := h.story x hx ls' hl'
            exact ⟨R, F', s1, s2, s3, fun _ => s4 hnf⟩
          · intro x hx' ls' hl'
            split
            next he =>
              have hl2 : W.labels e = some ls' := he ▸ hl'
              rw [hls, Option.some.injEq] at hl2
              subst hl2
              unfold BlocksAfter
              rw [he, ← hpd, if_neg hnb]
              exact ⟨rfl, hpend⟩
            next he => exact ⟨rfl, if_neg he⟩
          · intro x hx' hown ls' hl'
            rw [if_neg]
            · exact ⟨rfl, by rw [hpar]⟩
            · rintro ⟨he, hf⟩
              have hl2 : W.labels e = some ls' := he ▸ hl'
              rw [hls, Option.some.injEq] at hl2
              subst hl2
              rw [he, ← hpd] at hf
              exact hnb hf
        · exact absurd (hpl ▸ hzero l hlm) hsl
        · -- complete
          have hfb : FullBlock ls p := by
            intro l1 h1
            refine ⟨?_, fun l2 h2 => by rw [hr.ticks l1 h1, hr.ticks l2 h2]⟩
            rw [hr.ticks l1 h1, ← hr.ticks l hlm, hpl]
            exact hsl
          obtain ⟨G1, hG1⟩ : ∃ G1, G1 = (G.wait e p).round e r := ⟨_, rfl⟩
          have hro : G1.rounds e = G.rounds e ++ [r] := by rw [hG1]; exact if_pos rfl
          have hro' : ∀ i, i ≠ e → G1.rounds i = G.rounds i := fun i hi => by rw [hG1]; exact if_neg hi
          have hpe : G1.pending e = fun _ => [] := by rw [hG1]; exact if_pos rfl
          have hpe' : ∀ i, i ≠ e → G1.pending i = G.pending i := fun i hi => by
            rw [hG1]
            show (if i = e then _ else (if i = e then _ else _)) = _
            rw [if_neg hi, if_neg hi]
          obtain ⟨given', hgv⟩ : ∃ given' : UInt32 → List (Label → Samples), given' = fun i => if i = e then given i ++ [p] else given i := ⟨_, rfl⟩
          have hgv1 : given' e = given e ++ [p] := by rw [hgv]; exact if_pos rfl
          have hgv2 : ∀ i, i ≠ e → given' i = given i := fun i hi => by rw [hgv]; exact if_neg hi
          refine ⟨G1, given', ⟨hG1 ▸ hcr, ?_, fun x hx hc => absurd hc hnf', fun _ x hx' => ?_, fun hc => absurd hc hnf', ?_⟩, hph', by rw [hG1]; rfl,
            by rw [hG1]; rfl, by rw [hG1]; rfl, hes', ?_, ?_⟩
          · intro x hx' ls' hl' k hk
            by_cases he : x.1 = e
            · rw [he, hpe] at hk
              obtain ⟨ls2, hls2, hne2⟩ := (hW.element x hx').listed
              rw [hl', Option.some.injEq] at hls2
              subst hls2
              obtain ⟨l1, hl1⟩ := List.exists_mem_of_ne_nil _ hne2
              exact (hk l1 hl1).symm
            · rw [hpe' _ he] at hk
              exact h.incomplete x hx' ls' hl' k hk
          · by_cases he : x.1 = e
            · have hxx : x = (e, el) := hW.same_id hx hx' he
              subst hxx
              simp only at hroom
              show W.endTotal _ (G1.rounds e) + _ < _
              rw [hro]
              have := endTotal_append W (W.spot (e, el)) (G.rounds e) r
              omega
            · rw [hro' _ he]
              exact (h.weaken (Nat.le_succ b)).room hnf x hx'
          · intro x hx' ls' hl'
            obtain ⟨R, F', s1, s2, s3, s4⟩ := h.story x hx' ls' hl'
            have hF := s4 hnf
            subst hF
            by_cases he : x.1 = e
            · have hxx : x = (e, el) := hW.same_id hx hx' he
              subst hxx
              rw [hls, Option.some.injEq] at hl'
              subst hl'
              refine ⟨R ++ [r], [], ?_, ?_, trivial, fun _ => rfl⟩
              · simp only at s1 ⊢
                rw [hro, s1]; simp
              · simp only at s2 ⊢
                rw [hgv1]
                exact List.rel_append s2 (List.Forall₂.cons hr .nil)
            · rw [hro' _ he, hgv2 _ he]
              exact ⟨R, [], s1, s2, s3, fun _ => rfl⟩
          · intro x hx' ls' hl'
            split
            next he =>
              have hl2 : W.labels e = some ls' := he ▸ hl'
              rw [hls, Option.some.injEq] at hl2
              subst hl2
              unfold BlocksAfter
              rw [he, ← hpd, if_pos hfb]
              exact ⟨hgv1, hpe⟩
            next he => exact ⟨hgv2 _ he, hpe' _ he⟩
          · intro x hx' hown ls' hl'
            by_cases he : x.1 = e
            · have hxx : x = (e, el) := hW.same_id hx hx' he
              subst hxx
              rw [hls, Option.some.injEq] at hl'
              subst hl'
              rw [if_pos ⟨rfl, by rw [← hpd]; exact hfb⟩]
              simp only at hd1 hd2 ⊢
              rw [hro, List.map_append, List.map_singleton, hd1, hpar]
              exact ⟨rfl, hd2⟩
            · rw [if_neg fun hc => he hc.1, hro' _ he]
              refine ⟨rfl, ?_⟩
              rw [hd3 x hx' (fun hc => he (by rw [hc])) hown, hpar]

/-! ### All calls -/

theorem finalize_spec {L : EncoderLib} {C : EncoderSpec L} {W : World} {g : FrameGenerator L.State} {G : History}
    {given : UInt32 → List (Label → Samples)} {b : Nat} (h : Inv C W g G given b) : Inv C W g.finalize G given b := by
  have hf : g.finalize.phase = .flushing ↔ g.phase = .flushing := by
    unfold FrameGenerator.finalize
    cases g.phase <;> simp
  refine ⟨⟨h.core.labels, h.core.elements, h.core.order, h.core.downMixing, h.core.safe, h.core.filed, h.core.mixes, h.core.even, fun x hx y hy => ?_, h.core.waits, fun i => ?_,
    h.core.late, h.core.out, h.core.fits⟩, h.incomplete, fun x hx hp => h.busy x hx (hf.mp hp), fun hp => h.room fun hc => hp (hf.mpr hc), fun hp => h.space (hf.mp hp), ?_⟩
  · exact (h.core.stage x hx y hy).transport rfl rfl rfl rfl hf.mpr
  · exact ⟨(h.core.before i).1, fun hp => (h.core.before i).2 fun hc => hp (hf.mpr hc)⟩
  · intro x hx ls hl
    obtain ⟨R, F, s1, s2, s3, s4⟩ := h.story x hx ls hl
    exact ⟨R, F, s1, s2, s3, fun hn => s4 fun hc => hn (hf.mpr hc)⟩

theorem out_length {L : EncoderLib} {C : EncoderSpec L} {W : World} {g : FrameGenerator L.State} {G : History} (h : Core C W g G)
    {x : UInt32 × ElementWithData} (hx : x ∈ W.elements) {y : UInt32 × List Label} (hy : y ∈ x.2.data.labels) :
    (G.out y.1).length = (G.sent y.1).length := by
  rw [h.out x hx y hy]
  unfold World.outputs
  rw [List.length_mapIdx]

/-- The frames of a substream. -/
def ofSubstream (i : UInt32) (fs : List (GenFrame × List UInt8)) : List (GenFrame × List UInt8) := fs.filter fun f => f.1.substream = i

theorem ofSubstream_append (i : UInt32) (a b : List (GenFrame × List UInt8)) : ofSubstream i (a ++ b) = ofSubstream i a ++ ofSubstream i b :=
  List.filter_append ..

/-- Each call puts out nothing or one frame for each substream, except those that have ended before. -/
def LockStep (order : List UInt32) (alive : UInt32 → Prop) : List (List (GenFrame × List UInt8)) → Prop
  | [] => True
  | fs :: fss => (fs.map fun f => f.1.substream).Sublist order ∧ (∀ f ∈ fs, alive f.1.substream) ∧ (fs ≠ [] → ∀ i ∈ order, alive i →
      i ∈ fs.map fun f => f.1.substream) ∧
      ∃ alive', (∀ i, alive' i → alive i) ∧ LockStep order alive' fss

/-- What a call does to the phase. -/
def phaseStep (p : GeneratorPhase) : GeneratorCall → GeneratorPhase
  | .finalize => if p = .taking then .finalizeCalled else p
  | .output => if p = .taking then .taking else .flushing
  | _ => p

/-- What a list of calls does to the phase. -/
def phaseAfter : GeneratorPhase → List GeneratorCall → GeneratorPhase
  | p, [] => p
  | p, c :: cs => phaseAfter (phaseStep p c) cs

private theorem reports_self {α : Type} {x : Except Err α} {Q : α → Prop} (h : Reports x Q) : Reports x fun a => x = .ok a ∧ Q a := by
  cases x with
  | error e => exact h
  | ok a => exact ⟨rfl, h⟩

/-- Each round for a block of samples had the parameter block that was waiting. -/
def Demixings {σ : Type} (W : World) (g : FrameGenerator σ) (G G' : History) (calls : List GeneratorCall) : Prop :=
  ∀ x ∈ W.elements, OwnBlocks W x → ∀ ls, W.labels x.1 = some ls → ∃ more, (G'.rounds x.1).map Round.demixing = (G.rounds x.1).map Round.demixing ++
    ((if g.phase = .taking then demixingOf x.1 (demixingId x) ls (G.pending x.1) (waitingBlock g.parameters x.1) calls else []) ++ more)

theorem run_spec {L : EncoderLib} {C : EncoderSpec L} (F : Faithful L C) {W : World} (hW : Sane W) (calls : List GeneratorCall) :
    ∀ (g : FrameGenerator L.State) (G : History) (given : UInt32 → List (Label → Samples)), Inv C W g G given (addCount calls) →
    (∀ c ∈ calls, CallOk W.labels c) → (∀ blk, .addDemixing blk ∈ calls → W.added blk) →
    Reports (g.calls L W.linear calls) fun y => ∃ G' given', Inv C W y.2 G' given' 0 ∧
      (∀ i, G'.out i = G.out i ++ ofSubstream i y.1.flatten) ∧
      (∀ x ∈ W.elements, ∀ ls, W.labels x.1 = some ls → given' x.1 = given x.1 ++ if g.phase = .taking then blocksOf x.1 ls (G.pending x.1) calls else []) ∧
      (∀ x ∈ W.elements, ∀ z ∈ x.2.data.labels, G'.before z.1 =
        if g.phase = .taking then (G.out z.1).length + (ofSubstream z.1 (y.1.take (callsBefore calls)).flatten).length else G.before z.1) ∧
      LockStep W.order (fun i => (g.encoders i).isSome) y.1 ∧ y.2.phase = phaseAfter g.phase calls ∧
      Demixings W g G G' calls := by
  induction calls with
  | nil =>
    intro g G given h _ _
    refine ⟨G, given, h, fun i => (List.append_nil _).symm, fun x hx ls hl => ?_, fun x hx z hz => ?_, trivial, rfl, fun x hx _ ls hl => ⟨[], ?_⟩⟩
    · simp [blocksOf]
    · split
      next hp => rw [(h.core.before z.1).2 (by rw [hp]; exact nofun), out_length h.core hx hz]; simp [callsBefore, ofSubstream]
      · rfl
    · simp [demixingOf]
  | cons c calls ih =>
    intro g G given h hok hadd
    have hadd' : ∀ blk, .addDemixing blk ∈ calls → W.added blk := fun blk hb => hadd blk (by simp [hb])
    have hok' : ∀ c ∈ calls, CallOk W.labels c := fun c hc => hok c (by simp [hc])
    -- a call that puts nothing out
    have quiet : ∀ (g1 : FrameGenerator L.State) (G1 : History) (given1 : UInt32 → List (Label → Samples)),
        Inv C W g1 G1 given1 (addCount calls) → G1.out = G.out → G1.before = G.before → (∀ i, (g1.encoders i).isSome = (g.encoders i).isSome) →
        (g.phase ≠ .taking → g1.phase ≠ .taking) → (g.phase = .taking → g1.phase ≠ .taking → callsBefore (c :: calls) = 0) →
        (g1.phase = .taking → callsBefore (c :: calls) = callsBefore calls + 1) → g1.phase = phaseStep g.phase c →
        (∀ x ∈ W.elements, ∀ ls, W.labels x.1 = some ls → given1 x.1 ++ (if g1.phase = .taking then blocksOf x.1 ls (G1.pending x.1) calls else []) =
          given x.1 ++ if g.phase = .taking then blocksOf x.1 ls (G.pending x.1) (c :: calls) else []) →
        (∀ x ∈ W.elements, OwnBlocks W x → ∀ ls, W.labels x.1 = some ls → (G1.rounds x.1).map Round.demixing ++
          (if g1.phase = .taking then demixingOf x.1 (demixingId x) ls (G1.pending x.1) (waitingBlock g1.parameters x.1) calls else []) =
          (G.rounds x.1).map Round.demixing ++
          if g.phase = .taking then demixingOf x.1 (demixingId x) ls (G.pending x.1) (waitingBlock g.parameters x.1) (c :: calls) else []) →
        Reports ((g1.calls L W.linear calls).bind fun z => .ok ([] :: z.1, z.2)) fun y => ∃ G' given', Inv C W y.2 G' given' 0 ∧
          (∀ i, G'.out i = G.out i ++ ofSubstream i y.1.flatten) ∧
          (∀ x ∈ W.elements, ∀ ls, W.labels x.1 = some ls →
            given' x.1 = given x.1 ++ if g.phase = .taking then blocksOf x.1 ls (G.pending x.1) (c :: calls) else []) ∧
          (∀ x ∈ W.elements, ∀ z ∈ x.2.data.labels, G'.before z.1 = if g.phase = .taking then (G.out z.1).length +
            (ofSubstream z.1 (y.1.take (callsBefore (c :: calls))).flatten).length else G.before z.1) ∧
          LockStep W.order (fun i => (g.encoders i).isSome) y.1 ∧ y.2.phase = phaseAfter g.phase (c :: calls) ∧
          Demixings W g G G' (c :: calls) := by
      intro g1 G1 given1 h1 ho hb he hp hp2 hp3 hph hblocks hdem
      refine Reports.bind (ih g1 G1 given1 h1 hok' hadd') ?_
      rintro ⟨fss, g2⟩ ⟨G2, given2, k1, k2, k3, k4, k5, k6, k7⟩
      refine ⟨G2, given2, k1, fun i => ?_, fun x hx ls hl => ?_, fun x hx z hz => ?_, ?_, by rw [phaseAfter, ← hph]; exact k6, fun x hx hown ls hl => ?_⟩
      · rw [k2 i, ho]; rfl
      · rw [k3 x hx ls hl]; exact hblocks x hx ls hl
      · rw [k4 x hx z hz, ho, hb]
        by_cases hg : g.phase = .taking
        · rw [if_pos hg]
          by_cases hg1 : g1.phase = .taking
          · rw [if_pos hg1, hp3 hg1]
            rfl
          · rw [if_neg hg1, hp2 hg hg1, (h.core.before z.1).2 (by rw [hg]; exact nofun), out_length h.core hx hz]
            simp [ofSubstream]
        · rw [if_neg hg, if_neg (hp hg)]
      · refine ⟨List.nil_sublist _, fun f hf => (by cases hf), fun hc => absurd rfl hc, fun i => (g1.encoders i).isSome, fun i hi => ?_, k5⟩
        simp only at hi ⊢
        rw [← he i]; exact hi
      · obtain ⟨more, hm⟩ := k7 x hx hown ls hl
        refine ⟨more, ?_⟩
        rw [hm, ← List.append_assoc, hdem x hx hown ls hl, List.append_assoc]
    cases c with
    | add e l s =>
      have hcall : g.calls L W.linear (.add e l s :: calls) =
          (g.addSamples L W.linear e l s).bind fun g1 => (g1.calls L W.linear calls).bind fun z => .ok ([] :: z.1, z.2) := by
        rw [FrameGenerator.calls, FrameGenerator.call]
        cases g.addSamples L W.linear e l s <;> rfl
      rw [hcall]
      by_cases hp : g.phase = .taking
      · refine Reports.bind (add_spec F hW (b := addCount calls) h hp e l s (hok (.add e l s) (by simp))) ?_
        rintro g1 ⟨G1, given1, k1, k2, k3, k4, k5, k6, k7, k8⟩
        refine quiet g1 G1 given1 k1 k3 k5 k6 (fun hc => absurd hp hc) (fun _ hc => absurd k2 hc) (fun _ => rfl) (k2.trans hp.symm) (fun x hx ls hl => ?_)
          fun x hx hown ls hl => ?_
        rotate_left
        · rw [if_pos k2, if_pos hp]
          have h1 := k7 x hx ls hl
          have h2 := k8 x hx hown ls hl
          have hb : demixingOf x.1 (demixingId x) ls (G.pending x.1) (waitingBlock g.parameters x.1) (.add e l s :: calls) = if e = x.1 then
              if FullBlock ls (withSamples (G.pending x.1) l s) then
                waitingBlock g.parameters x.1 :: demixingOf x.1 (demixingId x) ls (fun _ => []) none calls
              else demixingOf x.1 (demixingId x) ls (withSamples (G.pending x.1) l s) (waitingBlock g.parameters x.1) calls
            else demixingOf x.1 (demixingId x) ls (G.pending x.1) (waitingBlock g.parameters x.1) calls := rfl
          rw [hb]
          by_cases he : x.1 = e
          · rw [if_pos he] at h1
            rw [if_pos he.symm]
            unfold BlocksAfter at h1
            by_cases hf : FullBlock ls (withSamples (G.pending x.1) l s)
            · rw [if_pos hf] at h1 ⊢
              rw [if_pos ⟨he, hf⟩] at h2
              rw [h2.1, h2.2, h1.2, List.append_assoc]; rfl
            · rw [if_neg hf] at h1 ⊢
              rw [if_neg fun hc => hf hc.2] at h2
              rw [h2.1, h2.2, h1.2]
          · rw [if_neg he] at h1
            rw [if_neg (Ne.symm he)]
            rw [if_neg fun hc => he hc.1] at h2
            rw [h2.1, h2.2, h1.2]
        rw [if_pos k2, if_pos hp]
        have := k7 x hx ls hl
        have hb : blocksOf x.1 ls (G.pending x.1) (.add e l s :: calls) = if e = x.1 then
            if FullBlock ls (withSamples (G.pending x.1) l s) then withSamples (G.pending x.1) l s :: blocksOf x.1 ls (fun _ => []) calls
            else blocksOf x.1 ls (withSamples (G.pending x.1) l s) calls
          else blocksOf x.1 ls (G.pending x.1) calls := rfl
        rw [hb]
        by_cases he : x.1 = e
        · rw [if_pos he] at this
          rw [if_pos he.symm]
          unfold BlocksAfter at this
          by_cases hf : FullBlock ls (withSamples (G.pending x.1) l s)
          · rw [if_pos hf] at this ⊢
            rw [this.1, this.2]; simp
          · rw [if_neg hf] at this ⊢
            rw [this.1, this.2]
        · rw [if_neg he] at this
          rw [if_neg (Ne.symm he), this.1, this.2]
      · have hadd : g.addSamples L W.linear e l s = .ok g := by
          unfold FrameGenerator.addSamples
          rw [if_pos hp]
        rw [hadd]
        refine quiet g G given (h.weaken (Nat.le_succ _)) rfl rfl (fun _ => rfl) _root_.id (fun a b => absurd a b) (fun _ => rfl) rfl
          (fun x hx ls hl => ?_) fun x hx hown ls hl => ?_
        · rw [if_neg hp, if_neg hp]
        · rw [if_neg hp, if_neg hp]
    | finalize =>
      have hcall : g.calls L W.linear (.finalize :: calls) = (g.finalize.calls L W.linear calls).bind fun z => .ok ([] :: z.1, z.2) := by
        rw [FrameGenerator.calls, FrameGenerator.call]
        rfl
      rw [hcall]
      have hnt : g.finalize.phase ≠ .taking := by
        unfold FrameGenerator.finalize
        cases g.phase <;> simp
      refine quiet g.finalize G given (finalize_spec h) rfl rfl (fun _ => rfl) (fun _ => hnt) (fun _ _ => rfl) (fun hc => absurd hc hnt) rfl
        (fun x hx ls hl => ?_) fun x hx hown ls hl => ?_
      · rw [if_neg hnt, show blocksOf x.1 ls (G.pending x.1) (.finalize :: calls) = [] from rfl, ite_self]
      · rw [if_neg hnt, show ∀ w, demixingOf x.1 (demixingId x) ls (G.pending x.1) w (.finalize :: calls) = [] from fun _ => rfl, ite_self]
    | addDemixing blk =>
      obtain ⟨g1, hg1⟩ : ∃ g1 : FrameGenerator L.State, g1 = ⟨g.labels, g.elements, g.order, g.encoders, g.samples, g.data, g.trimming, g.downMixing,
        g.parameters.addDemixing blk, g.timing, g.phase, g.delay⟩ := ⟨_, rfl⟩
      have hcall : g.calls L W.linear (.addDemixing blk :: calls) = (g1.calls L W.linear calls).bind fun z => .ok ([] :: z.1, z.2) := by
        rw [FrameGenerator.calls, FrameGenerator.call, hg1]
        rfl
      rw [hcall]
      have hinv : Inv C W g1 G given (addCount calls) := by
        rw [hg1]
        refine ⟨⟨h.core.labels, h.core.elements, h.core.order, h.core.downMixing,
          addDemixing_safe h.core.safe blk (hok (.addDemixing blk) (by simp)), add_filed h.core.filed (hadd blk (by simp)),
          fun x hx => ⟨(h.core.mixes x hx).1.congr rfl, (h.core.mixes x hx).2⟩, h.core.even, fun x hx y hy => ?_, h.core.waits, h.core.before,
          h.core.late, h.core.out, h.core.fits⟩, h.incomplete, h.busy, h.room, h.space, h.story⟩
        exact (h.core.stage x hx y hy).transport rfl rfl rfl rfl _root_.id
      refine quiet g1 G given hinv rfl rfl (fun i => by rw [hg1]) (by rw [hg1]; exact _root_.id) (by rw [hg1]; exact fun a b => absurd a b)
        (fun _ => rfl) (by rw [hg1]; rfl) (fun x hx ls hl => ?_) fun x hx hown ls hl => ?_
      · rw [hg1]
        rfl
      · have hw : waitingBlock g1.parameters x.1 = if some blk.obu.parameterId = demixingId x then some blk else waitingBlock g.parameters x.1 := by
          rw [hg1]
          exact add_waiting g.parameters blk (h.core.mixes x hx).1
        rw [hw, hg1]
        rfl
    | output =>
      have hcall : g.calls L W.linear (.output :: calls) =
          (g.outputFrames L W.linear).bind fun w => (w.2.calls L W.linear calls).bind fun z => .ok (w.1 :: z.1, z.2) := by
        rw [FrameGenerator.calls, FrameGenerator.call]
        rfl
      rw [hcall]
      have hpar : ∀ y, g.outputFrames L W.linear = .ok y → g.phase = .taking → y.2.parameters = g.parameters := fun y hy hp => output_parameters hp hy
      have hspec := output_spec F hW (b := addCount calls) h
      generalize g.outputFrames L W.linear = res at hpar hspec ⊢
      refine Reports.bind (reports_self hspec) ?_
      rintro ⟨fs, g1⟩ ⟨hres, G1, k1, k2, k3, kr, k4, k5, k6, k7⟩
      have hpar1 := hpar _ hres
      simp only at k1 k2 k4 k5 k7 hpar1
      refine Reports.bind (ih g1 G1 given k1 hok' hadd') ?_
      rintro ⟨fss, g2⟩ ⟨G2, given2, m1, m2, m3, m4, m5, m6, m7⟩
      have hphase : g1.phase = .taking ↔ g.phase = .taking := by
        rw [k2]; split
        next hp => simp [hp]
        next hp => simp [hp]
      simp only at m1 m2 m3 m4 m5 m6
      refine ⟨G2, given2, m1, fun i => ?_, fun x hx ls hl => ?_, fun x hx z hz => ?_, ?_, by rw [phaseAfter, phaseStep, ← k2]; exact m6, fun x hx hown ls hl => ?_⟩
      · rw [m2 i, k5 i, List.flatten_cons, ofSubstream_append, List.append_assoc]; rfl
      · rw [m3 x hx ls hl]
        by_cases hp : g.phase = .taking
        · rw [if_pos hp, if_pos (hphase.mpr hp), (k3 hp).1]; rfl
        · rw [if_neg hp, if_neg fun hc => hp (hphase.mp hc)]
      · rw [m4 x hx z hz]
        by_cases hp : g.phase = .taking
        · rw [if_pos hp, if_pos (hphase.mpr hp), k5 z.1]
          show _ = _ + (ofSubstream z.1 (List.take (callsBefore calls + 1) (fs :: fss)).flatten).length
          rw [List.take_succ_cons, List.flatten_cons, ofSubstream_append, List.length_append, List.length_append]
          show _ + (ofSubstream z.1 fs).length + _ = _
          omega
        · rw [if_neg hp, if_neg fun hc => hp (hphase.mp hc), k6 z.1, if_neg hp]
      · have hmem : ∀ i ∈ fs.map (fun f => f.1.substream), (g.encoders i).isSome := by
          intro i hi
          rcases k4 with k4 | k4
          · rw [k4] at hi; cases hi
          · rw [k4, List.mem_filter] at hi; exact hi.2
        refine ⟨?_, fun f hf => hmem _ (List.mem_map_of_mem (f := fun f : GenFrame × List UInt8 => f.1.substream) hf), fun hne i hi ha => ?_,
          fun i => (g1.encoders i).isSome, k7, m5⟩
        · rcases k4 with k4 | k4
          · rw [k4]; exact List.nil_sublist _
          · rw [k4]; exact List.filter_sublist
        · rcases k4 with k4 | k4
          · exact absurd k4 hne
          · rw [k4, List.mem_filter]; exact ⟨hi, ha⟩
      · obtain ⟨more, hm⟩ := m7 x hx hown ls hl
        by_cases hp : g.phase = .taking
        · refine ⟨more, ?_⟩
          rw [hm, if_pos hp, if_pos (hphase.mpr hp), (k3 hp).1, (k3 hp).2, hpar1 hp]; rfl
        · obtain ⟨R, hR⟩ := kr x hx
          rw [if_neg fun hc => hp (hphase.mp hc)] at hm
          refine ⟨R.map Round.demixing ++ more, ?_⟩
          rw [hm, if_neg hp, hR]; simp

end Iamf.Props
