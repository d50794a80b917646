import Verif.Props.Encoder
import Verif.Props.GeneratorLpcm
/-
  Towards C48: what the frame generator gets when the encoder is used in a loop.
-/
namespace Iamf.Props
open Iamf

/-! ### The loop -/

/-- A turn of the loop: a block of samples for every channel, the order in which the encoder iterates over its map of samples, and the vector for the
result. -/
structure Turn where
  block : Label → Samples
  rank : UInt32 × Label → Nat
  buffer : List UInt8

/-- The data for a temporal unit: samples for all channels of one audio element, and no parameter blocks. -/
def soundOf (i : UInt32) (labels : List Label) (b : Label → Samples) : UnitInput := ⟨[], labels.map fun l => ((i, l), b l)⟩

/-- How an encoder is used: `Encode` and `OutputTemporalUnit` in turns, maybe a last block, `FinalizeEncode`, and more calls of
`OutputTemporalUnit`. -/
def encoderLoop (i : UInt32) (labels : List Label) (turns : List Turn) (last : Option (Label → Samples))
    (outs : List ((UInt32 × Label → Nat) × List UInt8)) : List IamfEncoderCall :=
  turns.flatMap (fun t => [.encode (soundOf i labels t.block), .output t.rank t.buffer]) ++
    (last.toList.map (fun b => .encode (soundOf i labels b)) ++ (.finalizeEncode :: outs.map fun o => .output o.1 o.2))

/-- The blocks of samples, silent in channels that are not listed. -/
def blocksIn (labels : List Label) (turns : List Turn) (last : Option (Label → Samples)) : List (Label → Samples) :=
  (turns.map Turn.block ++ last.toList).map fun b l => if l ∈ labels then b l else []

/-! ### Blocks of samples -/

private theorem blocks_adds_aux (i : UInt32) (labels : List Label) (b : Label → Samples) (hb : ∀ l ∈ labels, ∀ l' ∈ labels, (b l).length = (b l').length)
    (hne : ∀ l ∈ labels, b l ≠ []) (rest : List GeneratorCall) : ∀ (todo : List Label), todo ≠ [] → todo.Nodup → (∀ l ∈ todo, l ∈ labels) → ∀ p : Label → Samples,
      (∀ l, p l = if l ∈ labels ∧ l ∉ todo then b l else []) →
      blocksOf i labels p (todo.map (fun l => .add i l (b l)) ++ rest) = (fun l => if l ∈ labels then b l else []) :: blocksOf i labels (fun _ => []) rest := by
  intro todo
  induction todo with
  | nil => intro h; exact absurd rfl h
  | cons a todo ih =>
    intro _ hnd hsub p hp
    rw [List.nodup_cons] at hnd
    have hw : ∀ l, withSamples p a (b a) l = if l ∈ labels ∧ l ∉ todo then b l else [] := by
      intro l
      unfold withSamples
      by_cases hl : l = a
      · subst hl
        rw [if_pos rfl, if_pos ⟨hsub l List.mem_cons_self, hnd.1⟩]
      · rw [if_neg hl, hp l]
        have : (l ∈ labels ∧ l ∉ a :: todo) ↔ (l ∈ labels ∧ l ∉ todo) := by
          simp only [List.mem_cons, not_or]
          exact ⟨fun h => ⟨h.1, h.2.2⟩, fun h => ⟨h.1, hl, h.2⟩⟩
        simp only [this]
    rw [List.map_cons, List.cons_append, blocksOf, if_pos rfl]
    cases todo with
    | nil =>
      have hfull : FullBlock labels (withSamples p a (b a)) := by
        intro l hl
        have e : ∀ k ∈ labels, withSamples p a (b a) k = b k := fun k hk => by rw [hw k, if_pos ⟨hk, by simp⟩]
        rw [e l hl]
        exact ⟨fun hc => hne l hl (List.length_eq_zero_iff.mp hc), fun l' hl' => by rw [e l' hl']; exact hb l hl l' hl'⟩
      rw [if_pos hfull]
      congr 1
      funext l
      rw [hw l]
      simp only [List.not_mem_nil, not_false_eq_true, and_true]
    | cons a' todo =>
      have hnot : ¬ FullBlock labels (withSamples p a (b a)) := by
        intro hc
        have := (hc a' (hsub a' (by simp))).1
        rw [hw a', if_neg (by simp)] at this
        exact this rfl
      rw [if_neg hnot]
      exact ih (by simp) hnd.2 (fun l hl => hsub l (List.mem_cons_of_mem _ hl)) _ hw

/-- Samples for all channels, in any order, are a block. -/
theorem blocks_adds (i : UInt32) (labels : List Label) (hn : labels ≠ []) (b : Label → Samples)
    (hb : ∀ l ∈ labels, ∀ l' ∈ labels, (b l).length = (b l').length) (hne : ∀ l ∈ labels, b l ≠ []) (rest : List GeneratorCall)
    (perm : List Label) (hp : perm.Perm labels) (hnd : labels.Nodup) :
    blocksOf i labels (fun _ => []) (perm.map (fun l => .add i l (b l)) ++ rest) =
      (fun l => if l ∈ labels then b l else []) :: blocksOf i labels (fun _ => []) rest := by
  refine blocks_adds_aux i labels b hb hne rest perm (fun hc => ?_) (hp.nodup_iff.mpr hnd) (fun l hl => hp.mem_iff.mp hl) _ (fun l => ?_)
  · rw [hc] at hp; exact hn (List.nil_perm.mp hp)
  · rw [if_neg]; rintro ⟨h1, h2⟩; exact h2 (hp.mem_iff.mpr h1)

/-! ### Events -/

variable {L : EncoderLib} {P : EncoderParts} {σ : Type}

/-- What is left to do is as if there were no earlier calls. -/
private theorem fed_labels {i : UInt32} {labels : List Label} (hnd : labels.Nodup) {b : Label → Samples} (hne : ∀ l ∈ labels, b l ≠ [])
    {fed : List ((UInt32 × Label) × Samples)}
    (h : LatestOf ((soundOf i labels b).samples.filter fun x => !x.2.isEmpty) fed) :
    ∃ perm : List Label, perm.Perm labels ∧ fed = perm.map fun l => ((i, l), b l) := by
  have hall : ((soundOf i labels b).samples.filter fun x => !x.2.isEmpty) = labels.map fun l => ((i, l), b l) := by
    refine List.filter_eq_self.mpr fun x hx => ?_
    obtain ⟨l, hl, rfl⟩ := List.mem_map.mp hx
    simpa using hne l hl
  rw [hall] at h
  have hmem : ∀ k s, (k, s) ∈ fed ↔ ∃ l ∈ labels, k = (i, l) ∧ s = b l := by
    intro k s
    rw [h.latest]
    constructor
    · intro hl
      have := List.mem_of_getLast? hl
      obtain ⟨h1, -⟩ := List.mem_filter.mp this
      obtain ⟨l, h2, h3⟩ := List.mem_map.mp h1
      injection h3 with h3 h4
      exact ⟨l, h2, h3.symm, h4.symm⟩
    · rintro ⟨l, hl, rfl, rfl⟩
      have hone : (labels.map fun l => ((i, l), b l)).filter (fun x => x.1 = (i, l)) = [((i, l), b l)] := by
        clear hall h hne fed
        induction labels with
        | nil => cases hl
        | cons a labels ih =>
          rw [List.nodup_cons] at hnd
          rw [List.map_cons, List.filter_cons]
          by_cases hal : a = l
          · subst hal
            rw [if_pos (by simp)]
            have : (labels.map fun l => ((i, l), b l)).filter (fun x => x.1 = (i, a)) = [] := by
              refine List.filter_eq_nil_iff.mpr fun x hx => ?_
              obtain ⟨k, hk, rfl⟩ := List.mem_map.mp hx
              simp only [decide_eq_true_eq, Prod.mk.injEq, true_and]
              rintro rfl
              exact hnd.1 hk
            rw [this]
          · rw [if_neg (by simpa using hal)]
            exact ih hnd.2 ((List.mem_cons.mp hl).resolve_left fun hc => hal hc.symm)
      rw [hone]
      rfl
  refine ⟨fed.map fun x => x.1.2, ?_, ?_⟩
  · refine (List.perm_ext_iff_of_nodup ?_ hnd).mpr fun l => ?_
    · have := h.once
      refine List.pairwise_map.mpr ((List.pairwise_map.mp this).imp_of_mem fun {x y} hx hy hne he => hne ?_)
      obtain ⟨l1, -, e1, -⟩ := (hmem x.1 x.2).mp hx
      obtain ⟨l2, -, e2, -⟩ := (hmem y.1 y.2).mp hy
      rw [e1, e2] at he ⊢
      simp only at he
      rw [he]
    · rw [List.mem_map]
      constructor
      · rintro ⟨x, hx, rfl⟩
        obtain ⟨l, hl, e, -⟩ := (hmem x.1 x.2).mp hx
        rw [e]; exact hl
      · intro hl
        exact ⟨((i, l), b l), (hmem _ _).mpr ⟨l, hl, rfl, rfl⟩, rfl⟩
  · rw [List.map_map]
    refine (List.map_id fed).symm.trans (List.map_congr_left fun x hx => ?_)
    obtain ⟨l, -, e1, e2⟩ := (hmem x.1 x.2).mp hx
    obtain ⟨k, s⟩ := x
    simp only at e1 e2
    subst e1 e2
    rfl

/-- No parameter blocks are given. -/
private def Blockless (c : IamfEncoderCall) : Prop := ∀ u, c = .encode u → u.blocks = []

private theorem no_metadata {definitions : List (UInt32 × ParamEntry)} {evs : List EncoderEvent} (h : ∀ ev ∈ evs, Blockless ev.call) :
    metadataGiven definitions evs = [] := by
  have key : ∀ (evs : List EncoderEvent), (∀ ev ∈ evs, Blockless ev.call) → ∀ n, (evs.foldl (givenStep definitions) (n, [])).2 = [] := by
    intro evs
    induction evs with
    | nil => intro _ n; rfl
    | cons ev evs ih =>
      intro h n
      have hev : metadataTaken definitions ev.call = [] := by
        have := h ev List.mem_cons_self
        unfold metadataTaken
        cases hc : ev.call with
        | encode u => simp only [this u hc, List.takeWhile_nil]
        | finalizeEncode => rfl
        | output r b => rfl
      rw [List.foldl_cons]
      unfold givenStep
      rw [hev]
      exact ih (fun e he => h e (List.mem_cons_of_mem _ he)) _
  exact key evs h 0

private theorem handed_nothing {s : EncoderSetup L P σ} {definitions : List (UInt32 × ParamEntry)} {heard : List (UnitParts × P.Frames)}
    {before : List EncoderEvent} {ev : EncoderEvent} (h : ∀ ev ∈ before, Blockless ev.call)
    (hm : MadeOf s definitions heard .demixing (givenFor definitions .demixing before) ((unitsIn before).flatMap (·.demixing) ++ ev.handed)) :
    ev.handed = [] := by
  unfold givenFor at hm
  rw [no_metadata h] at hm
  unfold MadeOf at hm
  generalize hx : (unitsIn before).flatMap (·.demixing) ++ ev.handed = x at hm
  cases hm
  exact (List.append_eq_nil_iff.mp hx).2

/-- The generator calls of a turn. -/
private def addsOf (i : UInt32) (b : Label → Samples) (perm : List Label) : List GeneratorCall := perm.map fun l => .add i l (b l)

/-- The state of the specification after some events. -/
private structure After (definitions : List (UInt32 × ParamEntry)) (evs : List EncoderEvent) (finalized : Bool) (pending : List ((UInt32 × Label) × Samples))
    (G : List GeneratorCall) : Prop where
  blockless : ∀ ev ∈ evs, Blockless ev.call
  pending : evs.foldl (pendingStep definitions) (false, []) = (finalized, pending)
  generator : evs.foldl generatorStep (false, []) = (finalized, G)

private theorem After.encode {definitions : List (UInt32 × ParamEntry)} {evs : List EncoderEvent} {G : List GeneratorCall} (h : After definitions evs false [] G)
    {ev : EncoderEvent} {i : UInt32} {labels : List Label} {b : Label → Samples} (hc : ev.call = .encode (soundOf i labels b)) :
    After definitions (evs ++ [ev]) false ((soundOf i labels b).samples.filter fun x => !x.2.isEmpty) G where
  blockless := by
    intro e he
    rcases List.mem_append.mp he with he | he
    · exact h.blockless e he
    · rw [List.mem_singleton] at he
      subst he
      intro u hu
      rw [hc] at hu
      cases hu
      rfl
  pending := by
    rw [List.foldl_append, h.pending, List.foldl_cons, List.foldl_nil]
    unfold pendingStep
    rw [hc]
    simp only [Bool.false_or, List.nil_append]
    rw [if_neg (by simp [allKnown, soundOf])]
  generator := by
    rw [List.foldl_append, h.generator, List.foldl_cons, List.foldl_nil]
    unfold generatorStep EncoderEvent.generatorCalls
    rw [hc]
    simp [IamfEncoderCall.isFinal]

private theorem After.finalize {definitions : List (UInt32 × ParamEntry)} {evs : List EncoderEvent} {G : List GeneratorCall} {fin : Bool}
    {pending : List ((UInt32 × Label) × Samples)} (h : After definitions evs fin pending G)
    {ev : EncoderEvent} (hc : ev.call = .finalizeEncode) : After definitions (evs ++ [ev]) true pending G where
  blockless := by
    intro e he
    rcases List.mem_append.mp he with he | he
    · exact h.blockless e he
    · rw [List.mem_singleton] at he
      subst he
      intro u hu
      rw [hc] at hu
      cases hu
  pending := by
    rw [List.foldl_append, h.pending, List.foldl_cons, List.foldl_nil]
    unfold pendingStep
    rw [hc]
  generator := by
    rw [List.foldl_append, h.generator, List.foldl_cons, List.foldl_nil]
    unfold generatorStep EncoderEvent.generatorCalls
    rw [hc]
    simp [IamfEncoderCall.isFinal]

private theorem After.output {definitions : List (UInt32 × ParamEntry)} {evs : List EncoderEvent} {G : List GeneratorCall} {fin : Bool}
    {pending : List ((UInt32 × Label) × Samples)} (h : After definitions evs fin pending G) {s : EncoderSetup L P σ} {heard : List (UnitParts × P.Frames)}
    {ev : EncoderEvent} {rank : UInt32 × Label → Nat} {buffer : List UInt8} (hc : ev.call = .output rank buffer) (hok : EventOk s definitions heard evs ev) :
    LatestOf pending ev.fed ∧
    After definitions (evs ++ [ev]) fin [] (G ++ (ev.fed.map (fun x => .add x.1.1 x.1.2 x.2) ++ (if fin then [.finalize] else []) ++ [.output])) := by
  unfold EventOk at hok
  rw [hc] at hok
  obtain ⟨h1, h2, -⟩ := hok
  have hh := handed_nothing h.blockless h1
  have hp : pendingSamples definitions evs = pending := by unfold pendingSamples; rw [h.pending]
  rw [hp] at h2
  refine ⟨h2, ?_, ?_, ?_⟩
  · intro e he
    rcases List.mem_append.mp he with he | he
    · exact h.blockless e he
    · rw [List.mem_singleton] at he
      subst he
      intro u hu
      rw [hc] at hu
      cases hu
  · rw [List.foldl_append, h.pending, List.foldl_cons, List.foldl_nil]
    unfold pendingStep
    rw [hc]
  · rw [List.foldl_append, h.generator, List.foldl_cons, List.foldl_nil]
    unfold generatorStep EncoderEvent.generatorCalls
    rw [hc, hh]
    simp [IamfEncoderCall.isFinal]

/-- Samples of all channels, of equally many samples. -/
def GoodBlock (labels : List Label) (b : Label → Samples) : Prop := (∀ l ∈ labels, ∀ l' ∈ labels, (b l).length = (b l').length) ∧ ∀ l ∈ labels, b l ≠ []

/-- What the generator gets in the turns. -/
def turnCalls (i : UInt32) (turns : List (Turn × List Label)) : List GeneratorCall :=
  turns.flatMap fun t => t.2.map (fun l => .add i l (t.1.block l)) ++ [.output]

private theorem latest_none {fed : List ((UInt32 × Label) × Samples)} (h : LatestOf [] fed) : fed = [] := by
  cases fed with
  | nil => rfl
  | cons x fed =>
    have := (h.latest x.1 x.2).mp List.mem_cons_self
    simp at this

private theorem turns_calls {s : EncoderSetup L P σ} {definitions : List (UInt32 × ParamEntry)} {heard : List (UnitParts × P.Frames)} {i : UInt32}
    {labels : List Label} (hnd : labels.Nodup) : ∀ (turns : List Turn), (∀ t ∈ turns, GoodBlock labels t.block) → ∀ (evs before after : List EncoderEvent)
      (G : List GeneratorCall), (∀ b ev a, before ++ evs ++ after = b ++ ev :: a → EventOk s definitions heard b ev) →
      evs.map (·.call) = turns.flatMap (fun t => [.encode (soundOf i labels t.block), .output t.rank t.buffer]) → After definitions before false [] G →
      ∃ tp : List (Turn × List Label), tp.map Prod.fst = turns ∧ (∀ t ∈ tp, t.2.Perm labels) ∧
        After definitions (before ++ evs) false [] (G ++ turnCalls i tp) := by
  intro turns
  induction turns with
  | nil =>
    intro _ evs before after G _ hc hA
    rw [List.flatMap_nil, List.map_eq_nil_iff] at hc
    subst hc
    exact ⟨[], rfl, fun t ht => (by cases ht), by simpa [turnCalls] using hA⟩
  | cons t turns ih =>
    intro hg evs before after G hok hc hA
    cases evs with
    | nil => simp at hc
    | cons e1 evs =>
      cases evs with
      | nil => simp at hc
      | cons e2 evs =>
        simp only [List.map_cons, List.flatMap_cons, List.cons_append, List.nil_append, List.cons.injEq] at hc
        obtain ⟨hc1, hc2, hc⟩ := hc
        have hA1 := hA.encode hc1
        obtain ⟨hl, hA2⟩ := hA1.output hc2 (hok (before ++ [e1]) e2 (evs ++ after) (by simp))
        obtain ⟨perm, hp, hfed⟩ := fed_labels hnd (hg t List.mem_cons_self).2 hl
        obtain ⟨tp, h1, h2, h3⟩ := ih (fun t ht => hg t (List.mem_cons_of_mem _ ht)) evs (before ++ [e1] ++ [e2]) after _
          (by intro b ev a h; exact hok b ev a (by rw [← h]; simp)) hc hA2
        refine ⟨(t, perm) :: tp, by rw [List.map_cons, h1], ?_, ?_⟩
        · intro x hx
          rcases List.mem_cons.mp hx with rfl | hx
          · exact hp
          · exact h2 x hx
        · have e1 : before ++ [e1] ++ [e2] ++ evs = before ++ e1 :: e2 :: evs := by simp
          rw [e1, hfed] at h3
          unfold turnCalls at h3 ⊢
          rw [List.flatMap_cons]
          simpa [List.map_map, Function.comp_def, List.append_assoc] using h3

/-- The rest of the calls. -/
private theorem outs_calls {s : EncoderSetup L P σ} {definitions : List (UInt32 × ParamEntry)} {heard : List (UnitParts × P.Frames)} :
    ∀ (outs : List ((UInt32 × Label → Nat) × List UInt8)) (evs before : List EncoderEvent) (G : List GeneratorCall),
      (∀ b ev a, before ++ evs = b ++ ev :: a → EventOk s definitions heard b ev) →
      evs.map (·.call) = outs.map (fun o => .output o.1 o.2) → After definitions before true [] G →
      After definitions (before ++ evs) true [] (G ++ outs.flatMap fun _ => [.finalize, .output]) := by
  intro outs
  induction outs with
  | nil =>
    intro evs before G _ hc hA
    rw [List.map_nil, List.map_eq_nil_iff] at hc
    subst hc
    simpa using hA
  | cons o outs ih =>
    intro evs before G hok hc hA
    cases evs with
    | nil => simp at hc
    | cons e evs =>
      simp only [List.map_cons, List.cons.injEq] at hc
      obtain ⟨hl, hA1⟩ := hA.output hc.1 (hok before e evs rfl)
      rw [latest_none hl] at hA1
      have := ih evs (before ++ [e]) _ (by intro b ev a h; exact hok b ev a (by rw [← h]; simp)) hc.2 hA1
      simpa using this

/-- What the generator gets in the loop. -/
theorem loop_calls {s : EncoderSetup L P σ} {definitions : List (UInt32 × ParamEntry)} {heard : List (UnitParts × P.Frames)} {i : UInt32}
    {labels : List Label} (hnd : labels.Nodup) {turns : List Turn} {last : Option (Label → Samples)} {outs : List ((UInt32 × Label → Nat) × List UInt8)}
    (hg : ∀ t ∈ turns, GoodBlock labels t.block) (hgl : ∀ b, last = some b → GoodBlock labels b) {evs : List EncoderEvent}
    (hok : ∀ b ev a, evs = b ++ ev :: a → EventOk s definitions heard b ev) (hc : evs.map (·.call) = encoderLoop i labels turns last outs)
    (hout : outs ≠ []) :
    finalizedIn evs = true ∧ (∀ ev ∈ evs, ∀ u, ev.call = .encode u → u.blocks = []) ∧
    ∃ (tp : List (Turn × List Label)) (lp : List Label), tp.map Prod.fst = turns ∧ (∀ t ∈ tp, t.2.Perm labels) ∧
      lp.Perm (if last.isSome then labels else []) ∧
      generatorCallsIn evs = turnCalls i tp ++ (lp.map (fun l => .add i l ((last.getD fun _ => []) l)) ++
        (.finalize :: .output :: outs.tail.flatMap fun _ => [.finalize, .output])) := by
  unfold encoderLoop at hc
  obtain ⟨evs1, evs', rfl, hc1, hc⟩ := List.map_eq_append_iff.mp hc
  obtain ⟨evs2, evs3, rfl, hc2, hc⟩ := List.map_eq_append_iff.mp hc
  obtain ⟨ef, evs3, rfl, hcf, hc⟩ := List.map_eq_cons_iff.mp hc
  obtain ⟨o, outs, rfl⟩ := List.exists_cons_of_ne_nil hout
  obtain ⟨eo, evs3, rfl, hco, hc⟩ := List.map_eq_cons_iff.mp hc
  obtain ⟨tp, h1, h2, hA⟩ := turns_calls (s := s) (definitions := definitions) (heard := heard) hnd turns hg evs1 [] (evs2 ++ ef :: eo :: evs3) []
    (by intro b ev a h; exact hok b ev a (by rw [← h]; simp)) hc1 ⟨fun ev he => (by cases he), rfl, rfl⟩
  rw [List.nil_append, List.nil_append] at hA
  obtain ⟨lp, hlp, hA2⟩ : ∃ lp : List Label, lp.Perm (if last.isSome then labels else []) ∧
      After definitions (evs1 ++ evs2 ++ [ef] ++ [eo]) true []
        (turnCalls i tp ++ (lp.map (fun l => .add i l ((last.getD fun _ => []) l)) ++ [.finalize, .output])) := by
    cases last with
    | none =>
      simp only [Option.toList_none, List.map_nil, List.map_eq_nil_iff] at hc2
      subst hc2
      rw [List.append_nil] at *
      obtain ⟨hl, hA1⟩ := (hA.finalize hcf).output hco (hok (evs1 ++ [ef]) eo evs3 (by simp))
      rw [latest_none hl] at hA1
      exact ⟨[], .refl _, by simpa using hA1⟩
    | some b =>
      simp only [Option.toList_some, List.map_cons, List.map_nil] at hc2
      obtain ⟨ee, e', rfl, hce, he'⟩ := List.map_eq_cons_iff.mp hc2
      rw [List.map_eq_nil_iff] at he'
      subst he'
      obtain ⟨hl, hA1⟩ := ((hA.encode hce).finalize hcf).output hco (hok (evs1 ++ [ee] ++ [ef]) eo evs3 (by simp))
      obtain ⟨perm, hp, hfed⟩ := fed_labels hnd (hgl b rfl).2 hl
      rw [hfed] at hA1
      exact ⟨perm, by simpa using hp, by simpa [List.map_map, Function.comp_def] using hA1⟩
  have hA3 := outs_calls (s := s) (heard := heard) outs evs3 _ _ (by intro b ev a h; exact hok b ev a (by rw [← h]; simp)) hc hA2
  have he : evs1 ++ evs2 ++ [ef] ++ [eo] ++ evs3 = evs1 ++ (evs2 ++ ef :: eo :: evs3) := by simp
  rw [he] at hA3
  refine ⟨?_, fun ev hev u hu => hA3.blockless ev hev u hu, tp, lp, h1, h2, hlp, ?_⟩
  · unfold finalizedIn
    rw [List.any_eq_true]
    exact ⟨ef, by simp, by rw [hcf]; rfl⟩
  · unfold generatorCallsIn
    rw [hA3.generator]
    simp

/-! ### What C44 asks about these calls -/

/-- The calls of the loop. -/
def loopCalls (i : UInt32) (tp : List (Turn × List Label)) (lp : List Label) (last : Label → Samples) (more : List GeneratorCall) : List GeneratorCall :=
  turnCalls i tp ++ (lp.map (fun l => .add i l (last l)) ++ (.finalize :: .output :: more))

private theorem addCount_append (as bs : List GeneratorCall) : addCount (as ++ bs) = addCount as + addCount bs := by
  induction as with
  | nil => simp [addCount]
  | cons a as ih =>
    cases a <;> simp only [List.cons_append, addCount, ih] <;> omega

private theorem addCount_adds (i : UInt32) (b : Label → Samples) (p : List Label) : addCount (p.map fun l => .add i l (b l)) = p.length := by
  induction p with
  | nil => rfl
  | cons a p ih => simp only [List.map_cons, addCount, ih, List.length_cons]

private theorem callsBefore_append (as bs : List GeneratorCall) (h : .finalize ∉ as) : callsBefore (as ++ bs) = as.length + callsBefore bs := by
  induction as with
  | nil => simp
  | cons a as ih =>
    rw [List.mem_cons, not_or] at h
    cases a with
    | finalize => exact absurd rfl h.1
    | add e l s => simp only [List.cons_append, callsBefore, ih h.2, List.length_cons]; omega
    | addDemixing b => simp only [List.cons_append, callsBefore, ih h.2, List.length_cons]; omega
    | output => simp only [List.cons_append, callsBefore, ih h.2, List.length_cons]; omega

private theorem turn_calls_cons (i : UInt32) (t : Turn × List Label) (tp : List (Turn × List Label)) :
    turnCalls i (t :: tp) = t.2.map (fun l => .add i l (t.1.block l)) ++ (.output :: turnCalls i tp) := by
  unfold turnCalls
  rw [List.flatMap_cons]
  simp

/-- No more than one sample block per turn. -/
theorem loop_addCount {i : UInt32} {labels : List Label} {tp : List (Turn × List Label)} (hp : ∀ t ∈ tp, t.2.Perm labels) {lp : List Label}
    (hl : lp.length ≤ labels.length) (last : Label → Samples) (k : Nat) :
    addCount (loopCalls i tp lp last ((List.replicate k [GeneratorCall.finalize, .output]).flatten)) ≤ labels.length * (tp.length + 1) := by
  have hmore : ∀ k, addCount ((List.replicate k [GeneratorCall.finalize, .output]).flatten) = 0 := by
    intro k
    induction k with
    | zero => rfl
    | succ k ih => rw [List.replicate_succ, List.flatten_cons, addCount_append, ih]; rfl
  have hturn : addCount (turnCalls i tp) = labels.length * tp.length := by
    clear hl
    induction tp with
    | nil => rfl
    | cons t tp ih =>
      rw [turn_calls_cons, addCount_append, addCount_adds, (hp t List.mem_cons_self).length_eq]
      simp only [addCount]
      rw [ih fun t ht => hp t (List.mem_cons_of_mem _ ht), List.length_cons, Nat.mul_succ]
      omega
  unfold loopCalls
  rw [addCount_append, addCount_append, addCount_adds, hturn]
  simp only [addCount]
  rw [hmore, Nat.mul_succ]
  omega

theorem loop_blocks {i : UInt32} {labels : List Label} (hn : labels ≠ []) (hnd : labels.Nodup) {tp : List (Turn × List Label)}
    (hp : ∀ t ∈ tp, t.2.Perm labels) (hg : ∀ t ∈ tp, GoodBlock labels t.1.block) {lp : List Label} {last : Option (Label → Samples)}
    (hlp : lp.Perm (if last.isSome then labels else [])) (hgl : ∀ b, last = some b → GoodBlock labels b) (more : List GeneratorCall) :
    blocksOf i labels (fun _ => []) (loopCalls i tp lp (last.getD fun _ => []) more) = blocksIn labels (tp.map Prod.fst) last := by
  unfold loopCalls blocksIn
  induction tp with
  | nil =>
    cases last with
    | none =>
      rw [if_neg (by simp)] at hlp
      rw [List.perm_nil.mp hlp]
      rfl
    | some b =>
      rw [if_pos (by rfl)] at hlp
      rw [show turnCalls i [] = [] from rfl, List.nil_append]
      rw [show ((some b).getD fun _ => []) = b from rfl, blocks_adds i labels hn b (hgl b rfl).1 (hgl b rfl).2 _ lp hlp hnd]
      simp [blocksOf]
  | cons t tp ih =>
    rw [turn_calls_cons, List.append_assoc, blocks_adds i labels hn _ (hg t List.mem_cons_self).1 (hg t List.mem_cons_self).2 _ t.2
      (hp t List.mem_cons_self) hnd]
    rw [List.cons_append, blocksOf, ih (fun t ht => hp t (List.mem_cons_of_mem _ ht)) (fun t ht => hg t (List.mem_cons_of_mem _ ht))]
    rfl

theorem loop_ok {i : UInt32} {labels : List Label} {listed : IdMap (List Label)} (hl : listed i = some labels) {tp : List (Turn × List Label)}
    (hp : ∀ t ∈ tp, t.2.Perm labels) {lp : List Label} {last : Option (Label → Samples)} (hlp : lp.Perm (if last.isSome then labels else [])) (k : Nat) :
    ∀ c ∈ loopCalls i tp lp (last.getD fun _ => []) ((List.replicate k [GeneratorCall.finalize, .output]).flatten), CallOk listed c := by
  have hadd : ∀ (p : List Label) (b : Label → Samples), (∀ l ∈ p, l ∈ labels) → ∀ c ∈ p.map (fun l => GeneratorCall.add i l (b l)), CallOk listed c := by
    intro p b hp c hc
    obtain ⟨l, hm, rfl⟩ := List.mem_map.mp hc
    intro ls hls
    rw [hl, Option.some.injEq] at hls
    subst hls
    exact hp l hm
  intro c hc
  unfold loopCalls turnCalls at hc
  simp only [List.mem_append, List.mem_flatMap, List.mem_cons, List.mem_flatten] at hc
  rcases hc with ⟨t, ht, hc⟩ | hc | rfl | rfl | ⟨x, hx, hc⟩
  · rcases hc with hc | hc | hc
    · exact hadd t.2 t.1.block (fun l hm => (hp t ht).mem_iff.mp hm) c hc
    · subst hc; exact trivial
    · cases hc
  · refine hadd lp _ (fun l hm => ?_) c hc
    have := hlp.mem_iff.mp hm
    split at this
    · exact this
    · cases this
  · exact trivial
  · exact trivial
  · rw [List.eq_of_mem_replicate hx] at hc
    simp only [List.mem_cons, List.not_mem_nil, or_false] at hc
    rcases hc with rfl | rfl <;> exact trivial

/-- Frames come out at `OutputTemporalUnit` only. -/
theorem calls_frames {L : EncoderLib} {linear : Int16 → Rat} : ∀ (cs : List GeneratorCall) {g g' : FrameGenerator L.State}
    {fss : List (List (GenFrame × List UInt8))}, FrameGenerator.calls L linear cs g = .ok (fss, g') →
    fss.length = cs.length ∧ ∀ (k : Nat) (c : GeneratorCall) (fs : List (GenFrame × List UInt8)), cs[k]? = some c → fss[k]? = some fs → c ≠ .output → fs = [] := by
  intro cs
  induction cs with
  | nil =>
    intro g g' fss h
    simp only [FrameGenerator.calls, Except.ok.injEq, Prod.mk.injEq] at h
    obtain ⟨rfl, rfl⟩ := h
    exact ⟨rfl, fun k c fs hk => (by simp at hk)⟩
  | cons c cs ih =>
    intro g g' fss h
    obtain ⟨⟨fs, g1⟩, h1, h⟩ := except_ok.mp h
    obtain ⟨⟨fss', g2⟩, h2, h⟩ := except_ok.mp h
    simp only [Except.ok.injEq, Prod.mk.injEq] at h
    obtain ⟨rfl, rfl⟩ := h
    obtain ⟨k1, k2⟩ := ih h2
    refine ⟨by simp [k1], fun k c' fs' hk hfs hc => ?_⟩
    cases k with
    | zero =>
      simp only [List.getElem?_cons_zero, Option.some.injEq] at hk hfs
      subst hk hfs
      cases c with
      | output => exact absurd rfl hc
      | finalize => simp only [FrameGenerator.call, Except.ok.injEq, Prod.mk.injEq] at h1; exact h1.1.symm
      | addDemixing b => simp only [FrameGenerator.call, Except.ok.injEq, Prod.mk.injEq] at h1; exact h1.1.symm
      | add e l s =>
        obtain ⟨g3, -, h1⟩ := except_ok.mp h1
        simp only [Except.ok.injEq, Prod.mk.injEq] at h1
        exact h1.1.symm
    | succ k => exact k2 k c' fs' hk hfs hc

def isOutputCall : GeneratorCall → Bool
  | .output => true
  | _ => false

private theorem few_frames (i : UInt32) : ∀ (cs : List GeneratorCall) (fss : List (List (GenFrame × List UInt8))), fss.length = cs.length →
    (∀ (k : Nat) (c : GeneratorCall) (fs : List (GenFrame × List UInt8)), cs[k]? = some c → fss[k]? = some fs → c ≠ .output → fs = []) →
    (∀ fs ∈ fss, (ofSubstream i fs).length ≤ 1) → ∀ m, (ofSubstream i (fss.take m).flatten).length ≤ ((cs.take m).filter isOutputCall).length := by
  intro cs
  induction cs with
  | nil =>
    intro fss hl _ _ m
    rw [List.length_nil, List.length_eq_zero_iff] at hl
    subst hl
    simp [ofSubstream]
  | cons c cs ih =>
    intro fss hl h1 h2 m
    cases fss with
    | nil => simp at hl
    | cons fs fss =>
      cases m with
      | zero => simp [ofSubstream]
      | succ m =>
        have := ih fss (by simpa using hl) (fun k c' fs' hk hf => h1 (k + 1) c' fs' hk hf) (fun fs' hf => h2 fs' (List.mem_cons_of_mem _ hf)) m
        rw [List.take_succ_cons, List.take_succ_cons, List.flatten_cons, ofSubstream_append, List.length_append, List.filter_cons]
        by_cases hc : c = .output
        · subst hc
          rw [if_pos (show isOutputCall .output = true from rfl), List.length_cons]
          have := h2 fs List.mem_cons_self
          omega
        · have : fs = [] := h1 0 c fs rfl rfl hc
          subst this
          rw [if_neg (by cases c <;> simp_all [isOutputCall])]
          simpa [ofSubstream] using this

/-- Before the end is announced there is no more than one frame per turn. -/
theorem loop_early {L : EncoderLib} {linear : Int16 → Rat} {i s : UInt32} {tp : List (Turn × List Label)} {lp : List Label} {last : Label → Samples}
    {more : List GeneratorCall} {g g' : FrameGenerator L.State} {fss : List (List (GenFrame × List UInt8))}
    (h : FrameGenerator.calls L linear (loopCalls i tp lp last more) g = .ok (fss, g')) (hone : ∀ fs ∈ fss, (ofSubstream s fs).length ≤ 1) :
    (ofSubstream s (fss.take (callsBefore (loopCalls i tp lp last more))).flatten).length ≤ tp.length := by
  obtain ⟨h1, h2⟩ := calls_frames _ h
  refine Nat.le_trans (few_frames s _ fss h1 h2 hone _) ?_
  have hadd : ∀ (p : List Label) (b : Label → Samples), GeneratorCall.finalize ∉ p.map fun l => GeneratorCall.add i l (b l) := by
    intro p b hc
    obtain ⟨l, -, hl⟩ := List.mem_map.mp hc
    cases hl
  have hno : ∀ (p : List Label) (b : Label → Samples), (p.map fun l => GeneratorCall.add i l (b l)).filter isOutputCall = [] := by
    intro p b
    refine List.filter_eq_nil_iff.mpr fun c hc => ?_
    obtain ⟨l, -, rfl⟩ := List.mem_map.mp hc
    simp [isOutputCall]
  have hturn : GeneratorCall.finalize ∉ turnCalls i tp := by
    intro hc
    obtain ⟨t, -, hc⟩ := List.mem_flatMap.mp hc
    rcases List.mem_append.mp hc with hc | hc
    · exact hadd _ _ hc
    · simp at hc
  have hall : GeneratorCall.finalize ∉ turnCalls i tp ++ lp.map fun l => GeneratorCall.add i l (last l) := by
    rw [List.mem_append, not_or]
    exact ⟨hturn, hadd _ _⟩
  unfold loopCalls
  rw [← List.append_assoc, callsBefore_append _ _ hall]
  simp only [callsBefore, Nat.add_zero]
  rw [List.take_left, List.filter_append, hno, List.append_nil]
  clear h h1 h2 hall hturn
  induction tp with
  | nil => simp [turnCalls]
  | cons t tp ih =>
    rw [turn_calls_cons, List.filter_append, hno, List.nil_append, List.filter_cons, if_pos (show isOutputCall .output = true from rfl), List.length_cons, List.length_cons]
    omega

end Iamf.Props
