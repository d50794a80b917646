import Verif.Cli.Parameters
/-
  Properties of demixing and recon gain parameters over time: C19.
-/
namespace Iamf.Props
open Iamf

/-! ## C19: the down-mixing state -/

/-- The demixing parameter definition of an audio element. -/
def demixingDefinition (a : AudioElement) : Option (ParamBase × DefaultDemixingInfo) :=
  a.params.findSome? fun p => match p.spec with
    | .demixing d => some (p.base, d)
    | _ => none

/-- The table of the IAMF specification: `w` for each index, in units of 1/10000. -/
def specWValue (i : Nat) : Nat :=
  match i with
  | 0 => 0 | 1 => 179 | 2 => 391 | 3 => 658 | 4 => 1038 | 5 => 2500 | 6 => 3962 | 7 => 4342 | 8 => 4609 | 9 => 4821 | _ => 5000

/-- The update of the IAMF specification, `Clip3(0, 10, wIdx(k - 1) + w_idx_offset(k))`: modes 4, 5, 6 count up,
modes 0, 1, 2 count down. -/
def specNextW (previous : Nat) (mode : UInt8) : Nat := if 4 ≤ mode then min 10 (previous + 1) else previous - 1

def specFollowing (previous : Nat) : List UInt8 → List Nat
  | [] => []
  | m :: ms => specNextW previous m :: specFollowing (specNextW previous m) ms

/-- The indices of the IAMF specification for frames with the given modes; the first is 0. -/
def specWIndices : List UInt8 → List Nat
  | [] => []
  | _ :: ms => 0 :: specFollowing 0 ms

/-- What every state reached by any calls satisfies. -/
private structure Inv (pm : ParametersManager) : Prop where
  range : ∀ e st, pm.demix e = some st → (0 ≤ st.previousW ∧ st.previousW ≤ 10) ∧ (0 ≤ st.w ∧ st.w ≤ 10)
  blocks : ∀ e st, pm.demix e = some st → (pm.demixBlocks st.definition.id).isSome = true
  recon : ∀ e st, pm.recon e = some st → (pm.reconBlocks st.definition.id).isSome = true

theorem wIdxValues_ok {i : Int} {w : Nat} (h : wIdxValues i = some w) : 0 ≤ i ∧ i ≤ 10 ∧ w = specWValue i.toNat := by
  unfold wIdxValues at h
  split at h
  · simp at h
  next hi =>
    have hlt : i.toNat < 11 := by
      have := (List.getElem?_eq_some_iff.mp h).1
      simpa using this
    refine ⟨by omega, by omega, ?_⟩
    have : i.toNat = 0 ∨ i.toNat = 1 ∨ i.toNat = 2 ∨ i.toNat = 3 ∨ i.toNat = 4 ∨ i.toNat = 5 ∨ i.toNat = 6 ∨ i.toNat = 7 ∨
      i.toNat = 8 ∨ i.toNat = 9 ∨ i.toNat = 10 := by omega
    rcases this with h' | h' | h' | h' | h' | h' | h' | h' | h' | h' | h' <;> rw [h'] at h ⊢ <;> simp at h <;> subst h <;> rfl

private theorem toParams_ok {mode : UInt8} {prev : Int} {rule : WIdxRule} {p : DownMixingParams}
    (h : dmixpModeToParams mode prev rule = .ok p) :
    0 ≤ p.wIdxUsed ∧ p.wIdxUsed ≤ 10 ∧ p.w = specWValue p.wIdxUsed.toNat ∧ p.inBitstream = true := by
  unfold dmixpModeToParams at h
  split at h
  · simp at h
  · simp only at h
    split at h
    · simp at h
    next w heq =>
      obtain ⟨h1, h2, h3⟩ := wIdxValues_ok heq
      simp only [Except.ok.injEq] at h
      subst h
      exact ⟨h1, h2, h3, rfl⟩

private theorem inv_call {pm : ParametersManager} (h : Inv pm) (c : ParamCall) : Inv (pm.call c).2 := by
  cases c with
  | addDemixing b =>
    refine ⟨h.range, fun e st he => ?_, h.recon⟩
    have := h.blocks e st he
    simp only [ParametersManager.call, ParametersManager.addDemixing, IdMap.set]
    split <;> simp_all
  | addReconGain b =>
    refine ⟨h.range, h.blocks, fun e st he => ?_⟩
    have := h.recon e st he
    simp only [ParametersManager.call, ParametersManager.addReconGain, IdMap.set]
    split <;> simp_all
  | getReconGain e n => exact h
  | getDownMixing e =>
    simp only [ParametersManager.call, ParametersManager.getDownMixing]
    split
    · exact h
    next st0 hst =>
      split
      · exact h
      · exact h
      · split
        · exact h
        · split
          next d tl hsub =>
            split
            · exact h
            next p hp =>
              obtain ⟨h1, h2, -, -⟩ := toParams_ok hp
              refine ⟨fun e' st he => ?_, fun e' st he => ?_, h.recon⟩
              · simp only [IdMap.set] at he
                split at he
                · simp only [Option.some.injEq] at he; subst he
                  exact ⟨(h.range e st0 hst).1, h1, h2⟩
                · exact h.range e' st he
              · simp only [IdMap.set] at he
                split at he
                · simp only [Option.some.injEq] at he; subst he
                  exact h.blocks e st0 hst
                · exact h.blocks e' st he
          · exact h
  | updateDemixing e t =>
    simp only [ParametersManager.call, ParametersManager.updateDemixing]
    split
    · exact h
    next st0 hst =>
      split
      · exact h
      · exact h
      · split
        · refine ⟨fun e' st he => ?_, fun e' st he => ?_, h.recon⟩
          · simp only [IdMap.set] at he
            split at he
            · simp only [Option.some.injEq] at he; subst he
              exact h.range e st0 hst
            · exact h.range e' st he
          · simp only [IdMap.set] at he
            split at he
            · simp only [Option.some.injEq] at he; subst he
              exact h.blocks e st0 hst
            · exact h.blocks e' st he
        · refine ⟨fun e' st he => ?_, fun e' st he => ?_, h.recon⟩
          · simp only [IdMap.set] at he
            split at he
            · simp only [Option.some.injEq] at he; subst he
              exact ⟨(h.range e st0 hst).2, (h.range e st0 hst).2⟩
            · exact h.range e' st he
          · simp only [IdMap.set] at he ⊢
            split
            · rfl
            · split at he
              · simp only [Option.some.injEq] at he; subst he
                exact h.blocks e st0 hst
              · exact h.blocks e' st he
  | updateReconGain e t =>
    simp only [ParametersManager.call, ParametersManager.updateReconGain]
    split
    · exact h
    next st0 hst =>
      split
      · exact h
      · exact h
      · split
        · refine ⟨h.range, h.blocks, fun e' st he => ?_⟩
          simp only [IdMap.set] at he
          split at he
          · simp only [Option.some.injEq] at he; subst he
            exact h.recon e st0 hst
          · exact h.recon e' st he
        · refine ⟨h.range, h.blocks, fun e' st he => ?_⟩
          simp only [IdMap.set] at he ⊢
          split
          · rfl
          · split at he
            · simp only [Option.some.injEq] at he; subst he
              exact h.recon e st0 hst
            · exact h.recon e' st he

private theorem inv_calls {pm : ParametersManager} (h : Inv pm) (cs : List ParamCall) : Inv (pm.calls cs).2 := by
  induction cs generalizing pm with
  | nil => exact h
  | cons c cs ih => exact ih (inv_call h c)

private theorem inv_register {pm : ParametersManager} (h : Inv pm) (id : UInt32)
    (f : Option (ParamBase × DefaultDemixingInfo) × Option ParamBase) : Inv (pm.register id f) := by
  have h1 : ∀ (b : ParamBase) (d : DefaultDemixingInfo), Inv { pm with
      demixBlocks := pm.demixBlocks.insert b.id none
      demix := pm.demix.set id ⟨b, d, 0, 0, 0, .firstFrame⟩ } := by
    intro b d
    refine ⟨fun e st he => ?_, fun e st he => ?_, h.recon⟩
    · simp only [IdMap.set] at he
      split at he
      · simp only [Option.some.injEq] at he; subst he; exact ⟨⟨by simp, by simp⟩, by simp, by simp⟩
      · exact h.range e st he
    · simp only [IdMap.set] at he
      simp only [IdMap.insert]
      split
      · rfl
      · split at he
        · simp only [Option.some.injEq] at he; subst he; simp_all
        · exact h.blocks e st he
  have h2 : ∀ (pm : ParametersManager) (b : ParamBase), Inv pm → Inv { pm with
      reconBlocks := pm.reconBlocks.insert b.id none
      recon := pm.recon.set id ⟨b, 0⟩ } := by
    intro pm b h
    refine ⟨h.range, h.blocks, fun e st he => ?_⟩
    simp only [IdMap.set] at he
    simp only [IdMap.insert]
    split
    · rfl
    · split at he
      · simp only [Option.some.injEq] at he; subst he; simp_all
      · exact h.recon e st he
  obtain ⟨f1, f2⟩ := f
  cases f1 with
  | none => cases f2 with
    | none => exact h
    | some b => exact h2 pm b h
  | some x => cases f2 with
    | none => exact h1 x.1 x.2
    | some b => exact h2 _ b (h1 x.1 x.2)

private theorem inv_createFrom {l : List (UInt32 × AudioElement)} {pm pm' : ParametersManager} (h : Inv pm)
    (hc : pm.createFrom l = .ok pm') : Inv pm' := by
  induction l generalizing pm with
  | nil => simp only [ParametersManager.createFrom, Except.ok.injEq] at hc; subst hc; exact h
  | cons x l ih =>
    simp only [ParametersManager.createFrom] at hc
    split at hc
    · simp at hc
    · exact ih (inv_register h _ _) hc

private theorem inv_create {l : List (UInt32 × AudioElement)} {pm : ParametersManager} (hc : ParametersManager.create l = .ok pm) :
    Inv pm := inv_createFrom ⟨by simp [IdMap.empty], by simp [IdMap.empty], by simp [IdMap.empty]⟩ hc

/-- **C19 (range).** After any history of calls, whatever down-mixing parameters are returned for any audio element:
the index of `w` is in 0..10 and `w` is the specification's value for it. -/
theorem C19_w_index_in_range (elements : List (UInt32 × AudioElement)) (pm : ParametersManager)
    (hc : ParametersManager.create elements = .ok pm) (history : List ParamCall) (e : UInt32) (p : DownMixingParams)
    (h : ((pm.calls history).2.getDownMixing e).1 = .ok p) :
    0 ≤ p.wIdxUsed ∧ p.wIdxUsed ≤ 10 ∧ p.w = specWValue p.wIdxUsed.toNat := by
  unfold ParametersManager.getDownMixing at h
  split at h
  · simp only [Except.ok.injEq] at h; subst h; exact ⟨by simp, by simp, rfl⟩
  · split at h
    · simp at h
    · simp only at h; exact ⟨(toParams_ok h).1, (toParams_ok h).2.1, (toParams_ok h).2.2.1⟩
    · split at h
      · simp at h
      · split at h
        · split at h
          · simp at h
          next p' hp =>
            simp only [Except.ok.injEq] at h; subst h
            exact ⟨(toParams_ok hp).1, (toParams_ok hp).2.1, (toParams_ok hp).2.2.1⟩
        · simp at h

/-- **C19 (no exceptions).** After any history of calls, the unchecked map lookups (`at`) find their keys: no query and
no update throws. -/
theorem C19_lookups_never_throw (elements : List (UInt32 × AudioElement)) (pm : ParametersManager)
    (hc : ParametersManager.create elements = .ok pm) (history : List ParamCall) (e : UInt32) (n : Int32) (t : Int) :
    ((pm.calls history).2.getDownMixing e).1 ≠ .error .abort ∧ (pm.calls history).2.getReconGain e n ≠ .error .abort ∧
    ((pm.calls history).2.updateDemixing e t).1 ≠ .error .abort ∧
    ((pm.calls history).2.updateReconGain e t).1 ≠ .error .abort := by
  have h := inv_calls (inv_create hc) history
  revert h
  generalize (pm.calls history).2 = q
  intro h
  have habort : ∀ m w r, dmixpModeToParams m w r ≠ .error .abort := by
    intro m w r
    unfold dmixpModeToParams
    split
    · simp
    · simp only; split <;> simp
  refine ⟨?_, ?_, ?_, ?_⟩
  · unfold ParametersManager.getDownMixing
    split
    · simp
    next st hst =>
      have := h.blocks e st hst
      split
      next hn => rw [hn] at this; simp at this
      · simp only; exact habort _ _ _
      · split
        · simp
        · split
          · split
            next heq => intro hx; simp only [Except.error.injEq] at hx; subst hx; exact habort _ _ _ heq
            · simp
          · simp
  · unfold ParametersManager.getReconGain
    split
    · simp
    next st hst =>
      have := h.recon e st hst
      split
      next hn => rw [hn] at this; simp at this
      · simp
      · split
        · simp
        · split
          · simp
          · split <;> simp
          · simp
  · unfold ParametersManager.updateDemixing
    split
    · simp
    next st hst =>
      have := h.blocks e st hst
      split
      next hn => rw [hn] at this; simp at this
      · simp
      · simp only; split <;> simp
  · unfold ParametersManager.updateReconGain
    split
    · simp
    next st hst =>
      have := h.recon e st hst
      split
      next hn => rw [hn] at this; simp at this
      · simp
      · simp only; split <;> simp

/-! ### Each audio element has its own state -/

/-- The calls that concern the demixing of audio element `e`, whose definition has parameter id `pid`. -/
def concerns (e pid : UInt32) : ParamCall → Bool
  | .addDemixing b => b.obu.parameterId == pid
  | .getDownMixing e' => e' == e
  | .updateDemixing e' _ => e' == e
  | _ => false

/-- The answers to those calls, out of a longer history. -/
def answersFor (e pid : UInt32) (pm : ParametersManager) (history : List ParamCall) : List ParamAnswer :=
  ((history.zip (pm.calls history).1).filter fun x => concerns e pid x.1).map Prod.snd

/-- No other element has a demixing definition with the same parameter id. -/
def OwnParameterId (elements : List (UInt32 × AudioElement)) (e pid : UInt32) : Prop :=
  ∀ x ∈ elements, x.1 ≠ e → ∀ b d, demixingDefinition x.2 = some (b, d) → b.id ≠ pid

private structure Own (pm : ParametersManager) (e pid : UInt32) : Prop where
  mine : ∀ st, pm.demix e = some st → st.definition.id = pid
  others : ∀ e' st, e' ≠ e → pm.demix e' = some st → st.definition.id ≠ pid

private theorem own_call {pm : ParametersManager} {e pid : UInt32} (h : Own pm e pid) (c : ParamCall) :
    Own (pm.call c).2 e pid := by
  have key : ∀ e0 st0 st1, pm.demix e0 = some st0 → st1.definition = st0.definition →
      ∀ db, Own { pm with demix := pm.demix.set e0 st1, demixBlocks := db } e pid := by
    intro e0 st0 st1 h0 h1 db
    refine ⟨fun st he => ?_, fun e' st hne he => ?_⟩
    · simp only [IdMap.set] at he
      split at he
      next heq => simp only [Option.some.injEq] at he; subst he heq; rw [h1]; exact h.mine _ h0
      · exact h.mine st he
    · simp only [IdMap.set] at he
      split at he
      next heq => simp only [Option.some.injEq] at he; subst he heq; rw [h1]; exact h.others _ _ hne h0
      · exact h.others e' st hne he
  cases c with
  | addDemixing b => exact ⟨h.mine, h.others⟩
  | addReconGain b => exact ⟨h.mine, h.others⟩
  | getReconGain e n => exact h
  | getDownMixing e0 =>
    simp only [ParametersManager.call, ParametersManager.getDownMixing]
    split
    · exact h
    next st0 hst =>
      split
      · exact h
      · exact h
      · split
        · exact h
        · split
          · split
            · exact h
            · exact key e0 st0 _ hst (by rfl) _
          · exact h
  | updateDemixing e0 t =>
    simp only [ParametersManager.call, ParametersManager.updateDemixing]
    split
    · exact h
    next st0 hst =>
      split
      · exact h
      · exact h
      · split
        · exact key e0 st0 _ hst (by rfl) _
        · exact key e0 st0 _ hst (by rfl) _
  | updateReconGain e0 t =>
    simp only [ParametersManager.call, ParametersManager.updateReconGain]
    split
    · exact h
    · split
      · exact h
      · exact h
      · split <;> exact ⟨h.mine, h.others⟩

/-- Two managers that agree on what concerns `e`. -/
private def Same (e pid : UInt32) (a b : ParametersManager) : Prop :=
  a.demix e = b.demix e ∧ a.demixBlocks pid = b.demixBlocks pid

private theorem same_concerned {a b : ParametersManager} {e pid : UInt32} (h : Same e pid a b) (ha : Own a e pid)
    (c : ParamCall) (hc : concerns e pid c = true) :
    (a.call c).1 = (b.call c).1 ∧ Same e pid (a.call c).2 (b.call c).2 := by
  obtain ⟨h1, h2⟩ := h
  cases c with
  | addDemixing bl =>
    simp only [concerns, beq_iff_eq] at hc
    refine ⟨rfl, h1, ?_⟩
    simp [ParametersManager.call, ParametersManager.addDemixing, IdMap.set, hc]
  | addReconGain bl => simp [concerns] at hc
  | getReconGain e n => simp [concerns] at hc
  | getDownMixing e0 =>
    simp only [concerns, beq_iff_eq] at hc
    subst hc
    simp only [ParametersManager.call, ParametersManager.getDownMixing, ← h1]
    cases hd : a.demix e0 with
    | none => exact ⟨rfl, by rw [Same, ← h1, h2]; exact ⟨rfl, rfl⟩⟩
    | some st =>
      have hpid := ha.mine st hd
      subst hpid
      simp only [← h2]
      cases hb : a.demixBlocks st.definition.id with
      | none => exact ⟨rfl, h1, h2⟩
      | some bo =>
        cases bo with
        | none => exact ⟨rfl, h1, h2⟩
        | some bl =>
          simp only
          split
          · exact ⟨rfl, h1, h2⟩
          · split
            · split
              · exact ⟨rfl, h1, h2⟩
              · exact ⟨rfl, by simp [IdMap.set], h2⟩
            · exact ⟨rfl, h1, h2⟩
  | updateDemixing e0 t =>
    simp only [concerns, beq_iff_eq] at hc
    subst hc
    simp only [ParametersManager.call, ParametersManager.updateDemixing, ← h1]
    cases hd : a.demix e0 with
    | none => exact ⟨rfl, by rw [Same, ← h1, h2]; exact ⟨rfl, rfl⟩⟩
    | some st =>
      have hpid := ha.mine st hd
      subst hpid
      simp only [← h2]
      cases hb : a.demixBlocks st.definition.id with
      | none => exact ⟨rfl, h1, h2⟩
      | some bo =>
        cases bo with
        | none => exact ⟨rfl, h1, h2⟩
        | some bl =>
          simp only
          split
          · exact ⟨rfl, by simp [IdMap.set], h2⟩
          · exact ⟨rfl, by simp [IdMap.set], by simp [IdMap.set]⟩
  | updateReconGain e0 t => simp [concerns] at hc

private theorem same_unconcerned {a : ParametersManager} {e pid : UInt32} (ha : Own a e pid)
    (c : ParamCall) (hc : concerns e pid c = false) : Same e pid (a.call c).2 a := by
  cases c with
  | addDemixing bl =>
    simp only [concerns, beq_eq_false_iff_ne, ne_eq] at hc
    refine ⟨rfl, ?_⟩
    simp only [ParametersManager.call, ParametersManager.addDemixing, IdMap.set]
    rw [if_neg (fun h => hc h.symm)]
  | addReconGain bl => exact ⟨rfl, rfl⟩
  | getReconGain e n => exact ⟨rfl, rfl⟩
  | getDownMixing e0 =>
    simp only [concerns, beq_eq_false_iff_ne, ne_eq] at hc
    simp only [ParametersManager.call, ParametersManager.getDownMixing]
    split
    · exact ⟨rfl, rfl⟩
    · split
      · exact ⟨rfl, rfl⟩
      · exact ⟨rfl, rfl⟩
      · split
        · exact ⟨rfl, rfl⟩
        · split
          · split
            · exact ⟨rfl, rfl⟩
            · exact ⟨by simp only [IdMap.set]; rw [if_neg (fun h => hc h.symm)], rfl⟩
          · exact ⟨rfl, rfl⟩
  | updateDemixing e0 t =>
    simp only [concerns, beq_eq_false_iff_ne, ne_eq] at hc
    simp only [ParametersManager.call, ParametersManager.updateDemixing]
    split
    · exact ⟨rfl, rfl⟩
    next st0 hst =>
      have hne := ha.others e0 st0 hc hst
      split
      · exact ⟨rfl, rfl⟩
      · exact ⟨rfl, rfl⟩
      · split
        · exact ⟨by simp only [IdMap.set]; rw [if_neg (fun h => hc h.symm)], rfl⟩
        · exact ⟨by simp only [IdMap.set]; rw [if_neg (fun h => hc h.symm)],
            by simp only [IdMap.set]; rw [if_neg (fun h => hne h.symm)]⟩
  | updateReconGain e0 t =>
    simp only [ParametersManager.call, ParametersManager.updateReconGain]
    split
    · exact ⟨rfl, rfl⟩
    · split
      · exact ⟨rfl, rfl⟩
      · exact ⟨rfl, rfl⟩
      · split <;> exact ⟨rfl, rfl⟩

private theorem answers_filter {e pid : UInt32} (history : List ParamCall) (a b : ParametersManager) (h : Same e pid a b)
    (ha : Own a e pid) (hb : Own b e pid) :
    answersFor e pid a history = (b.calls (history.filter (concerns e pid))).1 := by
  induction history generalizing a b with
  | nil => rfl
  | cons c cs ih =>
    unfold answersFor
    simp only [ParametersManager.calls, List.zip_cons_cons]
    cases hc : concerns e pid c with
    | true =>
      rw [List.filter_cons_of_pos (by simpa using hc), List.filter_cons_of_pos (by simpa using hc)]
      obtain ⟨h1, h2⟩ := same_concerned h ha c hc
      simp only [List.map_cons, ParametersManager.calls]
      rw [h1, ← ih _ _ h2 (own_call ha c) (own_call hb c)]
      rfl
    | false =>
      rw [List.filter_cons_of_neg (by simp [hc]), List.filter_cons_of_neg (by simp [hc])]
      have h2 := same_unconcerned ha c hc
      rw [← ih _ _ ⟨h2.1.trans h.1, h2.2.trans h.2⟩ (own_call ha c) hb]
      rfl

/-- The manager's state for `e` depends on the parameters of `e` only. -/
private theorem collect_ok {ps : List ParamDef} {st r : Option (ParamBase × DefaultDemixingInfo) × Option ParamBase}
    (h : collectParams ps st = .ok r) :
    r.1 = match st.1 with
      | some x => some x
      | none => ps.findSome? fun p => match p.spec with
          | .demixing d => some (p.base, d)
          | _ => none := by
  induction ps generalizing st with
  | nil =>
    simp only [collectParams, Except.ok.injEq] at h
    subst h
    cases hx : st.1 <;> simp
  | cons p ps ih =>
    simp only [collectParams] at h
    by_cases h1 : p.spec.type = 1
    · rw [if_pos h1] at h
      split at h
      · simp at h
      next hnone =>
        simp only [Option.not_isSome_iff_eq_none] at hnone
        split at h
        next d hd =>
          have := ih h
          rw [hnone, this]
          simp [hd]
        · simp at h
    · rw [if_neg h1] at h
      have hnd : ∀ d, p.spec ≠ .demixing d := by
        intro d hd; rw [hd] at h1; exact h1 rfl
      have hskip : (p :: ps).findSome? (fun p => match p.spec with
            | .demixing d => some (p.base, d)
            | _ => none) = ps.findSome? fun p => match p.spec with
            | .demixing d => some (p.base, d)
            | _ => none := by
        rw [List.findSome?_cons]
        cases hs : p.spec <;> first | rfl | exact absurd hs (hnd _)
      rw [hskip]
      split at h
      · split at h
        · simp at h
        · split at h
          · have := ih h; exact this
          · simp at h
      · exact ih h

private theorem createFrom_demix {l : List (UInt32 × AudioElement)} {pm pm' : ParametersManager}
    (hc : pm.createFrom l = .ok pm') (hn : (l.map Prod.fst).Nodup) (e : UInt32) :
    pm'.demix e = match l.lookup e with
      | none => pm.demix e
      | some a => match demixingDefinition a with
        | none => pm.demix e
        | some (b, d) => some ⟨b, d, 0, 0, 0, .firstFrame⟩ := by
  induction l generalizing pm with
  | nil => simp only [ParametersManager.createFrom, Except.ok.injEq] at hc; subst hc; rfl
  | cons x l ih =>
    obtain ⟨i, a⟩ := x
    simp only [ParametersManager.createFrom] at hc
    split at hc
    · simp at hc
    next found hf =>
      simp only [List.map_cons, List.nodup_cons] at hn
      rw [ih hc hn.2]
      have hfound := collect_ok hf
      simp only at hfound
      have hreg : (pm.register i found).demix e = if e = i then (match demixingDefinition a with
          | none => pm.demix e
          | some (b, d) => some ⟨b, d, 0, 0, 0, .firstFrame⟩) else pm.demix e := by
        have : found.1 = demixingDefinition a := hfound
        rw [← this]
        obtain ⟨f1, f2⟩ := found
        cases f1 <;> cases f2 <;> simp [ParametersManager.register, IdMap.set]
      rw [hreg]
      by_cases he : e = i
      · subst he
        have hnone : l.lookup e = none := by
          rw [List.lookup_eq_none_iff]
          intro p hp
          simp only [beq_eq_false_iff_ne, ne_eq, bne_iff_ne]
          intro h
          exact hn.1 (List.mem_map.mpr ⟨p, hp, by simp_all⟩)
        rw [hnone]
        simp [List.lookup]
      · rw [if_neg he]
        simp only [List.lookup]
        have : (e == i) = false := by simpa using he
        rw [this]

private theorem lookup_mem {l : List (UInt32 × AudioElement)} {e : UInt32} {a : AudioElement}
    (h : l.lookup e = some a) : (e, a) ∈ l := by
  induction l with
  | nil => simp at h
  | cons x l ih =>
    obtain ⟨i, b⟩ := x
    simp only [List.lookup] at h
    split at h
    next heq => simp only [beq_iff_eq] at heq; simp only [Option.some.injEq] at h; subst h heq; exact List.mem_cons_self
    · exact List.mem_cons_of_mem _ (ih h)

private theorem mem_lookup {l : List (UInt32 × AudioElement)} {e : UInt32} {a : AudioElement}
    (hn : (l.map Prod.fst).Nodup) (h : (e, a) ∈ l) : l.lookup e = some a := by
  induction l with
  | nil => simp at h
  | cons x l ih =>
    obtain ⟨i, b⟩ := x
    simp only [List.map_cons, List.nodup_cons] at hn
    simp only [List.lookup]
    rcases List.mem_cons.mp h with h' | h'
    · simp only [Prod.mk.injEq] at h'
      obtain ⟨rfl, rfl⟩ := h'
      simp
    · have : (e == i) = false := by
        simp only [beq_eq_false_iff_ne, ne_eq]
        intro hei; subst hei
        exact hn.1 (List.mem_map.mpr ⟨(e, a), h', rfl⟩)
      rw [this]
      exact ih hn.2 h'

private theorem create_own {elements : List (UInt32 × AudioElement)} {pm : ParametersManager}
    (hc : ParametersManager.create elements = .ok pm) (hn : (elements.map Prod.fst).Nodup) {e : UInt32} {a : AudioElement}
    {b : ParamBase} {d : DefaultDemixingInfo} (hm : (e, a) ∈ elements) (hd : demixingDefinition a = some (b, d))
    (ho : OwnParameterId elements e b.id) : pm.demix e = some ⟨b, d, 0, 0, 0, .firstFrame⟩ ∧ Own pm e b.id := by
  have key := fun e' => createFrom_demix (pm := ⟨.empty, .empty, .empty, .empty⟩) hc hn e'
  have h1 : pm.demix e = some ⟨b, d, 0, 0, 0, .firstFrame⟩ := by rw [key, mem_lookup hn hm]; simp [hd]
  refine ⟨h1, fun st h => ?_, fun e' st hne h => ?_⟩
  · rw [h1, Option.some.injEq] at h; subst h; rfl
  · rw [key] at h
    split at h
    · simp [IdMap.empty] at h
    next a' hl =>
      split at h
      · simp [IdMap.empty] at h
      next b' d' hd' =>
        simp only [Option.some.injEq] at h
        subst h
        exact ho _ (lookup_mem hl) hne b' d' hd'

/-- **C19 (isolation).** The answers concerning one audio element are the same as if the other calls (for other
elements, other parameter ids and recon gains) had not been made. -/
theorem C19_elements_do_not_interfere (elements : List (UInt32 × AudioElement)) (pm : ParametersManager)
    (hc : ParametersManager.create elements = .ok pm) (hn : (elements.map Prod.fst).Nodup) (e : UInt32) (a : AudioElement)
    (b : ParamBase) (d : DefaultDemixingInfo) (hm : (e, a) ∈ elements) (hd : demixingDefinition a = some (b, d))
    (ho : OwnParameterId elements e b.id) (history : List ParamCall) :
    answersFor e b.id pm history = (pm.calls (history.filter (concerns e b.id))).1 :=
  answers_filter history pm pm ⟨rfl, rfl⟩ (create_own hc hn hm hd ho).2 (create_own hc hn hm hd ho).2

/-! ### One element, frame by frame -/

/-- Demixing blocks that follow each other without a gap from time `t` on. -/
def ContiguousFrom (pid : UInt32) : Int → List (UInt8 × BlockWithData) → Prop
  | _, [] => True
  | t, (mode, b) :: rest => b.obu.parameterId = pid ∧ b.start = t ∧
      (∃ r tl, b.obu.subblocks = some (.demixing ⟨mode, r⟩) :: tl) ∧ mode ∈ [0, 1, 2, 4, 5, 6] ∧ ContiguousFrom pid b.stop rest

/-- For every frame: add the block, get the parameters, advance to the end of the block. -/
def frameCalls (e : UInt32) (frames : List (UInt8 × BlockWithData)) : List ParamCall :=
  frames.flatMap fun f => [.addDemixing f.2, .getDownMixing e, .updateDemixing e f.2.stop]

/-- The specification's down-mix coefficients alpha, beta, gamma, delta, in units of 1/10000. -/
def specCoefficients (mode : UInt8) : Nat × Nat × Nat × Nat :=
  if mode = 0 ∨ mode = 4 then (10000, 10000, 7070, 7070)
  else if mode = 1 ∨ mode = 5 then (7070, 7070, 7070, 7070)
  else (10000, 8660, 8660, 8660)

/-- The answers of the specification for one frame. -/
def specAnswers (mode : UInt8) (w : Nat) : List ParamAnswer :=
  [.done (.ok ()),
    .downMixing (.ok ⟨(specCoefficients mode).1, (specCoefficients mode).2.1, (specCoefficients mode).2.2.1,
      (specCoefficients mode).2.2.2, if 4 ≤ mode then 1 else -1, w, specWValue w, true⟩),
    .done (.ok ())]

theorem toParams_eq {mode : UInt8} (hm : mode ∈ ([0, 1, 2, 4, 5, 6] : List UInt8)) (prev : Nat) (hp : prev ≤ 10) (first : Bool) :
    dmixpModeToParams mode prev (if first then .firstFrame else .normal) = .ok ⟨(specCoefficients mode).1,
      (specCoefficients mode).2.1, (specCoefficients mode).2.2.1, (specCoefficients mode).2.2.2,
      if 4 ≤ mode then 1 else -1, ((if first then 0 else specNextW prev mode : Nat) : Int),
      specWValue (if first then 0 else specNextW prev mode), true⟩ := by
  have hprev : prev = 0 ∨ prev = 1 ∨ prev = 2 ∨ prev = 3 ∨ prev = 4 ∨ prev = 5 ∨ prev = 6 ∨ prev = 7 ∨ prev = 8 ∨
    prev = 9 ∨ prev = 10 := by omega
  simp only [List.mem_cons, List.not_mem_nil, or_false] at hm
  rcases hm with rfl | rfl | rfl | rfl | rfl | rfl <;> cases first <;>
    rcases hprev with rfl | rfl | rfl | rfl | rfl | rfl | rfl | rfl | rfl | rfl | rfl <;> rfl

theorem specNextW_le (p : Nat) (m : UInt8) (h : p ≤ 10) : specNextW p m ≤ 10 := by
  unfold specNextW; split <;> omega

/-- One frame on a manager. -/
private theorem frame_step {pm : ParametersManager} {e pid : UInt32} {st : DemixingState} (h : pm.demix e = some st)
    (hid : st.definition.id = pid) (mode : UInt8) (bl : BlockWithData) (hb : bl.obu.parameterId = pid)
    (hstart : bl.start = st.nextTimestamp) (hsub : ∃ r tl, bl.obu.subblocks = some (.demixing ⟨mode, r⟩) :: tl)
    (hm : mode ∈ ([0, 1, 2, 4, 5, 6] : List UInt8)) (prev : Nat) (hp : prev ≤ 10) (hprev : st.previousW = prev) (first : Bool)
    (hrule : st.rule = if first then .firstFrame else .normal) (rest : List ParamCall) :
    ∃ pm' : ParametersManager, (pm.calls ([.addDemixing bl, .getDownMixing e, .updateDemixing e bl.stop] ++ rest)).1 =
        specAnswers mode (if first then 0 else specNextW prev mode) ++ (pm'.calls rest).1 ∧
      ∃ st', pm'.demix e = some st' ∧ st'.definition.id = pid ∧ st'.nextTimestamp = bl.stop ∧
        st'.previousW = (if first then 0 else specNextW prev mode : Nat) ∧ st'.rule = .normal := by
  obtain ⟨r, tl, hsub⟩ := hsub
  subst hid
  obtain ⟨P, hP, hPw⟩ : ∃ P : DownMixingParams, specAnswers mode (if first then 0 else specNextW prev mode) =
      [.done (.ok ()), .downMixing (.ok P), .done (.ok ())] ∧
      (dmixpModeToParams mode prev (if first then .firstFrame else .normal) = .ok P ∧
        P.wIdxUsed = ((if first then 0 else specNextW prev mode : Nat) : Int)) :=
    ⟨_, rfl, toParams_eq hm prev hp first, rfl⟩
  have hget : (pm.addDemixing bl).getDownMixing e =
      (.ok P, { pm.addDemixing bl with demix := pm.demix.set e { st with w := P.wIdxUsed } }) := by
    unfold ParametersManager.getDownMixing
    simp [ParametersManager.addDemixing, h, IdMap.set, hb, hstart, hsub, hprev, hrule, hPw.1]
  have hupd : ParametersManager.updateDemixing
      { pm.addDemixing bl with demix := pm.demix.set e { st with w := P.wIdxUsed } } e bl.stop =
      (.ok (), { pm.addDemixing bl with
        demixBlocks := (pm.addDemixing bl).demixBlocks.set st.definition.id none
        demix := (pm.demix.set e { st with w := P.wIdxUsed }).set e { st with
          w := P.wIdxUsed, nextTimestamp := bl.stop, previousW := P.wIdxUsed,
          rule := if st.rule = .firstFrame then .normal else st.rule } }) := by
    unfold ParametersManager.updateDemixing
    simp [ParametersManager.addDemixing, IdMap.set, hb]
  refine ⟨(ParametersManager.updateDemixing
      { pm.addDemixing bl with demix := pm.demix.set e { st with w := P.wIdxUsed } } e bl.stop).2, ?_, ?_⟩
  · simp only [List.cons_append, List.nil_append, ParametersManager.calls, ParametersManager.call]
    rw [hget, hP]
    simp only
    rw [hupd]
    rfl
  · rw [hupd]
    refine ⟨⟨st.definition, st.default, P.wIdxUsed, P.wIdxUsed, bl.stop, if st.rule = .firstFrame then .normal else st.rule⟩,
      by simp only [IdMap.set, ↓reduceIte], rfl, rfl, hPw.2, ?_⟩
    simp only [hrule]
    cases first <;> rfl

private theorem frames_run {e pid : UInt32} (frames : List (UInt8 × BlockWithData)) (pm : ParametersManager)
    (st : DemixingState) (h : pm.demix e = some st) (hid : st.definition.id = pid)
    (hf : ContiguousFrom pid st.nextTimestamp frames) (prev : Nat) (hp : prev ≤ 10) (hprev : st.previousW = prev)
    (hrule : st.rule = .normal) :
    (pm.calls (frameCalls e frames)).1 =
      ((frames.map Prod.fst).zip (specFollowing prev (frames.map Prod.fst))).flatMap fun x => specAnswers x.1 x.2 := by
  induction frames generalizing pm st prev with
  | nil => rfl
  | cons f fs ih =>
    obtain ⟨mode, bl⟩ := f
    obtain ⟨h1, h2, h3, h4, h5⟩ := hf
    obtain ⟨pm', hrun, st', g1, g2, g3, g4, g5⟩ := frame_step h hid mode bl h1 h2 h3 h4 prev hp hprev false hrule (frameCalls e fs)
    have : frameCalls e ((mode, bl) :: fs) = [.addDemixing bl, .getDownMixing e, .updateDemixing e bl.stop] ++ frameCalls e fs := rfl
    rw [this, hrun]
    simp only [Bool.false_eq_true, ↓reduceIte] at g4
    rw [ih pm' st' g1 g2 (by rw [g3]; exact h5) _ (specNextW_le prev mode hp) g4 g5]
    rfl

/-- **C19 (the sequence of w).** An element is created with a demixing definition (whose parameter id no other element
uses) and gets contiguous demixing blocks of supported modes from time 0 on.  However the calls for other elements,
parameters and recon gains are interleaved: every call succeeds and every frame gets the specification's coefficients
and index, starting at 0 and then `Clip3(0, 10, previous ± 1)`. -/
theorem C19_w_follows_specification (elements : List (UInt32 × AudioElement)) (pm : ParametersManager)
    (hc : ParametersManager.create elements = .ok pm) (hn : (elements.map Prod.fst).Nodup) (e : UInt32) (a : AudioElement)
    (b : ParamBase) (d : DefaultDemixingInfo) (hm : (e, a) ∈ elements) (hd : demixingDefinition a = some (b, d))
    (ho : OwnParameterId elements e b.id) (frames : List (UInt8 × BlockWithData)) (hf : ContiguousFrom b.id 0 frames)
    (history : List ParamCall) (hh : history.filter (concerns e b.id) = frameCalls e frames) :
    answersFor e b.id pm history =
      ((frames.map Prod.fst).zip (specWIndices (frames.map Prod.fst))).flatMap fun x => specAnswers x.1 x.2 := by
  rw [C19_elements_do_not_interfere elements pm hc hn e a b d hm hd ho history, hh]
  obtain ⟨h1, -⟩ := create_own hc hn hm hd ho
  cases frames with
  | nil => rfl
  | cons f fs =>
    obtain ⟨mode, bl⟩ := f
    obtain ⟨g1, g2, g3, g4, g5⟩ := hf
    obtain ⟨pm', hrun, st', k1, k2, k3, k4, k5⟩ := frame_step h1 rfl mode bl g1 g2 g3 g4 0 (by omega) rfl true rfl (frameCalls e fs)
    have : frameCalls e ((mode, bl) :: fs) = [.addDemixing bl, .getDownMixing e, .updateDemixing e bl.stop] ++ frameCalls e fs := rfl
    rw [this, hrun]
    simp only [↓reduceIte] at k4
    rw [frames_run fs pm' st' k1 k2 (by rw [k3]; exact g5) 0 (by omega) k4 k5]
    rfl

/-- The specified index changes by at most one from frame to frame and stays within 0..10. -/
theorem C19_specification_moves_by_one (previous : Nat) (hp : previous ≤ 10) (mode : UInt8) :
    specNextW previous mode ≤ 10 ∧ specNextW previous mode ≤ previous + 1 ∧ previous ≤ specNextW previous mode + 1 := by
  unfold specNextW; split <;> omega

/-- A new manager has no blocks. -/
theorem created_no_blocks {elements : List (UInt32 × AudioElement)} {pm : ParametersManager} (hc : ParametersManager.create elements = .ok pm) :
    ∀ i x, pm.demixBlocks i = some x → x = none := by
  have gen : ∀ (l : List (UInt32 × AudioElement)) (p p' : ParametersManager), p.createFrom l = .ok p' →
      (∀ i x, p.demixBlocks i = some x → x = none) → ∀ i x, p'.demixBlocks i = some x → x = none := by
    intro l
    induction l with
    | nil => intro p p' h hp; simp only [ParametersManager.createFrom, Except.ok.injEq] at h; subst h; exact hp
    | cons y l ih =>
      intro p p' h hp
      simp only [ParametersManager.createFrom] at h
      split at h
      · simp at h
      next found hf =>
        refine ih _ _ h fun i x hx => ?_
        obtain ⟨f1, f2⟩ := found
        cases f1 with
        | none => cases f2 <;> exact hp i x hx
        | some q =>
          have : (p.demixBlocks.insert q.1.id none) i = some x := by cases f2 <;> exact hx
          simp only [IdMap.insert] at this
          split at this
          · simp only [Option.some.injEq] at this
            cases hq : p.demixBlocks q.1.id with
            | none => rw [hq] at this; simpa using this.symm
            | some z => rw [hq] at this; simp only [Option.getD_some] at this; subst this; exact hp _ _ hq
          · exact hp i x this
  exact gen elements _ pm hc (by simp [IdMap.empty])

/-- A new manager has the demixing definitions of the audio elements. -/
theorem created_demixing {elements : List (UInt32 × AudioElement)} {pm : ParametersManager} (hc : ParametersManager.create elements = .ok pm)
    (hn : (elements.map Prod.fst).Nodup) {e : UInt32} {a : AudioElement} (hm : (e, a) ∈ elements) :
    pm.demix e = (demixingDefinition a).map fun x => ⟨x.1, x.2, 0, 0, 0, .firstFrame⟩ := by
  have hkey := createFrom_demix (pm := ⟨.empty, .empty, .empty, .empty⟩) hc hn e
  rw [mem_lookup hn hm] at hkey
  simp only at hkey
  rw [hkey]
  cases demixingDefinition a <;> rfl

/-- **C19 (default).** As long as no block was added for the element's parameter id, the definition's default mode and
default w are used; a default w above 10 is an error. -/
theorem C19_default_without_blocks (elements : List (UInt32 × AudioElement)) (pm : ParametersManager)
    (hc : ParametersManager.create elements = .ok pm) (hn : (elements.map Prod.fst).Nodup) (e : UInt32) (a : AudioElement)
    (b : ParamBase) (d : DefaultDemixingInfo) (hm : (e, a) ∈ elements) (hd : demixingDefinition a = some (b, d)) :
    (d.info.dmixpMode ∈ ([0, 1, 2, 4, 5, 6] : List UInt8) → d.defaultW ≤ 10 →
      (pm.getDownMixing e).1 = .ok ⟨(specCoefficients d.info.dmixpMode).1,
        (specCoefficients d.info.dmixpMode).2.1, (specCoefficients d.info.dmixpMode).2.2.1,
        (specCoefficients d.info.dmixpMode).2.2.2, if 4 ≤ d.info.dmixpMode then 1 else -1, d.defaultW.toNat,
        specWValue d.defaultW.toNat, true⟩) ∧
    (10 < d.defaultW → (pm.getDownMixing e).1 = .error .invalidArgument) := by
  have hinv := inv_create hc
  have hkey := createFrom_demix (pm := ⟨.empty, .empty, .empty, .empty⟩) hc hn e
  rw [mem_lookup hn hm] at hkey
  simp only [hd] at hkey
  have hbl : pm.demixBlocks b.id = some none := by
    have h1 := hinv.blocks e _ hkey
    have h2 := created_no_blocks hc
    cases hx : pm.demixBlocks b.id with
    | none => simp only at h1; rw [hx] at h1; simp at h1
    | some x => rw [h2 _ _ hx]
  unfold ParametersManager.getDownMixing
  simp only [hkey, hbl]
  refine ⟨fun hmode hw => ?_, fun hw => ?_⟩
  · have hw' : d.defaultW.toNat ≤ 10 := hw
    generalize d.defaultW.toNat = w at hw'
    generalize d.info.dmixpMode = m at hmode
    have hprev : w = 0 ∨ w = 1 ∨ w = 2 ∨ w = 3 ∨ w = 4 ∨ w = 5 ∨ w = 6 ∨ w = 7 ∨ w = 8 ∨ w = 9 ∨ w = 10 := by omega
    simp only [List.mem_cons, List.not_mem_nil, or_false] at hmode
    rcases hmode with rfl | rfl | rfl | rfl | rfl | rfl <;>
      rcases hprev with rfl | rfl | rfl | rfl | rfl | rfl | rfl | rfl | rfl | rfl | rfl <;> rfl
  · have hw' : 10 < d.defaultW.toNat := hw
    unfold dmixpModeToParams
    split
    · rfl
    · simp only
      have : wIdxValues (d.defaultW.toNat : Int) = none := by
        unfold wIdxValues
        rw [if_neg (by omega)]
        simp
        omega
      rw [this]

/-- No block is waiting for any element. -/
def Quiet (pm : ParametersManager) : Prop :=
  (∀ e st, pm.demix e = some st → pm.demixBlocks st.definition.id = some none) ∧
  (∀ e st, pm.recon e = some st → pm.reconBlocks st.definition.id = some none)

private theorem insert_none {m : IdMap (Option BlockWithData)} {k i : UInt32} {x : Option BlockWithData}
    (h : ∀ i x, m i = some x → x = none) (hx : (m.insert k none) i = some x) : x = none := by
  simp only [IdMap.insert] at hx
  split at hx
  · simp only [Option.some.injEq] at hx
    cases hq : m k with
    | none => rw [hq] at hx; simpa using hx.symm
    | some z => rw [hq] at hx; simp only [Option.getD_some] at hx; subst hx; exact h _ _ hq
  · exact h i x hx

theorem created_quiet {l : List (UInt32 × AudioElement)} {pm : ParametersManager} (hc : ParametersManager.create l = .ok pm) :
    Quiet pm := by
  have hinv := inv_create hc
  have gen : ∀ (l : List (UInt32 × AudioElement)) (p p' : ParametersManager), p.createFrom l = .ok p' →
      ((∀ i x, p.demixBlocks i = some x → x = none) ∧ ∀ i x, p.reconBlocks i = some x → x = none) →
      (∀ i x, p'.demixBlocks i = some x → x = none) ∧ ∀ i x, p'.reconBlocks i = some x → x = none := by
    intro l
    induction l with
    | nil => intro p p' h hp; simp only [ParametersManager.createFrom, Except.ok.injEq] at h; subst h; exact hp
    | cons y l ih =>
      intro p p' h hp
      simp only [ParametersManager.createFrom] at h
      split at h
      · simp at h
      next found hf =>
        refine ih _ _ h ⟨fun i x hx => ?_, fun i x hx => ?_⟩
        · obtain ⟨f1, f2⟩ := found
          cases f1 with
          | none => cases f2 <;> exact hp.1 i x hx
          | some q =>
            have : (p.demixBlocks.insert q.1.id none) i = some x := by cases f2 <;> exact hx
            exact insert_none hp.1 this
        · obtain ⟨f1, f2⟩ := found
          cases f2 with
          | none => cases f1 <;> exact hp.2 i x hx
          | some q =>
            have : (p.reconBlocks.insert q.id none) i = some x := by cases f1 <;> exact hx
            exact insert_none hp.2 this
  obtain ⟨g1, g2⟩ := gen l _ pm hc (by simp [IdMap.empty])
  refine ⟨fun e st h => ?_, fun e st h => ?_⟩
  · have := hinv.blocks e st h
    cases hx : pm.demixBlocks st.definition.id with
    | none => rw [hx] at this; simp at this
    | some x => rw [g1 _ _ hx]
  · have := hinv.recon e st h
    cases hx : pm.reconBlocks st.definition.id with
    | none => rw [hx] at this; simp at this
    | some x => rw [g2 _ _ hx]

/-- The down-mixing parameters of an audio element for which there are no parameter blocks. -/
def defaultMixing (a : AudioElement) : DownMixingParams :=
  match demixingDefinition a with
  | none => ⟨7070, 7070, 7070, 7070, 0, 0, 0, false⟩
  | some (_, d) => ⟨(specCoefficients d.info.dmixpMode).1, (specCoefficients d.info.dmixpMode).2.1,
      (specCoefficients d.info.dmixpMode).2.2.1, (specCoefficients d.info.dmixpMode).2.2.2,
      if 4 ≤ d.info.dmixpMode then 1 else -1, d.defaultW.toNat, specWValue d.defaultW.toNat, true⟩

/-- The default that an audio element has for down-mixing, if it has one, is one that the specification knows. -/
def MixingDefault (a : AudioElement) : Prop :=
  ∀ b d, demixingDefinition a = some (b, d) → d.info.dmixpMode ∈ ([0, 1, 2, 4, 5, 6] : List UInt8) ∧ d.defaultW ≤ 10

theorem created_mixing {l : List (UInt32 × AudioElement)} {pm : ParametersManager} (hc : ParametersManager.create l = .ok pm)
    (hn : (l.map Prod.fst).Nodup) {e : UInt32} {a : AudioElement} (hm : (e, a) ∈ l) (hd : MixingDefault a) :
    pm.getDownMixing e = (.ok (defaultMixing a), pm) := by
  have hq := created_quiet hc
  have hsnd : (pm.getDownMixing e).2 = pm := by
    unfold ParametersManager.getDownMixing
    split
    · rfl
    next st hst =>
      rw [hq.1 e st hst]
  have hfst : (pm.getDownMixing e).1 = .ok (defaultMixing a) := by
    unfold defaultMixing
    split
    next h0 =>
      have hkey := createFrom_demix (pm := ⟨.empty, .empty, .empty, .empty⟩) hc hn e
      rw [mem_lookup hn hm] at hkey
      simp only [h0] at hkey
      unfold ParametersManager.getDownMixing
      rw [hkey]
      rfl
    next b d h0 =>
      obtain ⟨m1, m2⟩ := hd b d h0
      exact (C19_default_without_blocks l pm hc hn e a b d hm h0).1 m1 m2
  rw [← hfst]
  exact Prod.ext rfl hsnd

/-- **C19 (a gap is an error).** A block that does not start where the previous one of the same parameter ended is
refused with InvalidArgument, and asking has no other effect. -/
theorem C19_gap_is_refused (pm : ParametersManager) (e : UInt32) (st : DemixingState) (bl : BlockWithData)
    (h : pm.demix e = some st) (hb : bl.obu.parameterId = st.definition.id) (hg : bl.start ≠ st.nextTimestamp) :
    (pm.addDemixing bl).getDownMixing e = (.error .invalidArgument, pm.addDemixing bl) := by
  unfold ParametersManager.getDownMixing
  simp [ParametersManager.addDemixing, h, IdMap.set, hb, Ne.symm hg]

/-! ## C26: recon gains of a frame -/

private theorem recon_blocks_calls (history : List ParamCall) (pm : ParametersManager) (i : UInt32) (b : BlockWithData)
    (h : (pm.calls history).2.reconBlocks i = some (some b)) :
    pm.reconBlocks i = some (some b) ∨ (.addReconGain b ∈ history ∧ b.obu.parameterId = i) := by
  induction history generalizing pm with
  | nil => exact .inl h
  | cons c cs ih =>
    rcases ih _ h with h1 | h1
    · cases c with
      | addDemixing bl => exact .inl h1
      | addReconGain bl =>
        simp only [ParametersManager.call, ParametersManager.addReconGain, IdMap.set] at h1
        split at h1
        next heq =>
          simp only [Option.some.injEq] at h1
          subst h1
          exact .inr ⟨List.mem_cons_self, heq.symm⟩
        · exact .inl h1
      | getReconGain e n => exact .inl h1
      | getDownMixing e =>
        left
        simp only [ParametersManager.call, ParametersManager.getDownMixing] at h1
        repeat' split at h1
        all_goals exact h1
      | updateDemixing e t =>
        left
        simp only [ParametersManager.call, ParametersManager.updateDemixing] at h1
        repeat' split at h1
        all_goals exact h1
      | updateReconGain e t =>
        left
        simp only [ParametersManager.call, ParametersManager.updateReconGain] at h1
        split at h1
        · exact h1
        · split at h1
          · exact h1
          · exact h1
          · split at h1
            · exact h1
            · simp only [IdMap.set] at h1
              split at h1
              · simp at h1
              · exact h1
    · exact .inr ⟨List.mem_cons_of_mem _ h1.1, h1.2⟩

private theorem recon_blocks_create (elements : List (UInt32 × AudioElement)) (pm pm' : ParametersManager)
    (hc : pm.createFrom elements = .ok pm') (i : UInt32) (b : BlockWithData)
    (h : pm'.reconBlocks i = some (some b)) : pm.reconBlocks i = some (some b) := by
  induction elements generalizing pm with
  | nil => simp only [ParametersManager.createFrom, Except.ok.injEq] at hc; subst hc; exact h
  | cons x l ih =>
    simp only [ParametersManager.createFrom] at hc
    split at hc
    · simp at hc
    next found hf =>
      have := ih _ hc
      obtain ⟨f1, f2⟩ := found
      cases f2 with
      | none => cases f1 <;> exact this
      | some q =>
        have hq : (pm.reconBlocks.insert q.id none) i = some (some b) := by cases f1 <;> exact this
        simp only [IdMap.insert] at hq
        split at hq
        next heq =>
          simp only [Option.some.injEq] at hq
          cases hz : pm.reconBlocks q.id with
          | none => rw [hz] at hq; simp at hq
          | some z => rw [hz] at hq; simp only [Option.getD_some] at hq; rw [heq, hz, hq]
        · exact hq

/-- **C26.** Whatever recon gains are returned for an element with `n > 0` layers, after any history of calls: there is
one entry per layer; and they are either all 0 dB (255), or exactly the entries of a block that was added during this
history with the id of the element's recon gain parameter, and that starts at the element's current time. -/
theorem C26_recon_gains_match_layers (elements : List (UInt32 × AudioElement)) (pm : ParametersManager)
    (hc : ParametersManager.create elements = .ok pm) (history : List ParamCall) (e : UInt32) (n : Int32)
    (hn : 0 < n.toInt) (es : List (Option ReconGainElement)) (h : (pm.calls history).2.getReconGain e n = .ok es) :
    es.length = n.toInt.toNat ∧
    ((∀ x ∈ es, x = some ⟨0, [255, 255, 255, 255, 255, 255, 255, 255, 255, 255, 255, 255]⟩) ∨
      ∃ st b fl tl, (pm.calls history).2.recon e = some st ∧ .addReconGain b ∈ history ∧
        b.obu.parameterId = st.definition.id ∧
        b.start = st.nextTimestamp ∧ b.obu.subblocks = some (.reconGain fl es) :: tl) := by
  have hfrom : ∀ i b, (pm.calls history).2.reconBlocks i = some (some b) → .addReconGain b ∈ history ∧ b.obu.parameterId = i := by
    intro i b hb
    rcases recon_blocks_calls history pm i b hb with h1 | h1
    · have := recon_blocks_create elements _ pm hc i b h1
      simp [IdMap.empty] at this
    · exact h1
  revert h hfrom
  generalize (pm.calls history).2 = pm
  intro h hfrom
  unfold ParametersManager.getReconGain at h
  have hrep : es = List.replicate n.toInt.toNat ParametersManager.neutralReconGain →
      es.length = n.toInt.toNat ∧
      (∀ x ∈ es, x = some ⟨0, [255, 255, 255, 255, 255, 255, 255, 255, 255, 255, 255, 255]⟩) := by
    rintro rfl
    refine ⟨List.length_replicate, fun x hx => ?_⟩
    rw [List.eq_of_mem_replicate hx]
    rfl
  split at h
  · simp only [Except.ok.injEq] at h
    exact ⟨(hrep h.symm).1, .inl (hrep h.symm).2⟩
  next st hst =>
    split at h
    · simp at h
    · simp only [Except.ok.injEq] at h
      exact ⟨(hrep h.symm).1, .inl (hrep h.symm).2⟩
    next b hb =>
      split at h
      · simp at h
      next hts =>
        split at h
        · simp at h
        next fl es' tl hsub =>
          split at h
          · simp at h
          next hlen =>
            simp only [Except.ok.injEq] at h
            subst h
            have : es'.length = n.toInt.toNat := by
              by_cases hx : es'.length = n.toInt.toNat
              · exact hx
              · exact absurd ⟨hn, hx⟩ hlen
            refine ⟨this, .inr ⟨st, b, fl, tl, hst, (hfrom _ _ hb).1, (hfrom _ _ hb).2, ?_, hsub⟩⟩
            exact (Classical.not_not.mp hts).symm
        · simp at h

/-! ### Examples -/

/-- Two elements with demixing definitions (parameter ids 10 and 20), and one without. -/
def demixElement (id pid : UInt32) : AudioElement :=
  ⟨id, 0, 0, 0, [id], [⟨⟨pid, 48000, 0, none⟩, .demixing ⟨⟨1, 0⟩, 9, 0⟩⟩], .extension []⟩
def exampleElements (pid : UInt32) : List (UInt32 × AudioElement) :=
  [(1, demixElement 1 10), (2, demixElement 2 pid), (3, ⟨3, 0, 0, 0, [3], [], .extension []⟩)]
def demixBlock (pid : UInt32) (mode : UInt8) (start stop : Int) : BlockWithData :=
  ⟨⟨pid, none, [some (.demixing ⟨mode, 0⟩)]⟩, start, stop, ⟨3, false, false, 0, 0, none⟩, ⟨⟨pid, 48000, 0, none⟩, .demixing ⟨⟨1, 0⟩, 9, 0⟩⟩⟩

/-- The w indices and errors among the answers. -/
def wsOf (l : List ParamAnswer) : List (Except Err Int) :=
  l.filterMap fun
    | .downMixing (.ok p) => some (.ok p.wIdxUsed)
    | .downMixing (.error e) => some (.error e)
    | _ => none

example : ∃ pm, ParametersManager.create (exampleElements 20) = .ok pm := ⟨_, rfl⟩
example : ContiguousFrom 10 0 [(6, demixBlock 10 6 0 8), (5, demixBlock 10 5 8 16), (4, demixBlock 10 4 16 24)] := by
  simp [ContiguousFrom, demixBlock]
example : specWIndices [6, 5, 4, 0] = [0, 1, 2, 1] := by decide
example : OwnParameterId (exampleElements 20) 1 10 := by
  intro x hx hne b d hd
  simp only [exampleElements, List.mem_cons, List.not_mem_nil, or_false] at hx
  rcases hx with rfl | rfl | rfl
  · exact absurd rfl hne
  · simp only [demixingDefinition, demixElement, List.findSome?_cons, Option.some.injEq, Prod.mk.injEq] at hd
    rw [← hd.1]; decide
  · simp [demixingDefinition] at hd

/-- **C19 (finding).** If two audio elements use the same demixing parameter id, advancing the first one drops the
block, so the second one is not advanced: the next frame works for the first element and fails for the second. -/
theorem C19_shared_parameter_id_breaks_second_element :
    (match ParametersManager.create (exampleElements 10) with
      | .error _ => []
      | .ok pm => wsOf (pm.calls [.addDemixing (demixBlock 10 6 0 8), .getDownMixing 1, .getDownMixing 2,
          .updateDemixing 1 8, .updateDemixing 2 8,
          .addDemixing (demixBlock 10 6 8 16), .getDownMixing 1, .getDownMixing 2]).1) =
      [.ok 0, .ok 0, .ok 1, .error .invalidArgument] := by decide +kernel


/-- An element with a recon gain definition for two layers, and a block for it. -/
def reconElement : AudioElement := ⟨1, 0, 0, 0, [1], [⟨⟨10, 48000, 0, none⟩, .reconGain [true, true]⟩], .extension []⟩
def reconBlock : BlockWithData := ⟨⟨10, none, [some (.reconGain [true, true] [some ⟨1, [7]⟩, none])]⟩, 0, 8, ⟨3, false, false, 0, 0, none⟩,
  ⟨⟨10, 48000, 0, none⟩, .reconGain [true, true]⟩⟩

example : (match ParametersManager.create [(1, reconElement)] with
    | .error _ => none
    | .ok pm => some ((pm.calls [.addReconGain reconBlock]).2.getReconGain 1 2)) =
    some (.ok [some ⟨1, [7]⟩, none]) := by decide +kernel
example : (match ParametersManager.create [(1, reconElement)] with
    | .error _ => none
    | .ok pm => some ((pm.calls [.addReconGain reconBlock, .updateReconGain 1 8]).2.getReconGain 1 2)) =
    some (.ok [ParametersManager.neutralReconGain, ParametersManager.neutralReconGain]) := by decide +kernel

end Iamf.Props

