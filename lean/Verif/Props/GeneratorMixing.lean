import Verif.Props.GeneratorQueue
import Verif.Props.Parameters
/-
  C44: which down-mixing parameters a round of samples gets.
-/
namespace Iamf.Props
open Iamf

/-! ### The specification -/

/-- The down-mixing parameters of an audio element without demixing parameters. -/
def plainMixing : DownMixingParams := ⟨7070, 7070, 7070, 7070, 0, 0, 0, false⟩

/-- The down-mixing parameters of the IAMF specification for a mode and an index of `w`. -/
def specMixing (mode : UInt8) (w : Nat) : DownMixingParams :=
  ⟨(specCoefficients mode).1, (specCoefficients mode).2.1, (specCoefficients mode).2.2.1, (specCoefficients mode).2.2.2,
    if 4 ≤ mode then 1 else -1, w, specWValue w, true⟩

/-- The mode in a parameter block with demixing data. -/
def modeOf (b : BlockWithData) : UInt8 := match b.obu.subblocks with
  | some (.demixing d) :: _ => d.dmixpMode
  | _ => 0

/-- The index of `w` for a parameter block with this mode, after the index `w`. -/
def nextIndex (w : Option Nat) (mode : UInt8) : Nat := match w with
  | none => 0
  | some p => specNextW p mode

/-- The index of `w` after a round: it changes with every parameter block; the first one sets it to 0. -/
def wStep (w : Option Nat) : Option BlockWithData → Option Nat
  | none => w
  | some b => some (nextIndex w (modeOf b))

/-- The down-mixing parameters for one round: those of the parameter block, or the default if there is none. -/
def mixingFor (d : DefaultDemixingInfo) (w : Option Nat) : Option BlockWithData → DownMixingParams
  | none => specMixing d.info.dmixpMode d.defaultW.toNat
  | some b => specMixing (modeOf b) ((wStep w (some b)).getD 0)

/-- The down-mixing parameters for rounds with these parameter blocks. -/
def specMixings (d : DefaultDemixingInfo) : Option Nat → List (Option BlockWithData) → List DownMixingParams
  | _, [] => []
  | w, o :: os => mixingFor d w o :: specMixings d (wStep w o) os

/-- When the next parameter block has to start. -/
def timeStep (t : Int) : Option BlockWithData → Int
  | none => t
  | some b => b.stop

/-- The parameter blocks (one or none for each round) fit an audio element with this demixing definition: each one is for the definition, starts
where the one before it ends, and ends with its round of `n` samples. -/
def BlocksFit (id : UInt32) (n : Nat) : Nat → Int → List (Option BlockWithData) → Prop
  | _, _, [] => True
  | k, t, o :: os => (∀ b, o = some b → b.obu.parameterId = id ∧ b.start = t ∧ b.stop = ((k + 1) * n : Nat)) ∧ BlocksFit id n (k + 1) (timeStep t o) os

/-- The down-mixing parameters `ms` are those for the demixing definition and the parameter blocks. -/
def MixingsFor (definition : Option (ParamBase × DefaultDemixingInfo)) (n : Nat) (blocks : List (Option BlockWithData)) (ms : List DownMixingParams) :
    Prop := match definition with
  | none => ms = List.replicate ms.length plainMixing
  | some (b, d) => ms = specMixings d none blocks ∧ BlocksFit b.id n 0 0 blocks

/-! ### One more round -/

theorem specMixings_append (d : DefaultDemixingInfo) (w : Option Nat) (os : List (Option BlockWithData)) (o : Option BlockWithData) :
    specMixings d w (os ++ [o]) = specMixings d w os ++ [mixingFor d (os.foldl wStep w) o] := by
  induction os generalizing w with
  | nil => rfl
  | cons a os ih => simp only [List.cons_append, specMixings, ih, List.foldl_cons]

theorem blocksFit_append (id : UInt32) (n k : Nat) (t : Int) (os : List (Option BlockWithData)) (o : Option BlockWithData) :
    BlocksFit id n k t (os ++ [o]) ↔ BlocksFit id n k t os ∧
      ∀ b, o = some b → b.obu.parameterId = id ∧ b.start = os.foldl timeStep t ∧ b.stop = ((k + os.length + 1) * n : Nat) := by
  induction os generalizing k t with
  | nil => simp [BlocksFit]
  | cons a os ih =>
    simp only [List.cons_append, BlocksFit, ih, List.foldl_cons, List.length_cons]
    rw [show k + 1 + os.length + 1 = k + (os.length + 1) + 1 by omega]
    exact and_assoc.symm

theorem wAfter_le (os : List (Option BlockWithData)) : ∀ w : Option Nat, (∀ p, w = some p → p ≤ 10) → ∀ p, os.foldl wStep w = some p → p ≤ 10 := by
  induction os with
  | nil => exact fun w h => h
  | cons o os ih =>
    intro w h
    refine ih _ fun p hp => ?_
    cases o with
    | none => exact h p hp
    | some b =>
      simp only [wStep, Option.some.injEq] at hp
      subst hp
      cases w with
      | none => exact Nat.zero_le _
      | some q => exact specNextW_le q _ (h q rfl)

/-! ### The manager -/

/-- The state of the manager for an audio element, after rounds with these parameter blocks. -/
def MixState (pm : ParametersManager) (e : UInt32) (definition : Option (ParamBase × DefaultDemixingInfo)) (os : List (Option BlockWithData)) : Prop :=
  match definition with
  | none => pm.demix e = none
  | some (b, d) => ∃ w, pm.demix e = some ⟨b, d, ((os.foldl wStep none).getD 0 : Nat), w, os.foldl timeStep 0,
      if os.foldl wStep none = none then .firstFrame else .normal⟩

/-- The block that waits for an audio element. -/
def waitingBlock (pm : ParametersManager) (e : UInt32) : Option BlockWithData := match pm.demix e with
  | none => none
  | some st => (pm.demixBlocks st.definition.id).getD none

/-- Waiting blocks are filed under their id, and are among those that were given. -/
def Filed (given : BlockWithData → Prop) (pm : ParametersManager) : Prop :=
  ∀ i b, pm.demixBlocks i = some (some b) → b.obu.parameterId = i ∧ given b

theorem toParams_mode {mode : UInt8} {prev : Int} {rule : WIdxRule} {p : DownMixingParams} (h : dmixpModeToParams mode prev rule = .ok p) :
    mode ∈ ([0, 1, 2, 4, 5, 6] : List UInt8) := by
  unfold dmixpModeToParams at h
  split at h
  · cases h
  next hv =>
    unfold dmixpModeValues at hv
    simp only [List.mem_cons, List.not_mem_nil, or_false]
    repeat' split at hv
    all_goals first | (cases hv; done) | simp_all

theorem toParams_default {mode : UInt8} {w : Nat} {p : DownMixingParams} (h : dmixpModeToParams mode w .default = .ok p) :
    p = specMixing mode w ∧ w ≤ 10 := by
  have hm := toParams_mode h
  have hw : w ≤ 10 := by
    unfold dmixpModeToParams at h
    split at h
    · cases h
    · simp only at h
      split at h
      · cases h
      next hv => have := (wIdxValues_ok hv).2.1; omega
  refine ⟨?_, hw⟩
  have : w = 0 ∨ w = 1 ∨ w = 2 ∨ w = 3 ∨ w = 4 ∨ w = 5 ∨ w = 6 ∨ w = 7 ∨ w = 8 ∨ w = 9 ∨ w = 10 := by omega
  simp only [List.mem_cons, List.not_mem_nil, or_false] at hm
  rcases hm with rfl | rfl | rfl | rfl | rfl | rfl <;>
    rcases this with rfl | rfl | rfl | rfl | rfl | rfl | rfl | rfl | rfl | rfl | rfl <;> exact (Except.ok.inj h).symm

theorem toParams_next {mode : UInt8} {w : Option Nat} (hw : ∀ p, w = some p → p ≤ 10) {p : DownMixingParams}
    (h : dmixpModeToParams mode ((w.getD 0 : Nat) : Int) (if w = none then .firstFrame else .normal) = .ok p) :
    p = specMixing mode (nextIndex w mode) := by
  have hm := toParams_mode h
  cases w with
  | none =>
    have := toParams_eq hm 0 (by omega) true
    simp only [if_true, Option.getD_none] at this h
    rw [this] at h
    exact (Except.ok.inj h).symm
  | some q =>
    have := toParams_eq hm q (hw q rfl) false
    simp only [Bool.false_eq_true, if_false, Option.getD_some, reduceCtorEq] at this h
    rw [this] at h
    exact (Except.ok.inj h).symm

/-- Asking for the parameters and noting that a round is done, as the generator does. -/
theorem round_mixing {pm pm' : ParametersManager} {e : UInt32} {definition : Option (ParamBase × DefaultDemixingInfo)} {n : Nat}
    {os : List (Option BlockWithData)} {ms : List DownMixingParams} {p : DownMixingParams} {given : BlockWithData → Prop}
    (hs : MixState pm e definition os) (hf : Filed given pm) (hmix : MixingsFor definition n os ms) (hl : ms.length = os.length)
    (hget : (pm.getDownMixing e).1 = .ok p) (hup : (pm.getDownMixing e).2.updateDemixing e ((os.length + 1) * n : Nat) = (.ok (), pm')) :
    MixState pm' e definition (os ++ [waitingBlock pm e]) ∧ Filed given pm' ∧ MixingsFor definition n (os ++ [waitingBlock pm e]) (ms ++ [p]) ∧
      (∀ b, waitingBlock pm e = some b → given b) ∧ waitingBlock pm' e = none ∧
      ∀ e', e' ≠ e → pm'.demix e' = pm.demix e' ∧
        ∀ st, pm'.demix e' = some st → (∀ b d, definition = some (b, d) → st.definition.id ≠ b.id) → pm'.demixBlocks st.definition.id = pm.demixBlocks st.definition.id := by
  cases definition with
  | none =>
    have hs' : pm.demix e = none := hs
    have hg : pm.getDownMixing e = (.ok plainMixing, pm) := by unfold ParametersManager.getDownMixing; rw [hs']; rfl
    rw [hg] at hget hup
    simp only at hget hup
    have hu : pm.updateDemixing e ((os.length + 1) * n : Nat) = (.ok (), pm) := by unfold ParametersManager.updateDemixing; rw [hs']
    rw [hu] at hup
    obtain rfl : pm = pm' := (Prod.mk.injEq .. ▸ hup).2
    have hp : p = plainMixing := (Except.ok.inj hget).symm
    have hw : waitingBlock pm e = none := by unfold waitingBlock; rw [hs']
    refine ⟨hs', hf, ?_, fun b hb => by (rw [hw] at hb; cases hb), hw, fun e' _ => ⟨rfl, fun _ _ _ => rfl⟩⟩
    have hm : ms = List.replicate ms.length plainMixing := hmix
    show ms ++ [p] = List.replicate (ms ++ [p]).length plainMixing
    rw [List.length_append, List.length_singleton, List.replicate_succ', ← hm, hp]
  | some x =>
    obtain ⟨b, d⟩ := x
    obtain ⟨w0, hst⟩ := hs
    obtain ⟨hms, hfit⟩ := hmix
    obtain ⟨st, hstd⟩ : ∃ st : DemixingState, st = ⟨b, d, ((os.foldl wStep none).getD 0 : Nat), w0, os.foldl timeStep 0,
      if os.foldl wStep none = none then .firstFrame else .normal⟩ := ⟨_, rfl⟩
    rw [← hstd] at hst
    have hid : st.definition.id = b.id := by rw [hstd]
    have hwb : waitingBlock pm e = (pm.demixBlocks b.id).getD none := by unfold waitingBlock; rw [hst, ← hid]
    have hwle : ∀ q, os.foldl wStep none = some q → q ≤ 10 := wAfter_le os none (fun q hq => by cases hq)
    cases hb : pm.demixBlocks b.id with
    | none =>
      exfalso
      unfold ParametersManager.getDownMixing at hget
      simp only [hst, hid, hb] at hget
      cases hget
    | some o =>
      cases o with
      | none =>
        have hw : waitingBlock pm e = none := by rw [hwb, hb]; rfl
        have hg : pm.getDownMixing e = (dmixpModeToParams d.info.dmixpMode d.defaultW.toNat .default, pm) := by
          unfold ParametersManager.getDownMixing
          simp only [hst, hid, hb]
          rw [hstd]
        rw [hg] at hget hup
        simp only at hget hup
        have hu : pm.updateDemixing e ((os.length + 1) * n : Nat) = (.ok (), pm) := by
          unfold ParametersManager.updateDemixing
          simp only [hst, hid, hb]
        rw [hu] at hup
        obtain rfl : pm = pm' := (Prod.mk.injEq .. ▸ hup).2
        rw [hw]
        refine ⟨⟨w0, ?_⟩, hf, ⟨?_, ?_⟩, fun b' hb' => by (cases hb'), rfl, fun e' _ => ⟨rfl, fun _ _ _ => rfl⟩⟩
        · rw [hst, hstd]; simp only [List.foldl_append, List.foldl_cons, List.foldl_nil, wStep, timeStep]
        · rw [specMixings_append, ← hms, (toParams_default hget).1]; rfl
        · rw [blocksFit_append]; exact ⟨hfit, fun b' hb' => by cases hb'⟩
      | some blk =>
        have hw : waitingBlock pm e = some blk := by rw [hwb, hb]; rfl
        have hfiled := hf _ _ hb
        have hget' := hget
        unfold ParametersManager.getDownMixing at hget'
        simp only [hst, hid, hb] at hget'
        by_cases ht : st.nextTimestamp ≠ blk.start
        · rw [if_pos ht] at hget'; cases hget'
        rw [if_neg ht] at hget'
        split at hget'
        case h_2 => cases hget'
        next dd rest hsub =>
        cases hp0 : dmixpModeToParams dd.dmixpMode st.previousW st.rule with
        | error err => rw [hp0] at hget'; cases hget'
        | ok p' =>
        rw [hp0] at hget'
        obtain rfl : p' = p := Except.ok.inj hget'
        have hg : pm.getDownMixing e = (.ok p', { pm with demix := pm.demix.set e { st with w := p'.wIdxUsed } }) := by
          unfold ParametersManager.getDownMixing
          simp only [hst, hid, hb, if_neg ht, hsub, hp0]
        have hmode : modeOf blk = dd.dmixpMode := by unfold modeOf; rw [hsub]
        have hp1 : p' = specMixing (modeOf blk) ((wStep (os.foldl wStep none) (some blk)).getD 0) := by
          rw [hstd] at hp0
          rw [toParams_next hwle hp0, hmode]
          simp only [wStep, hmode, Option.getD_some]
        have hused : p'.wIdxUsed = (((wStep (os.foldl wStep none) (some blk)).getD 0 : Nat) : Int) := by rw [hp1]; rfl
        rw [hg] at hup
        unfold ParametersManager.updateDemixing at hup
        simp only [IdMap.set, if_true, hid, hb] at hup
        by_cases hx : (((os.length + 1) * n : Nat) : Int) ≠ blk.stop
        · rw [if_pos hx] at hup; cases hup
        rw [if_neg hx] at hup
        have hpm : pm' = _ := ((Prod.mk.injEq .. ▸ hup).2).symm
        rw [hw]
        have hdem : pm'.demix e = some ⟨b, d, ((wStep (os.foldl wStep none) (some blk)).getD 0 : Nat), p'.wIdxUsed, blk.stop, .normal⟩ := by
          have hrule : (if st.rule = .firstFrame then WIdxRule.normal else st.rule) = .normal := by
            rw [hstd]
            cases os.foldl wStep none <;> simp
          rw [hpm]
          simp only [IdMap.set, if_true, hrule, ← hused]
          rw [hstd]
        have hblk : ∀ i, pm'.demixBlocks i = if i = b.id then some none else pm.demixBlocks i := by
          intro i; rw [hpm]; rfl
        refine ⟨⟨p'.wIdxUsed, ?_⟩, ?_, ⟨?_, ?_⟩, fun b' hb' => ?_, ?_, fun e' hne => ⟨?_, fun st' _ hne' => ?_⟩⟩
        · rw [hdem]
          simp only [List.foldl_append, List.foldl_cons, List.foldl_nil, timeStep, wStep, Option.getD_some, reduceCtorEq, if_false]
        · intro i b' hb'
          rw [hblk] at hb'
          split at hb'
          · cases hb'
          · exact hf i b' hb'
        · rw [specMixings_append, ← hms, hp1]; rfl
        · rw [blocksFit_append]
          refine ⟨hfit, fun b' hb' => ?_⟩
          cases hb'
          refine ⟨hfiled.1, ?_, ?_⟩
          · have := Decidable.not_not.mp ht
            rw [hstd] at this
            exact this.symm
          · rw [Nat.zero_add]
            exact (Decidable.not_not.mp hx).symm
        · cases hb'; exact hfiled.2
        · unfold waitingBlock; rw [hdem]; simp only [hblk, if_true]; rfl
        · rw [hpm]; simp only [IdMap.set, if_neg hne]
        · rw [hblk, if_neg (hne' b d rfl)]

/-- Asking again gives the same. -/
theorem getDownMixing_again {pm : ParametersManager} {e : UInt32} {p : DownMixingParams} (h : (pm.getDownMixing e).1 = .ok p) :
    (pm.getDownMixing e).2.getDownMixing e = (.ok p, (pm.getDownMixing e).2) := by
  obtain ⟨⟨a, pm1⟩, h1⟩ : ∃ x, x = pm.getDownMixing e := ⟨_, rfl⟩
  rw [← h1] at h ⊢
  simp only at h
  subst h
  unfold ParametersManager.getDownMixing at h1
  cases hd : pm.demix e with
  | none =>
    rw [hd] at h1
    simp only [Prod.mk.injEq] at h1
    rw [h1.2, h1.1]
    unfold ParametersManager.getDownMixing
    rw [hd]
  | some st =>
    rw [hd] at h1
    simp only at h1
    cases hb : pm.demixBlocks st.definition.id with
    | none => rw [hb] at h1; simp only [Prod.mk.injEq] at h1; cases h1.1
    | some o =>
      cases o with
      | none =>
        rw [hb] at h1
        simp only [Prod.mk.injEq] at h1
        rw [h1.2, h1.1]
        unfold ParametersManager.getDownMixing
        simp only [hd, hb]
      | some blk =>
        rw [hb] at h1
        simp only at h1
        by_cases ht : st.nextTimestamp ≠ blk.start
        · rw [if_pos ht] at h1; simp only [Prod.mk.injEq] at h1; cases h1.1
        rw [if_neg ht] at h1
        split at h1
        case h_2 => simp only [Prod.mk.injEq] at h1; cases h1.1
        next dd rest hsub =>
        cases hp0 : dmixpModeToParams dd.dmixpMode st.previousW st.rule with
        | error err => rw [hp0] at h1; simp only [Prod.mk.injEq] at h1; cases h1.1
        | ok p' =>
        rw [hp0] at h1
        simp only [Prod.mk.injEq, Except.ok.injEq] at h1
        obtain ⟨rfl, rfl⟩ := h1
        unfold ParametersManager.getDownMixing
        simp only [IdMap.set, if_true, hb, if_neg ht, hsub, hp0]
        congr 2
        funext i
        simp only [IdMap.set]
        split <;> rfl

theorem MixState.congr {pm pm' : ParametersManager} {e : UInt32} {definition : Option (ParamBase × DefaultDemixingInfo)}
    {os : List (Option BlockWithData)} (h : MixState pm e definition os) (he : pm'.demix e = pm.demix e) : MixState pm' e definition os := by
  unfold MixState at h ⊢
  cases definition with
  | none => exact he.trans h
  | some x => rw [he]; exact h

theorem MixState.id_of {pm : ParametersManager} {e : UInt32} {definition : Option (ParamBase × DefaultDemixingInfo)}
    {os : List (Option BlockWithData)} (h : MixState pm e definition os) {st : DemixingState} (hs : pm.demix e = some st) :
    ∃ b d, definition = some (b, d) ∧ st.definition.id = b.id := by
  cases definition with
  | none => rw [show pm.demix e = none from h] at hs; cases hs
  | some x =>
    obtain ⟨w, hw⟩ := h
    rw [hs, Option.some.injEq] at hw
    exact ⟨x.1, x.2, rfl, by rw [hw]⟩

theorem add_filed {given : BlockWithData → Prop} {pm : ParametersManager} (h : Filed given pm) {b : BlockWithData} (hb : given b) :
    Filed given (pm.addDemixing b) := by
  intro i b' hb'
  simp only [ParametersManager.addDemixing, IdMap.set] at hb'
  split at hb'
  next hi => simp only [Option.some.injEq] at hb'; subst hb'; exact ⟨hi.symm, hb⟩
  · exact h i b' hb'

theorem add_waiting (pm : ParametersManager) (b : BlockWithData) {e : UInt32} {definition : Option (ParamBase × DefaultDemixingInfo)}
    {os : List (Option BlockWithData)} (h : MixState pm e definition os) :
    waitingBlock (pm.addDemixing b) e = if some b.obu.parameterId = definition.map fun d => d.1.id then some b else waitingBlock pm e := by
  cases definition with
  | none =>
    have h' : pm.demix e = none := h
    simp [waitingBlock, ParametersManager.addDemixing, h']
  | some x =>
    obtain ⟨w, hw⟩ := h
    simp only [waitingBlock, ParametersManager.addDemixing, hw, IdMap.set, Option.map_some, Option.some.injEq]
    by_cases hi : b.obu.parameterId = x.1.id
    · rw [if_pos hi, if_pos hi.symm]; rfl
    · rw [if_neg hi, if_neg fun hc => hi hc.symm]

theorem created_demix_state {elements : List (UInt32 × AudioElement)} {pm : ParametersManager} (hc : ParametersManager.create elements = .ok pm)
    (hn : (elements.map Prod.fst).Nodup) (given : BlockWithData → Prop) :
    Filed given pm ∧ ∀ e a, (e, a) ∈ elements → MixState pm e (demixingDefinition a) [] ∧ waitingBlock pm e = none := by
  have h1 := created_no_blocks hc
  refine ⟨fun i b hb => (by cases h1 i _ hb), fun e a hm => ⟨?_, ?_⟩⟩
  · unfold MixState
    have h2 := created_demixing hc hn hm
    cases hd : demixingDefinition a with
    | none => rw [hd] at h2; exact h2
    | some x => rw [hd] at h2; exact ⟨0, h2⟩
  · unfold waitingBlock
    split
    · rfl
    next st _ =>
      cases hb : pm.demixBlocks st.definition.id with
      | none => rfl
      | some o => exact h1 _ _ hb

end Iamf.Props
