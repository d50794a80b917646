import Verif.Props.GeneratorMixing
/-
  Lemmas for C44: what one round of samples, or one round of flushing, does to the substreams of an audio element.
-/
namespace Iamf.Props
open Iamf

/-! ### Rounds -/

/-- One round of samples for an audio element: the parameter block with demixing data that is used, the down-mixing parameters, how many samples, and
the samples of each channel after down-mixing. -/
structure Round where
  demixing : Option BlockWithData
  mixing : DownMixingParams
  ticks : Nat
  block : Label → Samples

/-- What the rounds of an audio element depend on: the number of samples per frame, how many zeros come first (in the frames that are sent
along, and in what goes to the encoder), the gains of the labels, and the id. -/
structure Spot where
  n : UInt32
  delay : Nat
  start : Nat
  linear : Int16 → Rat
  gains : LabelGains
  element : UInt32

namespace Spot
variable (S : Spot)

/-- The samples of a channel that wait to be sent along with a frame. -/
def obuQueue (H : List Round) (l : Label) : List Rat := restOf S.n.toNat 0 (List.replicate S.delay 0) (H.map fun r => r.block l)

/-- The samples of a channel that wait to be encoded. -/
def encQueue (H : List Round) (l : Label) : List Int32 :=
  restOf S.n.toNat 0 (List.replicate S.start 0) (H.map fun r => toEncoder S.linear S.gains l (r.block l))

/-- How many samples wait. -/
def left (H : List Round) : Nat := restLength S.n.toNat S.delay (H.map Round.ticks)

/-- How many zeros were added. -/
def pads (H : List Round) : Nat := (padLengths S.n.toNat S.delay (H.map Round.ticks)).sum

/-- What goes to the encoder of a substream in a round after `H`. -/
def frameOf (s : UInt32) (ls : List Label) (H : List Round) (r : Round) : List (List Int32) × GenFrame :=
  (ls.map fun l => (padded S.n.toNat 0 (S.encQueue H l ++ toEncoder S.linear S.gains l (r.block l))).take S.n.toNat,
    ⟨s, UInt32.ofNat (S.n.toNat - (S.left H + r.ticks)) ≠ 0 || UInt32.ofNat (min S.n.toNat (S.delay - H.length * S.n.toNat)) ≠ 0,
      UInt32.ofNat (S.n.toNat - (S.left H + r.ticks)), UInt32.ofNat (min S.n.toNat (S.delay - H.length * S.n.toNat)),
      (H.length * S.n.toNat : Nat), ((H.length + 1) * S.n.toNat : Nat),
      ls.map fun l => (padded S.n.toNat 0 (S.obuQueue H l ++ r.block l)).take S.n.toNat, r.mixing, S.element⟩)

/-- All that goes to the encoder of a substream, in rounds `H` after rounds `G`. -/
def framesFrom (s : UInt32) (ls : List Label) : List Round → List Round → List (List (List Int32) × GenFrame)
  | _, [] => []
  | G, r :: H => S.frameOf s ls G r :: framesFrom s ls (G ++ [r]) H

theorem framesFrom_append (s : UInt32) (ls : List Label) (G H : List Round) (r : Round) :
    S.framesFrom s ls G (H ++ [r]) = S.framesFrom s ls G H ++ [S.frameOf s ls (G ++ H) r] := by
  induction H generalizing G with
  | nil => simp [framesFrom]
  | cons x H ih => simp only [List.cons_append, framesFrom, ih, List.append_assoc, List.nil_append]

theorem framesFrom_length (s : UInt32) (ls : List Label) (G H : List Round) : (S.framesFrom s ls G H).length = H.length := by
  induction H generalizing G with
  | nil => rfl
  | cons x H ih => simp [framesFrom, ih]

theorem framesFrom_get (s : UInt32) (ls : List Label) (G H : List Round) (j : Nat) (r : Round) (h : H[j]? = some r) :
    (S.framesFrom s ls G H)[j]? = some (S.frameOf s ls (G ++ H.take j) r) := by
  induction H generalizing G j with
  | nil => simp at h
  | cons x H ih =>
    cases j with
    | zero =>
      rw [List.getElem?_cons_zero, Option.some.injEq] at h
      subst h
      simp [framesFrom]
    | succ j =>
      rw [List.getElem?_cons_succ] at h
      simp only [framesFrom, List.getElem?_cons_succ, ih _ _ h, List.take_succ_cons, List.append_assoc, List.cons_append, List.nil_append]

end Spot

/-- Every channel of a round has the same number of samples. -/
def Even (labels : List Label) (H : List Round) : Prop := ∀ r ∈ H, ∀ l ∈ labels, (r.block l).length = r.ticks

theorem obuQueue_length (S : Spot) {labels : List Label} {H : List Round} (h : Even labels H) {l : Label} (hl : l ∈ labels) :
    (S.obuQueue H l).length = S.left H := by
  unfold Spot.obuQueue Spot.left
  rw [restOf_length, List.map_map, List.length_replicate]
  rw [show H.map (List.length ∘ fun r => r.block l) = H.map Round.ticks from List.map_congr_left fun r hr => h r hr l hl]

theorem encQueue_length (S : Spot) {labels : List Label} {H : List Round} (h : Even labels H) {l : Label} (hl : l ∈ labels) :
    (S.encQueue H l).length = restLength S.n.toNat S.start (H.map Round.ticks) := by
  unfold Spot.encQueue
  rw [restOf_length, List.map_map, List.length_replicate]
  rw [show H.map (List.length ∘ fun r => toEncoder S.linear S.gains l (r.block l)) = H.map Round.ticks from
    List.map_congr_left fun r hr => by
      show (toEncoder S.linear S.gains l (r.block l)).length = r.ticks
      unfold toEncoder
      rw [List.length_map, h r hr l hl]]

theorem Spot.left_append (S : Spot) (H : List Round) (r : Round) :
    S.left (H ++ [r]) = S.left H + r.ticks + (S.n.toNat - (S.left H + r.ticks)) - S.n.toNat := by
  unfold Spot.left
  rw [List.map_append, List.map_singleton, restLength_append]

theorem Spot.pads_append (S : Spot) (H : List Round) (r : Round) : S.pads (H ++ [r]) = S.pads H + (S.n.toNat - (S.left H + r.ticks)) := by
  unfold Spot.pads Spot.left
  rw [List.map_append, List.map_singleton, padLengths_append, List.sum_append, List.sum_singleton]

theorem Spot.obuQueue_append (S : Spot) (H : List Round) (r : Round) (l : Label) :
    S.obuQueue (H ++ [r]) l = (padded S.n.toNat 0 (S.obuQueue H l ++ r.block l)).drop S.n.toNat := by
  unfold Spot.obuQueue
  rw [List.map_append, List.map_singleton, restOf_append]

theorem Spot.encQueue_append (S : Spot) (H : List Round) (r : Round) (l : Label) :
    S.encQueue (H ++ [r]) l = (padded S.n.toNat 0 (S.encQueue H l ++ toEncoder S.linear S.gains l (r.block l))).drop S.n.toNat := by
  unfold Spot.encQueue
  rw [List.map_append, List.map_singleton, restOf_append]

/-! ### Down-mixing -/

/-- All channels that are there have `k` samples. -/
def Uniform (k : Nat) (m : SamplesMap) : Prop := ∀ l s, m l = some s → s.length = k

private theorem store_uniform {k : Nat} (p : MixFactors) (x : Nat → Label → Rat) (outs : List (Label × (MixFactors → (Label → Rat) → Rat))) :
    ∀ m, Uniform k m → Uniform k (storeOutputs p x k outs m) := by
  unfold storeOutputs
  induction outs with
  | nil => intro m h; exact h
  | cons o outs ih =>
    intro m h
    rw [List.foldl_cons]
    refine ih _ ?_
    intro l s hs
    simp only [SamplesMap.set] at hs
    split at hs
    · rw [Option.some.injEq] at hs; subst hs; simp
    · exact h l s hs

private theorem present_reports {k : Nat} {m : SamplesMap} (h : Uniform k m) (ls : List Label) :
    Reports (presentSamples m ls) fun ss => ss.length = ls.length ∧ ∀ s ∈ ss, s.length = k := by
  induction ls with
  | nil => exact ⟨rfl, fun s hs => by cases hs⟩
  | cons l ls ih =>
    unfold presentSamples
    cases hm : m l with
    | none => rfl
    | some s =>
      refine ih.bind fun ss hss => ?_
      refine ⟨by simp [hss.1], fun t ht => ?_⟩
      rcases List.mem_cons.mp ht with rfl | ht
      · exact h l t hm
      · exact hss.2 t ht

theorem downMix_uniform {k : Nat} (p : MixFactors) (ds : List DownMix) (hd : ∀ d ∈ ds, d.inputs ≠ []) : ∀ m, Uniform k m →
    Reports (runDownMixers p ds m) (Uniform k) := by
  induction ds with
  | nil => intro m h; exact h
  | cons d ds ih =>
    intro m h
    refine Reports.bind (Q := Uniform k) ?_ fun m' hm' => ih (fun e he => hd e (by simp [he])) m' hm'
    unfold DownMix.run
    refine (present_reports h d.inputs).bind fun ss hss => ?_
    refine Reports.bind (Q := fun (n : Nat) => n = k) ?_ ?_
    · cases ss with
      | nil => exact absurd (List.length_eq_zero_iff.mp hss.1.symm) (hd d (by simp))
      | cons s ss =>
        simp only [commonTicks]
        split
        · exact hss.2 s (by simp)
        · rfl
    · rintro n rfl
      exact store_uniform _ _ _ _ h

/-! ### Demixing parameters -/

/-- What keeps the manager of the parameters from crashing: every demixing definition has an entry for its block, and every block starts with
demixing data. -/
structure SafeParams (pm : ParametersManager) : Prop where
  entry : ∀ e st, pm.demix e = some st → (pm.demixBlocks st.definition.id).isSome
  block : ∀ i b, pm.demixBlocks i = some (some b) → ∃ d rest, b.obu.subblocks = some (.demixing d) :: rest

private theorem dmixp_reports (mode : UInt8) (w : Int) (r : WIdxRule) : Reports (dmixpModeToParams mode w r) fun _ => True := by
  unfold dmixpModeToParams
  split
  · rfl
  · dsimp only
    split
    · rfl
    · trivial

theorem getDownMixing_safe {pm : ParametersManager} (h : SafeParams pm) (e : UInt32) :
    (∀ err, (pm.getDownMixing e).1 = .error err → err.fatal = false) ∧ SafeParams (pm.getDownMixing e).2 ∧
      (∀ p, (pm.getDownMixing e).1 = .ok p → ((pm.getDownMixing e).2.getDownMixing e).1 = .ok p) := by
  unfold ParametersManager.getDownMixing
  cases hd : pm.demix e with
  | none => simp only; exact ⟨fun err he => (by cases he), h, fun p hp => by rw [hd]; exact hp⟩
  | some st =>
    have := h.entry e st hd
    cases hb : pm.demixBlocks st.definition.id with
    | none => rw [hb] at this; cases this
    | some b =>
      cases b with
      | none =>
        simp only [hb]
        refine ⟨fun err he => ?_, h, fun p hp => by simp only [hd, hb]; exact hp⟩
        exact (dmixp_reports _ _ _).of.2 err he
      | some b =>
        simp only [hb]
        by_cases ht : st.nextTimestamp ≠ b.start
        · rw [if_pos ht]
          exact ⟨fun err he => by cases he; rfl, h, fun p hp => by cases hp⟩
        · rw [if_neg ht]
          obtain ⟨d, rest, hs⟩ := h.block _ b hb
          rw [hs]
          simp only
          cases hm : dmixpModeToParams d.dmixpMode st.previousW st.rule with
          | error err =>
            refine ⟨fun err' he => ?_, h, fun p hp => by cases hp⟩
            cases he
            exact (dmixp_reports d.dmixpMode st.previousW st.rule).of.2 err hm
          | ok p =>
            refine ⟨fun err he => (by cases he), ⟨fun e' st' he' => ?_, fun i b' hb' => h.block i b' hb'⟩, fun p' hp' => ?_⟩
            · simp only [IdMap.set] at he'
              split at he'
              · rw [Option.some.injEq] at he'; subst he'; simp [hb]
              · exact h.entry e' st' he'
            · simp only [IdMap.set, if_true, hb, if_neg ht, hs, hm]
              exact hp'

theorem updateDemixing_safe {pm : ParametersManager} (h : SafeParams pm) (e : UInt32) (t : Int) :
    (∀ err, (pm.updateDemixing e t).1 = .error err → err.fatal = false) ∧ SafeParams (pm.updateDemixing e t).2 := by
  unfold ParametersManager.updateDemixing
  cases hd : pm.demix e with
  | none => exact ⟨fun err he => (by cases he), h⟩
  | some st =>
    have := h.entry e st hd
    cases hb : pm.demixBlocks st.definition.id with
    | none => rw [hb] at this; cases this
    | some b =>
      cases b with
      | none => simp only [hb]; exact ⟨fun err he => (by cases he), h⟩
      | some b =>
        simp only [hb]
        by_cases ht : t ≠ b.stop
        · rw [if_pos ht]
          refine ⟨fun err he => by cases he; rfl, ⟨fun e' st' he' => ?_, fun i b' hb' => h.block i b' hb'⟩⟩
          simp only [IdMap.set] at he'
          split at he'
          · rw [Option.some.injEq] at he'; subst he'; simp [hb]
          · exact h.entry e' st' he'
        · rw [if_neg ht]
          refine ⟨fun err he => (by cases he), ⟨fun e' st' he' => ?_, fun i b' hb' => ?_⟩⟩
          · simp only [IdMap.set] at he' ⊢
            split
            · rfl
            · split at he'
              · rw [Option.some.injEq] at he'; subst he'; simp [hb]
              · exact h.entry e' st' he'
          · simp only [IdMap.set] at hb'
            split at hb'
            · cases hb'
            · exact h.block i b' hb'

theorem addDemixing_safe {pm : ParametersManager} (h : SafeParams pm) (b : BlockWithData)
    (hb : ∃ d rest, b.obu.subblocks = some (.demixing d) :: rest) : SafeParams (pm.addDemixing b) := by
  refine ⟨fun e st he => ?_, fun i b' hb' => ?_⟩
  · simp only [ParametersManager.addDemixing, IdMap.set]
    split
    · rfl
    · exact h.entry e st he
  · simp only [ParametersManager.addDemixing, IdMap.set] at hb'
    split at hb'
    · simp only [Option.some.injEq] at hb'; subst hb'; exact hb
    · exact h.block i b' hb'

private theorem register_safe {pm : ParametersManager} (h : SafeParams pm) (id : UInt32)
    (found : Option (ParamBase × DefaultDemixingInfo) × Option ParamBase) : SafeParams (pm.register id found) := by
  have key : ∀ pm : ParametersManager, SafeParams pm → ∀ f : ParametersManager → ParametersManager,
      ((f pm).demix = pm.demix ∧ (f pm).demixBlocks = pm.demixBlocks) → SafeParams (f pm) := by
    intro pm hp f hf
    exact ⟨fun e st he => by rw [hf.2]; rw [hf.1] at he; exact hp.entry e st he, fun i b hb => by rw [hf.2] at hb; exact hp.block i b hb⟩
  unfold ParametersManager.register
  obtain ⟨a, b⟩ := found
  have h1 : SafeParams (match a with
    | none => pm
    | some (b, d) => { pm with demixBlocks := pm.demixBlocks.insert b.id none, demix := pm.demix.set id ⟨b, d, 0, 0, 0, .firstFrame⟩ }) := by
    cases a with
    | none => exact h
    | some x =>
      refine ⟨fun e st he => ?_, fun i b' hb' => ?_⟩
      · simp only [IdMap.set, IdMap.insert] at he ⊢
        split
        · rfl
        · split at he
          · rw [Option.some.injEq] at he; subst he; simp_all
          · exact h.entry e st he
      · simp only [IdMap.insert] at hb'
        split at hb'
        · rw [Option.some.injEq] at hb'
          cases hm : pm.demixBlocks x.1.id with
          | none => rw [hm] at hb'; cases hb'
          | some o => rw [hm] at hb'; simp only [Option.getD_some] at hb'; subst hb'; exact h.block _ _ hm
        · exact h.block i b' hb'
  cases b with
  | none => exact h1
  | some b => exact ⟨h1.entry, h1.block⟩

/-- Managers that were just created are safe. -/
theorem created_params_safe {es : List (UInt32 × AudioElement)} {pm : ParametersManager} (h : ParametersManager.create es = .ok pm) : SafeParams pm := by
  unfold ParametersManager.create at h
  have key : ∀ (es : List (UInt32 × AudioElement)) (pm pm' : ParametersManager), SafeParams pm → pm.createFrom es = .ok pm' → SafeParams pm' := by
    intro es
    induction es with
    | nil => intro pm pm' hs hc; cases hc; exact hs
    | cons x es ih =>
      intro pm pm' hs hc
      obtain ⟨id, a⟩ := x
      simp only [ParametersManager.createFrom] at hc
      split at hc
      · cases hc
      · exact ih _ _ (register_safe hs id _) hc
  exact key es _ _ ⟨fun e st he => (by cases he), fun i b hb => by cases hb⟩ h

end Iamf.Props
