import Verif.Cli.Demix
import Verif.Props.Labels
import Mathlib.Tactic.FieldSimp
import Mathlib.Tactic.Ring
import Mathlib.Tactic.Linarith
/-
  Down-mixing and reconstruction: C28.
-/
namespace Iamf.Props
open Iamf

private theorem except_bind_ok {ε α β : Type} {x : Except ε α} {f : α → Except ε β} {b : β} (h : (x >>= f) = .ok b) :
    ∃ a, x = .ok a ∧ f a = .ok b := by
  cases x with
  | error e => simp [bind, Except.bind] at h
  | ok a => exact ⟨a, rfl, h⟩

/-! ### Steps: a down-mixer and the demixer for it -/

private inductive Step where
  | s7 | s5 | s3 | s2 | t4 | t2
  deriving DecidableEq

private def Step.down : Step → DownMix
  | .s7 => s7ToS5 | .s5 => s5ToS3 | .s3 => s3ToS2 | .s2 => s2ToS1 | .t4 => t4ToT2 | .t2 => t2ToTf2

private def Step.up : Step → DemixOp
  | .s7 => s5ToS7 | .s5 => s3ToS5 | .s3 => s2ToS3 | .s2 => s1ToS2 | .t4 => t2ToT4 | .t2 => tf2ToT2

/-- The down-mixers whose formulas the demixer undoes. -/
private def Step.needs : Step → List Step
  | .t2 => [.t2, .s5]
  | s => [s]

private def surroundStep : Nat → Option Step
  | 7 => some .s7 | 5 => some .s5 | 3 => some .s3 | 2 => some .s2 | _ => none

private def heightStep : Nat → Option Step
  | 4 => some .t4 | 2 => some .t2 | _ => none

private theorem surroundDown (n : Nat) : surroundDownMixer n = (surroundStep n).map Step.down := by
  unfold surroundDownMixer surroundStep; split <;> first | rfl | (split <;> simp_all)

private theorem heightDown (n : Nat) : heightDownMixer n = (heightStep n).map Step.down := by
  unfold heightDownMixer heightStep; split <;> first | rfl | (split <;> simp_all)

private theorem surroundUp (n : Nat) : surroundDemixer n = (surroundStep n).map Step.up := by
  unfold surroundDemixer surroundStep; split <;> first | rfl | (split <;> simp_all)

private theorem heightUp (n : Nat) : heightDemixer n = (heightStep n).map Step.up := by
  unfold heightDemixer heightStep; split <;> first | rfl | (split <;> simp_all)

private theorem countDown_map {α β : Type} (f : Nat → Option α) (g : α → β) (h : Nat → Option β) (hh : ∀ n, h n = (f n).map g)
    (low n : Nat) : countDown h low n = (countDown f low n).map g := by
  induction n with
  | zero => rfl
  | succ n ih =>
    simp only [countDown]
    split
    · rw [ih, hh, List.map_append]; cases f (n + 1) <;> rfl
    · rfl

/-- The lowest number of the table among these labels. -/
private def lowestOf (table : List (Label × Nat)) (labels : List Label) : Nat :=
  match table.reverse.find? (fun t => labels.contains t.1) with
  | some t => t.2
  | none => kIntMax

private def surroundSteps (L labels : List Label) : List Step :=
  countDown surroundStep (lowestOf surroundTable labels) (inputNumber surroundTable L)

private def heightSteps (L labels : List Label) : List Step :=
  countDown heightStep (lowestOf heightTable labels) (inputNumber heightTable L)

/-! ### The formulas -/

private def FormulaOn (inputs : List Label) (f : MixFactors → (Label → Rat) → Rat) : Prop :=
  ∀ p x y, (∀ l ∈ inputs, x l = y l) → f p x = f p y

private theorem down_on (s : Step) : ∀ o ∈ s.down.outputs, FormulaOn s.down.inputs o.2 := by
  intro o ho p x y h
  cases s <;> simp only [Step.down, s7ToS5, s5ToS3, s3ToS2, s2ToS1, t4ToT2, t2ToTf2, List.mem_cons, List.not_mem_nil, or_false] at ho h <;>
    (rcases ho with rfl | rfl | rfl | rfl | ho <;> simp_all) 

private theorem up_on (s : Step) : ∀ o ∈ s.up.outputs, FormulaOn s.up.inputs o.2 := by
  intro o ho p x y h
  cases s <;> simp only [Step.up, s5ToS7, s3ToS5, s2ToS3, s1ToS2, t2ToT4, tf2ToT2, List.mem_cons, List.not_mem_nil, or_false] at ho h <;>
    (rcases ho with rfl | rfl | rfl | rfl | ho <;> simp_all)

private def Ok (p : MixFactors) : Prop := p.beta ≠ 0 ∧ p.gamma ≠ 0 ∧ p.delta ≠ 0

/-- The demixer's formulas give back the channels, if the formulas of the down-mixers hold. -/
private theorem up_correct (s : Step) (p : MixFactors) (hp : Ok p) (x : Label → Rat)
    (h : ∀ d ∈ s.needs, ∀ o ∈ d.down.outputs, x o.1 = o.2 p x) :
    ∀ o ∈ s.up.outputs, ∃ l, demixedLabel l = .ok o.1 ∧ o.2 p x = x l := by
  obtain ⟨hb, hg, hd⟩ := hp
  cases s <;>
    simp only [Step.needs, Step.down, Step.up, s7ToS5, s5ToS3, s3ToS2, s2ToS1, t4ToT2, t2ToTf2, s5ToS7, s3ToS5, s2ToS3, s1ToS2,
      t2ToT4, tf2ToT2, List.forall_mem_cons, List.not_mem_nil, false_imp_iff, implies_true, and_true] at h ⊢
  · obtain ⟨h1, h2, h3, h4⟩ := h
    refine ⟨⟨.l7, rfl, h1⟩, ⟨.r7, rfl, h2⟩, ⟨.lrs7, rfl, ?_⟩, ⟨.rrs7, rfl, ?_⟩⟩
    · rw [h3]; field_simp; ring
    · rw [h4]; field_simp; ring
  · obtain ⟨h1, h2⟩ := h
    refine ⟨⟨.ls5, rfl, ?_⟩, ⟨.rs5, rfl, ?_⟩⟩
    · rw [h1]; field_simp; ring
    · rw [h2]; field_simp; ring
  · obtain ⟨h1, h2⟩ := h
    refine ⟨⟨.l3, rfl, ?_⟩, ⟨.r3, rfl, ?_⟩⟩
    · rw [h1]; ring
    · rw [h2]; ring
  · refine ⟨.r2, rfl, ?_⟩
    rw [h]; ring
  · obtain ⟨h1, h2⟩ := h
    refine ⟨⟨.ltb4, rfl, ?_⟩, ⟨.rtb4, rfl, ?_⟩⟩
    · rw [h1]; field_simp; ring
    · rw [h2]; field_simp; ring
  · obtain ⟨⟨h1, h2⟩, h3, h4⟩ := h
    refine ⟨⟨.ltf2, rfl, ?_⟩, ⟨.rtf2, rfl, ?_⟩⟩
    · rw [h1, h3]; ring
    · rw [h2, h4]; ring

/-! ### Storing -/

private theorem store_other {p : MixFactors} {x : Nat → Label → Rat} {n : Nat}
    {outs : List (Label × (MixFactors → (Label → Rat) → Rat))} {m : SamplesMap} {l : Label} (h : l ∉ outs.map Prod.fst) :
    storeOutputs p x n outs m l = m l := by
  unfold storeOutputs
  induction outs generalizing m with
  | nil => rfl
  | cons o outs ih =>
    simp only [List.map_cons, List.mem_cons, not_or] at h
    rw [List.foldl_cons, ih h.2]
    simp [SamplesMap.set, h.1]

private theorem store_out {p : MixFactors} {x : Nat → Label → Rat} {n : Nat}
    {outs : List (Label × (MixFactors → (Label → Rat) → Rat))} {m : SamplesMap} (hn : (outs.map Prod.fst).Nodup)
    {o : Label × (MixFactors → (Label → Rat) → Rat)} (h : o ∈ outs) :
    storeOutputs p x n outs m o.1 = some ((List.range n).map fun i => o.2 p (x i)) := by
  induction outs generalizing m with
  | nil => simp at h
  | cons a outs ih =>
    rw [List.map_cons, List.nodup_cons] at hn
    show storeOutputs p x n outs (m.set a.1 _) o.1 = _
    rcases List.mem_cons.mp h with rfl | h
    · rw [store_other hn.1]; simp [SamplesMap.set]
    · exact ih hn.2 h

private theorem out_nodup (s : Step) : (s.down.outputs.map Prod.fst).Nodup ∧ (s.up.outputs.map Prod.fst).Nodup := by
  cases s <;> exact ⟨by decide, by decide⟩

private theorem commonTicks_eq {n : Nat} {ss : List Samples} (h : ∀ s ∈ ss, s.length = n) (hne : ss ≠ []) :
    commonTicks ss = .ok n := by
  cases ss with
  | nil => exact absurd rfl hne
  | cons s ss =>
    simp only [commonTicks]
    rw [if_pos, h s List.mem_cons_self]
    rw [List.all_eq_true]
    intro t ht
    rw [beq_iff_eq, h s List.mem_cons_self, h t (List.mem_cons_of_mem _ ht)]

/-- The channel is there, with `n` samples. -/
private def Has (m : SamplesMap) (n : Nat) (l : Label) : Prop := ∃ s, m l = some s ∧ s.length = n

private theorem present_ok {m : SamplesMap} {n : Nat} {ls : List Label} (h : ∀ l ∈ ls, Has m n l) :
    ∃ ss, presentSamples m ls = .ok ss ∧ ss.length = ls.length ∧ ∀ s ∈ ss, s.length = n := by
  induction ls with
  | nil => exact ⟨[], rfl, rfl, by simp⟩
  | cons l ls ih =>
    obtain ⟨ss, h1, h2, h3⟩ := ih (fun x hx => h x (List.mem_cons_of_mem _ hx))
    obtain ⟨s, hs, hn⟩ := h l List.mem_cons_self
    refine ⟨s :: ss, ?_, by simp [h2], ?_⟩
    · unfold presentSamples
      rw [hs, h1]; rfl
    · intro t ht
      rcases List.mem_cons.mp ht with rfl | ht
      · exact hn
      · exact h3 t ht

private theorem inputs_ne (s : Step) : s.down.inputs ≠ [] ∧ s.up.inputs ≠ [] := by
  cases s <;> exact ⟨by decide, by decide⟩

private theorem down_run {s : Step} {p : MixFactors} {m : SamplesMap} {n : Nat} (h : ∀ l ∈ s.down.inputs, Has m n l) :
    s.down.run p m = .ok (storeOutputs p m.at n s.down.outputs m) := by
  obtain ⟨ss, h1, h2, h3⟩ := present_ok h
  unfold DownMix.run
  rw [h1]
  have hne : ss ≠ [] := by
    intro e; subst e
    exact (inputs_ne s).1 (List.length_eq_zero_iff.mp h2.symm)
  simp only [bind, Except.bind]
  rw [commonTicks_eq h3 hne]

/-- Which channels there are after these down-mixers; each needs its inputs, and must not replace a channel. -/
private def simDown : List Step → List Label → Option (List Label)
  | [], av => some av
  | s :: ss, av =>
    if s.down.inputs.all av.contains && (s.down.outputs.map Prod.fst).all (fun o => !av.contains o) then
      simDown ss (av ++ s.down.outputs.map Prod.fst)
    else none

private theorem downs_run (p : MixFactors) (n : Nat) (steps : List Step) {av A : List Label} {m : SamplesMap}
    (hav : ∀ l ∈ av, Has m n l) (h : simDown steps av = some A) :
    ∃ D, runDownMixers p (steps.map Step.down) m = .ok D ∧ (∀ l ∈ av, D l = m l) ∧ av ⊆ A ∧ (∀ l ∈ A, Has D n l) ∧
      ∀ s ∈ steps, (∀ l ∈ s.down.inputs, l ∈ A) ∧ ∀ o ∈ s.down.outputs, o.1 ∈ A ∧ ∀ i < n, D.at i o.1 = o.2 p (D.at i) := by
  induction steps generalizing av m with
  | nil =>
    simp only [simDown, Option.some.injEq] at h
    subst h
    exact ⟨m, rfl, fun _ _ => rfl, fun _ h => h, hav, by simp⟩
  | cons s ss ih =>
    unfold simDown at h
    split at h
    next hc =>
      simp only [Bool.and_eq_true, List.all_eq_true, List.contains_iff_mem, Bool.not_eq_true', Bool.eq_false_iff, ne_eq] at hc
      obtain ⟨hin, hout⟩ := hc
      have hr := down_run (p := p) (s := s) (m := m) (n := n) (fun l hl => hav l (hin l hl))
      have hold : ∀ l ∈ av, storeOutputs p m.at n s.down.outputs m l = m l := fun l hl =>
        store_other (fun ho => hout l ho hl)
      obtain ⟨D, h1, h2, h3, h4, h5⟩ := ih (m := storeOutputs p m.at n s.down.outputs m) (by
        intro l hl
        rcases List.mem_append.mp hl with hl | hl
        · obtain ⟨t, ht, hn⟩ := hav l hl
          exact ⟨t, (hold l hl).trans ht, hn⟩
        · obtain ⟨o, ho, rfl⟩ := List.mem_map.mp hl
          exact ⟨_, store_out (out_nodup s).1 ho, by simp⟩) h
      have hav2 : ∀ l ∈ av, D l = m l := fun l hl => (h2 l (List.mem_append_left _ hl)).trans (hold l hl)
      refine ⟨D, ?_, hav2, ?_, h4, ?_⟩
      · rw [List.map_cons]
        unfold runDownMixers
        rw [hr]; exact h1
      · exact fun l hl => h3 (List.mem_append_left _ hl)
      · intro t ht
        rcases List.mem_cons.mp ht with rfl | ht
        · refine ⟨fun l hl => h3 (List.mem_append_left _ (hin l hl)), fun o ho => ?_⟩
          have hoA : o.1 ∈ av ++ t.down.outputs.map Prod.fst := List.mem_append_right _ (List.mem_map_of_mem ho)
          refine ⟨h3 hoA, fun i hi => ?_⟩
          have e1 : D o.1 = some ((List.range n).map fun i => o.2 p (m.at i)) :=
            (h2 o.1 hoA).trans (store_out (out_nodup t).1 ho)
          have e2 : D.at i o.1 = o.2 p (m.at i) := by
            simp [SamplesMap.at, e1, hi]
          rw [e2]
          apply down_on t o ho
          intro l hl
          simp only [SamplesMap.at]
          rw [hav2 l (hin l hl)]
        · exact h5 t ht
    · simp at h

/-! ### Demixing -/

/-- The channel a demixed label stands for. -/
private def baseLabel : Label → Option Label
  | .demixedR2 => some .r2
  | .demixedL3 => some .l3
  | .demixedR3 => some .r3
  | .demixedL5 => some .l5
  | .demixedR5 => some .r5
  | .demixedLs5 => some .ls5
  | .demixedRs5 => some .rs5
  | .demixedLtf2 => some .ltf2
  | .demixedRtf2 => some .rtf2
  | .demixedLtb4 => some .ltb4
  | .demixedRtb4 => some .rtb4
  | .demixedL7 => some .l7
  | .demixedR7 => some .r7
  | .demixedLrs7 => some .lrs7
  | .demixedRrs7 => some .rrs7
  | _ => none

private theorem base_demixed {l d : Label} (h : demixedLabel l = .ok d) : baseLabel d = some l := by
  cases l <;> simp only [demixedLabel, Except.ok.injEq, reduceCtorEq] at h <;> subst h <;> rfl

private theorem base_plain {l d : Label} (h : demixedLabel l = .ok d) : baseLabel l = none := by
  cases l <;> simp only [demixedLabel, reduceCtorEq] at h <;> rfl

/-- Every entry of the map is the channel of `D` that it stands for. -/
private def Faithful (D M : SamplesMap) : Prop :=
  ∀ k s, M k = some s → D ((baseLabel k).getD k) = some s

/-- The label can be found. -/
private def canFind (ks : List Label) (l : Label) : Bool :=
  ks.contains l || (match demixedLabel l with
    | .ok d => ks.contains d
    | .error _ => false)

private theorem find_ok {D M : SamplesMap} {n : Nat} {A : List Label} (hD : ∀ l ∈ A, Has D n l) (hM : Faithful D M)
    {ks : List Label} (hks : ∀ k ∈ ks, ∃ s, M k = some s) {l : Label} (hp : baseLabel l = none) (hc : canFind ks l = true)
    (hl : l ∈ A) : ∃ s, findSamples l M = .ok s ∧ D l = some s ∧ s.length = n := by
  have fin : ∀ s, findSamples l M = .ok s → D l = some s → ∃ s, findSamples l M = .ok s ∧ D l = some s ∧ s.length = n := by
    intro s h1 h2
    obtain ⟨s', h3, h4⟩ := hD l hl
    rw [h2] at h3
    obtain rfl : s = s' := by simpa using h3
    exact ⟨s, h1, h2, h4⟩
  unfold canFind at hc
  cases hml : M l with
  | some s =>
    refine fin s (by simp [findSamples, hml]) ?_
    simpa [hp] using hM l s hml
  | none =>
    rw [Bool.or_eq_true] at hc
    rcases hc with hc | hc
    · obtain ⟨s, hs⟩ := hks l (List.contains_iff_mem.mp hc)
      rw [hml] at hs; simp at hs
    · cases hd : demixedLabel l with
      | error e => rw [hd] at hc; simp at hc
      | ok d =>
        rw [hd] at hc
        obtain ⟨s, hs⟩ := hks d (List.contains_iff_mem.mp hc)
        refine fin s (by simp [findSamples, hml, hd, hs, bind, Except.bind]) ?_
        simpa [base_demixed hd] using hM d s hs

private theorem findAll_ok {M : SamplesMap} {n : Nat} {ls : List Label} (h : ∀ l ∈ ls, ∃ s, findSamples l M = .ok s ∧ s.length = n) :
    ∃ ss, findAll M ls = .ok ss ∧ ss.length = ls.length ∧ ∀ s ∈ ss, s.length = n := by
  induction ls with
  | nil => exact ⟨[], rfl, rfl, by simp⟩
  | cons l ls ih =>
    obtain ⟨ss, h1, h2, h3⟩ := ih (fun x hx => h x (List.mem_cons_of_mem _ hx))
    obtain ⟨s, hs, hn⟩ := h l List.mem_cons_self
    refine ⟨s :: ss, ?_, by simp [h2], ?_⟩
    · unfold findAll
      rw [hs, h1]; rfl
    · intro t ht
      rcases List.mem_cons.mp ht with rfl | ht
      · exact hn
      · exact h3 t ht

/-- Which keys there are after these demixers. -/
private def simUp (downs : List Step) (A : List Label) : List Step → List Label → Option (List Label)
  | [], ks => some ks
  | s :: ss, ks =>
    if s.needs.all downs.contains && s.up.inputs.all (fun l => canFind ks l && A.contains l && (baseLabel l).isNone) &&
        (s.up.outputs.map Prod.fst).all (fun o => ((baseLabel o).any A.contains)) then
      simUp downs A ss (ks ++ s.up.outputs.map Prod.fst)
    else none

private theorem up_run {s : Step} {p : MixFactors} {M : SamplesMap} {n : Nat} (hz : ((s.up.divisor p).any nearZero) = false)
    (h : ∀ l ∈ s.up.inputs, ∃ t, findSamples l M = .ok t ∧ t.length = n) :
    s.up.run p M = .ok (storeOutputs p (foundAt M) n s.up.outputs M) := by
  obtain ⟨ss, h1, h2, h3⟩ := findAll_ok h
  unfold DemixOp.run
  rw [hz, h1]
  have hne : ss ≠ [] := by
    intro e; subst e
    exact (inputs_ne s).2 (List.length_eq_zero_iff.mp h2.symm)
  simp only [bind, Except.bind, Bool.false_eq_true, ↓reduceIte]
  rw [commonTicks_eq h3 hne]

private theorem ups_run {p : MixFactors} {n : Nat} {D : SamplesMap} {A : List Label} {downs : List Step} (hp : Ok p)
    (hz : ∀ s : Step, ((s.up.divisor p).any nearZero) = false)
    (hD : ∀ l ∈ A, Has D n l) (hE : ∀ s ∈ downs, ∀ o ∈ s.down.outputs, ∀ i < n, D.at i o.1 = o.2 p (D.at i))
    (steps : List Step) {ks K : List Label} {M : SamplesMap} (hM : Faithful D M) (hks : ∀ k ∈ ks, ∃ s, M k = some s)
    (h : simUp downs A steps ks = some K) :
    ∃ M', runDemixers p (steps.map Step.up) M = .ok M' ∧ Faithful D M' ∧ ∀ k ∈ K, ∃ s, M' k = some s := by
  induction steps generalizing ks M with
  | nil =>
    simp only [simUp, Option.some.injEq] at h
    subst h
    exact ⟨M, rfl, hM, hks⟩
  | cons s ss ih =>
    unfold simUp at h
    split at h
    next hc =>
      simp only [Bool.and_eq_true, List.all_eq_true, List.contains_iff_mem, Option.isNone_iff_eq_none, Option.any_eq_true] at hc
      obtain ⟨⟨hneed, hin⟩, hout⟩ := hc
      have hfind : ∀ l ∈ s.up.inputs, ∃ t, findSamples l M = .ok t ∧ D l = some t ∧ t.length = n := fun l hl =>
        find_ok hD hM hks (hin l hl).2 (hin l hl).1.1 (hin l hl).1.2
      have hr := up_run (n := n) (hz s) (fun l hl => (hfind l hl).imp fun t ht => ⟨ht.1, ht.2.2⟩)
      have hval : ∀ o ∈ s.up.outputs, ∃ l t, baseLabel o.1 = some l ∧ D l = some t ∧
          (List.range n).map (fun i => o.2 p (foundAt M i)) = t := by
        intro o ho
        obtain ⟨b, hb, hbA⟩ := hout o.1 (List.mem_map_of_mem ho)
        obtain ⟨t, ht, hn⟩ := hD b hbA
        refine ⟨b, t, hb, ht, List.ext_getElem (by simp [hn]) fun i h1 h2 => ?_⟩
        have hi : i < n := by simpa using h1
        rw [List.getElem_map, List.getElem_range]
        have e1 : o.2 p (foundAt M i) = o.2 p (D.at i) := by
          apply up_on s o ho
          intro l hl
          obtain ⟨t', f1, f2, -⟩ := hfind l hl
          simp [foundAt, f1, SamplesMap.at, f2]
        obtain ⟨l, hl, e2⟩ := up_correct s p hp (D.at i) (fun d hd o ho => hE d (hneed d hd) o ho i hi) o ho
        have hlb := base_demixed hl
        rw [hb] at hlb
        obtain rfl : b = l := by simpa using hlb
        rw [e1, e2]
        simp [SamplesMap.at, ht, h2]
      obtain ⟨M', h1, h2, h3⟩ := ih (M := storeOutputs p (foundAt M) n s.up.outputs M) (by
        intro k t hk
        by_cases hko : k ∈ s.up.outputs.map Prod.fst
        · obtain ⟨o, ho, rfl⟩ := List.mem_map.mp hko
          rw [store_out (out_nodup s).2 ho] at hk
          obtain ⟨l, t', e1, e2, e3⟩ := hval o ho
          simp only [Option.some.injEq] at hk
          rw [e1, ← hk, e3]
          exact e2
        · rw [store_other hko] at hk
          exact hM k t hk) (by
        intro k hk
        by_cases hko : k ∈ s.up.outputs.map Prod.fst
        · obtain ⟨o, ho, rfl⟩ := List.mem_map.mp hko
          exact ⟨_, store_out (out_nodup s).2 ho⟩
        · rw [store_other hko]
          exact hks k ((List.mem_append.mp hk).resolve_right hko)) h
      refine ⟨M', ?_, h2, h3⟩
      rw [List.map_cons]
      unfold runDemixers
      rw [hr]; exact h1
    · simp at h

/-! ### Which steps -/

/-- At most one label of the table is in the list. -/
private def oneOf (table : List (Label × Nat)) (ls : List Label) : Bool :=
  table.all fun t => table.all fun u => !(ls.contains t.1 && ls.contains u.1) || t == u

private def IsLowest (table : List (Label × Nat)) (labels : List Label) (cur v : Nat) : Prop :=
  v ≤ cur ∧ (v = cur ∨ ∃ t ∈ table, t.1 ∈ labels ∧ t.2 = v) ∧ ∀ t ∈ table, t.1 ∈ labels → v ≤ t.2

private theorem lowest_unique {table : List (Label × Nat)} {a b : List Label} {cur v w : Nat} (hab : ∀ l, l ∈ a ↔ l ∈ b)
    (hv : IsLowest table a cur v) (hw : IsLowest table b cur w) : v = w := by
  obtain ⟨v1, v2, v3⟩ := hv
  obtain ⟨w1, w2, w3⟩ := hw
  apply Nat.le_antisymm
  · rcases w2 with rfl | ⟨t, ht, hl, rfl⟩
    · exact v1
    · exact v3 t ht ((hab _).mpr hl)
  · rcases v2 with rfl | ⟨t, ht, hl, rfl⟩
    · exact w1
    · exact w3 t ht ((hab _).mp hl)

private theorem lowestNumber_is {table : List (Label × Nat)} (hpos : ∀ t ∈ table, 1 ≤ t.2) (m : SubstreamLabels)
    (hm : ∀ x ∈ m, oneOf table x.2 = true) (cur : Nat) (hcur : 1 ≤ cur) :
    IsLowest table (allLabels m) cur (lowestNumber table m cur) := by
  induction m generalizing cur with
  | nil => exact ⟨Nat.le_refl _, .inl rfl, by simp [allLabels]⟩
  | cons x m ih =>
    obtain ⟨k, ls⟩ := x
    have hone := hm (k, ls) List.mem_cons_self
    have ih := fun c hc => ih (fun y hy => hm y (List.mem_cons_of_mem _ hy)) c hc
    have hmem : ∀ l, l ∈ allLabels ((k, ls) :: m) ↔ l ∈ ls ∨ l ∈ allLabels m := by
      intro l; simp [allLabels]
    unfold lowestNumber
    split
    next hf =>
      rw [List.find?_eq_none] at hf
      obtain ⟨h1, h2, h3⟩ := ih cur hcur
      refine ⟨h1, h2.imp id (fun ⟨t, a, b, c⟩ => ⟨t, a, (hmem _).mpr (.inr b), c⟩), fun t ht hl => ?_⟩
      rcases (hmem _).mp hl with hl | hl
      · have := hf t ht
        simp only [Bool.and_eq_true, List.contains_iff_mem, hl, true_and, decide_eq_true_eq, Nat.not_lt] at this
        omega
      · exact h3 t ht hl
    next t hf =>
      have ht := List.mem_of_find?_eq_some hf
      have hp := List.find?_some hf
      simp only [Bool.and_eq_true, List.contains_iff_mem, decide_eq_true_eq] at hp
      have huniq : ∀ u ∈ table, u.1 ∈ ls → u = t := by
        intro u hu hl
        have := List.all_eq_true.mp (List.all_eq_true.mp hone u hu) t ht
        simpa [List.contains_iff_mem, hl, hp.1] using this
      split
      next h1 =>
        refine ⟨by omega, .inr ⟨t, ht, (hmem _).mpr (.inl hp.1), h1⟩, fun u hu _ => hpos u hu⟩
      next h1 =>
        obtain ⟨a1, a2, a3⟩ := ih t.2 (hpos t ht)
        refine ⟨by omega, .inr ?_, fun u hu hl => ?_⟩
        · rcases a2 with a2 | ⟨u, b1, b2, b3⟩
          · exact ⟨t, ht, (hmem _).mpr (.inl hp.1), a2.symm⟩
          · exact ⟨u, b1, (hmem _).mpr (.inr b2), b3⟩
        · rcases (hmem _).mp hl with hl | hl
          · rw [huniq u hu hl]; exact a1
          · exact a3 u hu hl

private theorem lowestOf_surround (labels : List Label) :
    IsLowest surroundTable labels kIntMax (lowestOf surroundTable labels) := by
  unfold IsLowest lowestOf surroundTable kIntMax
  simp only [List.reverse_cons, List.reverse_nil, List.nil_append, List.cons_append, List.find?_cons, List.find?_nil,
    List.forall_mem_cons, List.not_mem_nil, false_imp_iff, implies_true, and_true, List.mem_cons, or_false, exists_eq_or_imp,
    exists_eq_left, List.contains_iff_mem]
  by_cases h1 : Label.mono ∈ labels <;> by_cases h2 : Label.l2 ∈ labels <;> by_cases h3 : Label.l3 ∈ labels <;>
    by_cases h4 : Label.l5 ∈ labels <;> by_cases h5 : Label.l7 ∈ labels <;> simp [h1, h2, h3, h4, h5]

private theorem lowestOf_height (labels : List Label) :
    IsLowest heightTable labels kIntMax (lowestOf heightTable labels) := by
  unfold IsLowest lowestOf heightTable kIntMax
  simp only [List.reverse_cons, List.reverse_nil, List.nil_append, List.cons_append, List.find?_cons, List.find?_nil,
    List.forall_mem_cons, List.not_mem_nil, false_imp_iff, implies_true, and_true, List.mem_cons, or_false, exists_eq_or_imp,
    exists_eq_left, List.contains_iff_mem]
  by_cases h1 : Label.ltf3 ∈ labels <;> by_cases h2 : Label.ltf2 ∈ labels <;> by_cases h3 : Label.ltf4 ∈ labels <;>
    simp [h1, h2, h3]

private theorem steps_eq (L : List Label) (m : SubstreamLabels) (labels : List Label)
    (hone : ∀ x ∈ m, oneOf surroundTable x.2 = true ∧ oneOf heightTable x.2 = true)
    (hl : ∀ l, l ∈ allLabels m ↔ l ∈ labels) :
    downMixers L m = (surroundSteps L labels ++ heightSteps L labels).map Step.down ∧
    demixers L m = ((surroundSteps L labels).reverse ++ (heightSteps L labels).reverse).map Step.up := by
  have h1 : lowestNumber surroundTable m kIntMax = lowestOf surroundTable labels :=
    lowest_unique hl (lowestNumber_is (by decide) m (fun x hx => (hone x hx).1) kIntMax (by decide)) (lowestOf_surround labels)
  have h2 : lowestNumber heightTable m kIntMax = lowestOf heightTable labels :=
    lowest_unique hl (lowestNumber_is (by decide) m (fun x hx => (hone x hx).2) kIntMax (by decide)) (lowestOf_height labels)
  unfold downMixers demixers surroundSteps heightSteps
  rw [h1, h2, countDown_map _ _ _ surroundDown, countDown_map _ _ _ heightDown, countDown_map _ _ _ surroundUp,
    countDown_map _ _ _ heightUp]
  simp

/-! ### The layerings -/

/-- A list cut into pieces of these lengths. -/
private def pieces {α : Type} : List Nat → List α → List (List α)
  | [], _ => []
  | n :: ns, l => l.take n :: pieces ns (l.drop n)

private theorem pieces_flatten {α : Type} (x : List (List α)) : pieces (x.map List.length) x.flatten = x := by
  induction x with
  | nil => rfl
  | cons a x ih => simp [pieces, ih]

/-- The label lists of the substreams that a layer adds. -/
private def groupPieces (g : GroupLabels) : List (List Label) :=
  pieces (List.replicate (g.coupled.length / 2) 2 ++ List.replicate g.single.length 1) (g.coupled ++ g.single)

private abbrev LState := ChannelNumbers × List (List Label)

private def firstState (c : ChannelNumbers) : Option LState :=
  match baseGroup c with
  | .ok g => some (c, groupPieces g)
  | .error _ => none

private def nextState (s : LState) (c : ChannelNumbers) : Option LState :=
  if grows s.1 c then
    match demixedGroup s.1 c with
    | .ok g => some (c, s.2 ++ groupPieces g)
    | .error _ => none
  else none

private def grow : Nat → LState → List LState
  | 0, s => [s]
  | n + 1, s => s :: ((plainNumbers.filter (· ≠ s.1)).filterMap (nextState s)).flatMap (grow n)

/-- All substream layouts that any sequence of layers can lead to. -/
private def layerings : List LState := (plainNumbers.filterMap firstState).flatMap (grow 7)

private theorem layerings_closed : (layerings.all fun s => plainNumbers.all fun c => match nextState s c with
    | none => true
    | some t => layerings.contains t) = true := by decide +kernel

/-- Down-mixing the channels `L` to these substreams and demixing again is possible and leads back to `L`. -/
private def reversible (L : List Label) (subs : List (List Label)) : Bool :=
  let ss := surroundSteps L subs.flatten
  let hs := heightSteps L subs.flatten
  subs.all (fun x => oneOf surroundTable x && oneOf heightTable x && !x.isEmpty) &&
  ((ss ++ hs).all (fun s => (s != .s7 || L.contains .l7) && (s != .t4 || L.contains .ltf4) &&
      (s.down.outputs.map Prod.fst).all (fun o => !L.contains o)) &&
    (!L.contains .l7 || [Label.l5, .r5, .ls5, .rs5].all (fun l => !L.contains l)) &&
    (!L.contains .ltf4 || [Label.ltf2, .rtf2].all (fun l => !L.contains l)) &&
    (L.contains .l3 == L.contains .r3) && (L.contains .l2 == L.contains .r2) && (L.contains .ltf3 == L.contains .rtf3)) &&
  match simDown (ss ++ hs) L with
  | none => false
  | some A =>
    subs.flatten.all (fun l => A.contains l && (baseLabel l).isNone) && decide subs.flatten.Nodup &&
    match simUp (ss ++ hs) A (ss.reverse ++ hs.reverse) subs.flatten with
    | none => false
    | some K => L.all fun l => canFind K l && (baseLabel l).isNone

private theorem layerings_reversible : (layerings.all fun s => (List.range 10).all fun k =>
    match layoutChannels (UInt8.ofNat k), plainLayoutLabels (UInt8.ofNat k) with
    | .ok c, .ok L => !(c == s.1) || reversible L s.2
    | _, _ => true) = true := by decide +kernel

private theorem reversible_of {s : LState} (hs : s ∈ layerings) {layout : UInt8} {L : List Label}
    (hc : layoutChannels layout = .ok s.1) (hL : plainLayoutLabels layout = .ok L) : reversible L s.2 = true := by
  have hlt : layout.toNat < 10 := by
    unfold layoutChannels at hc
    split at hc <;> first | (simp at hc; done) | omega
  have := List.all_eq_true.mp (List.all_eq_true.mp layerings_reversible s hs) layout.toNat (by simpa using hlt)
  rw [UInt8.ofNat_toNat, hc, hL] at this
  simpa using this

private theorem layers_rest {ids : List UInt32} (hn : ids.Nodup) (ls : List ChannelLayer) {index : Nat}
    {acc : ChannelNumbers} {si : Nat} {r r' : ElementLabels} (hi : index ≠ 0) (hk : r.labels.map Prod.fst = ids.take si)
    (hs : (acc, r.labels.map Prod.snd) ∈ layerings) (h : finalizeLayers ids ls index acc si r = .ok r') :
    ∃ acc' si', (acc', r'.labels.map Prod.snd) ∈ layerings ∧ r'.labels.map Prod.fst = ids.take si' ∧
      (match ls.getLast? with
        | none => acc' = acc
        | some l => layoutChannels l.layout = .ok acc') := by
  induction ls generalizing index acc si r with
  | nil =>
    simp only [finalizeLayers, Except.ok.injEq] at h
    subst h
    exact ⟨acc, si, hs, hk, rfl⟩
  | cons layer ls ih =>
    obtain ⟨c, g, m, si', gs, h1, h2, h3, -, h⟩ := layer_step h
    unfold layerGroup at h1
    split at h1
    · unfold expandedGroup at h1
      rw [if_pos hi] at h1
      simp at h1
    · obtain ⟨a1, a2, a3⟩ := layout_step h1
      rw [if_neg hi] at a3
      obtain ⟨x, b1, -, -, b4, b5, -, b7⟩ := add_ok hn hk h2
      have hx : x.map Prod.snd = groupPieces g := by
        unfold groupPieces
        rw [← b7, ← b5]
        have := pieces_flatten (x.map Prod.snd)
        rw [List.map_map] at this
        rw [show allLabels x = (x.map Prod.snd).flatten from by simp [allLabels, List.flatMap]]
        exact this.symm
      have hnext : nextState (acc, r.labels.map Prod.snd) c = some (c, m.map Prod.snd) := by
        unfold nextState
        simp only [a2, ↓reduceIte, a3]
        rw [b1, List.map_append, hx]
      have hmem : (c, m.map Prod.snd) ∈ layerings := by
        have := List.all_eq_true.mp (List.all_eq_true.mp layerings_closed _ hs) c (plain_of_layout a1)
        rw [hnext] at this
        exact List.contains_iff_mem.mp this
      obtain ⟨acc', si'', c1, c2, c3⟩ := ih (by omega) b4 hmem h
      refine ⟨acc', si'', c1, c2, ?_⟩
      cases ls with
      | nil =>
        simp only [List.getLast?_nil] at c3
        subst c3
        exact a1
      | cons y ys =>
        rw [List.getLast?_cons_cons]
        cases hg : (y :: ys).getLast? with
        | none => simp at hg
        | some l => rw [hg] at c3; exact c3

private theorem layers_all {ids : List UInt32} (hn : ids.Nodup) {ls : List ChannelLayer} {r' : ElementLabels}
    (hx : ∀ l ∈ ls, l.layout ≠ kLayoutExpanded) {last : ChannelLayer} (hlast : ls.getLast? = some last)
    (h : finalizeLayers ids ls 0 ⟨0, 0, 0, 0⟩ 0 ⟨[], [], []⟩ = .ok r') :
    ∃ acc' si', (acc', r'.labels.map Prod.snd) ∈ layerings ∧ r'.labels.map Prod.fst = ids.take si' ∧
      layoutChannels last.layout = .ok acc' := by
  cases ls with
  | nil => simp at hlast
  | cons layer ls =>
    obtain ⟨c, g, m, si', gs, h1, h2, h3, -, h⟩ := layer_step h
    unfold layerGroup at h1
    rw [if_neg (hx layer List.mem_cons_self)] at h1
    obtain ⟨a1, a2, a3⟩ := layout_step h1
    rw [if_pos rfl] at a3
    obtain ⟨x, b1, -, -, b4, b5, -, b7⟩ := add_ok hn (m := []) rfl h2
    have hx : x.map Prod.snd = groupPieces g := by
      unfold groupPieces
      rw [← b7, ← b5]
      have := pieces_flatten (x.map Prod.snd)
      rw [List.map_map] at this
      rw [show allLabels x = (x.map Prod.snd).flatten from by simp [allLabels, List.flatMap]]
      exact this.symm
    have hfirst : firstState c = some (c, m.map Prod.snd) := by
      unfold firstState
      rw [a3, b1, List.nil_append, hx]
    have hmem : (c, m.map Prod.snd) ∈ layerings := by
      unfold layerings
      rw [List.mem_flatMap]
      refine ⟨_, List.mem_filterMap.mpr ⟨c, plain_of_layout a1, hfirst⟩, ?_⟩
      unfold grow
      exact List.mem_cons_self
    obtain ⟨acc', si'', c1, c2, c3⟩ := layers_rest hn ls (by omega) b4 hmem h
    refine ⟨acc', si'', c1, c2, ?_⟩
    cases ls with
    | nil =>
      simp only [List.getLast?_singleton, Option.some.injEq] at hlast
      subst hlast
      simp only [List.getLast?_nil] at c3
      subst c3
      exact a1
    | cons y ys =>
      rw [List.getLast?_cons_cons] at hlast
      rw [hlast] at c3
      exact c3

/-! ### Substreams and frames -/

private theorem channels_ok {linear : Int16 → Rat} {gains : LabelGains} {D : SamplesMap} {n : Nat} {ls : List Label}
    (h : ∀ l ∈ ls, Has D n l) : ∃ a b, substreamChannels linear gains D ls = .ok (a, b) ∧ ls.map D = a.map some ∧
      (∀ s ∈ a, s.length = n) ∧ b = (ls.zip a).map fun x => x.2.map fun v => v / (match gains.lookup x.1 with
          | none => 1
          | some g => linear g) := by
  induction ls with
  | nil => exact ⟨[], [], rfl, rfl, by simp, rfl⟩
  | cons l ls ih =>
    obtain ⟨a, b, h1, h2, h3, h4⟩ := ih (fun x hx => h x (List.mem_cons_of_mem _ hx))
    obtain ⟨s, hs, hn⟩ := h l List.mem_cons_self
    refine ⟨s :: a, s.map (· / (match gains.lookup l with | none => 1 | some g => linear g)) :: b, ?_, by simp [h2, hs], ?_, by rw [h4]; rfl⟩
    · unfold substreamChannels
      rw [hs, h1]; rfl
    · intro t ht
      rcases List.mem_cons.mp ht with rfl | ht
      · exact hn
      · exact h3 t ht

/-- A frame that carries these channels of `D`. -/
private def Carries (D : SamplesMap) (n : Nat) (labels : List Label) (ss : List Samples) : Prop :=
  labels.map D = ss.map some ∧ ∀ s ∈ ss, s.length = n

private theorem mapM_frames {linear : Int16 → Rat} {gains : LabelGains} {D : SamplesMap} {n : Nat} (sub : SubstreamLabels)
    (h : ∀ x ∈ sub, ∀ l ∈ x.2, Has D n l) :
    ∃ fs : List SubstreamFrame, (sub.mapM fun s => do
        let (a, b) ← substreamChannels linear gains D s.2
        (.ok ⟨s.1, a, b⟩ : Except Err SubstreamFrame)) = .ok fs ∧
      fs.map (·.id) = sub.map Prod.fst ∧ ∀ f ∈ fs, ∃ x ∈ sub, x.1 = f.id ∧ Carries D n x.2 f.original ∧
        f.toEncode = (x.2.zip f.original).map fun y => y.2.map fun v => v / (match gains.lookup y.1 with
          | none => 1
          | some g => linear g) := by
  induction sub with
  | nil => exact ⟨[], rfl, rfl, by simp⟩
  | cons x sub ih =>
    obtain ⟨fs, h1, h2, h3⟩ := ih (fun y hy => h y (List.mem_cons_of_mem _ hy))
    obtain ⟨a, b, c1, c2, c3, c4⟩ := channels_ok (linear := linear) (gains := gains) (h x List.mem_cons_self)
    refine ⟨⟨x.1, a, b⟩ :: fs, ?_, by simp [h2], ?_⟩
    · rw [List.mapM_cons, c1, h1]; rfl
    · intro f hf
      rcases List.mem_cons.mp hf with rfl | hf
      · exact ⟨x, List.mem_cons_self, rfl, ⟨c2, c3⟩, c4⟩
      · obtain ⟨y, hy, e⟩ := h3 f hf
        exact ⟨y, List.mem_cons_of_mem _ hy, e⟩

private theorem storeChannels_at {D : SamplesMap} {labels : List Label} {ss : List Samples} (h : labels.map D = ss.map some)
    (m : SamplesMap) (l : Label) : storeChannels labels ss m l = if l ∈ labels then D l else m l := by
  induction labels generalizing ss m with
  | nil => cases ss <;> simp [storeChannels]
  | cons a labels ih =>
    cases ss with
    | nil => simp at h
    | cons s ss =>
      simp only [List.map_cons, List.cons.injEq] at h
      unfold storeChannels
      rw [ih h.2]
      by_cases h1 : l ∈ labels
      · simp [h1]
      · by_cases h2 : l = a
        · subst h2; simp [h1, SamplesMap.set, h.1]
        · simp [h1, h2, SamplesMap.set]

private theorem storeLoop_ok {D : SamplesMap} {n : Nat} {sub : SubstreamLabels} {start : Int} {p : MixFactors} (as : List LabeledInput)
    (h : ∀ a ∈ as, a.start = start ∧ a.params = p ∧ a.samples ≠ [] ∧ ∃ ls, sub.lookup a.id = some ls ∧ Carries D n ls a.samples)
    (e : Option Nat) (he : e = none ∨ e = some n) (f : LabeledFrame) :
    ∃ f', storeLoop sub start as e f = .ok f' ∧ (as ≠ [] → f'.params = p) ∧
      ∀ l, f'.samples l = if ∃ a ∈ as, ∃ ls, sub.lookup a.id = some ls ∧ l ∈ ls then D l else f.samples l := by
  induction as generalizing e f with
  | nil => exact ⟨f, rfl, fun h => absurd rfl h, by simp⟩
  | cons a as ih =>
    obtain ⟨h1, h2, h3, ls, h4, h5, h6⟩ := h a List.mem_cons_self
    have ih := ih (fun b hb => h b (List.mem_cons_of_mem _ hb)) (some n) (.inr rfl)
      ⟨storeChannels ls a.samples f.samples, a.params⟩
    obtain ⟨f', i1, i2, i3⟩ := ih
    refine ⟨f', ?_, ?_, ?_⟩
    · unfold storeLoop
      have hlen : a.samples.length = ls.length := by simpa using congrArg List.length h5.symm
      simp only [h4, h1, ne_eq, not_true_eq_false, ↓reduceIte, h3, hlen]
      rw [commonTicks_eq h6 h3]
      rcases he with rfl | rfl
      · exact i1
      · simpa [bind, Except.bind] using i1
    · intro _
      cases as with
      | nil =>
        simp only [storeLoop, Except.ok.injEq] at i1
        rw [← i1]; exact h2
      | cons b as => exact i2 (by simp)
    · intro l
      rw [i3 l]
      simp only [storeChannels_at h5]
      by_cases hr : ∃ b ∈ as, ∃ ls, sub.lookup b.id = some ls ∧ l ∈ ls
      · rw [if_pos hr, if_pos]
        obtain ⟨b, hb, e⟩ := hr
        exact ⟨b, List.mem_cons_of_mem _ hb, e⟩
      · rw [if_neg hr]
        by_cases hl : l ∈ ls
        · rw [if_pos hl, if_pos ⟨a, List.mem_cons_self, ls, h4, hl⟩]
        · rw [if_neg hl, if_neg]
          rintro ⟨b, hb, ls', e1, e2⟩
          rcases List.mem_cons.mp hb with rfl | hb
          · rw [h4] at e1; simp only [Option.some.injEq] at e1; subst e1; exact hl e2
          · exact hr ⟨b, hb, ls', e1, e2⟩

/-! ### C28 -/

private theorem lookup_of_mem {sub : SubstreamLabels} (hn : (sub.map Prod.fst).Nodup) {x : UInt32 × List Label} (hx : x ∈ sub) :
    sub.lookup x.1 = some x.2 := by
  induction sub with
  | nil => simp at hx
  | cons y sub ih =>
    rw [List.map_cons, List.nodup_cons] at hn
    obtain ⟨k, v⟩ := y
    rcases List.mem_cons.mp hx with rfl | hx'
    · simp [List.lookup]
    · have hne : x.1 ≠ k := by
        rintro rfl
        exact hn.1 (List.mem_map.mpr ⟨x, hx', rfl⟩)
      rw [List.lookup, beq_eq_false_iff_ne.mpr hne]
      exact ih hn.2 hx'

private theorem factors_ok {p : MixFactors} (hb : 1 / 100000 ≤ |p.beta|) (hg : 1 / 100000 ≤ |p.gamma|) (hd : 1 / 100000 ≤ |p.delta|) :
    Ok p ∧ ∀ s : Step, ((s.up.divisor p).any nearZero) = false := by
  have key : ∀ x : Rat, 1 / 100000 ≤ |x| → x ≠ 0 ∧ nearZero x = false := by
    intro x hx
    constructor
    · rintro rfl
      norm_num at hx
    · unfold nearZero
      rw [Bool.and_eq_false_iff, decide_eq_false_iff_not, decide_eq_false_iff_not]
      by_contra hc
      simp only [not_or, not_not] at hc
      have := abs_lt.mpr hc
      linarith
  refine ⟨⟨(key _ hb).1, (key _ hg).1, (key _ hd).1⟩, fun s => ?_⟩
  cases s <;> simp [Step.up, s5ToS7, s3ToS5, s2ToS3, s1ToS2, t2ToT4, tf2ToT2, key _ hb, key _ hg, key _ hd]

/-! #### The formulas of IAMF (section "Down-mixing"), for a highest layout with the channels `L` -/

namespace Spec
variable (L : List Label) (p : MixFactors) (x : Label → Rat)

/-- Front left / right of 5.x. -/
def l5 : Rat := if Label.l7 ∈ L then x .l7 else x .l5
def r5 : Rat := if Label.l7 ∈ L then x .r7 else x .r5
/-- Surround left / right of 5.x. -/
def ls5 : Rat := if Label.l7 ∈ L then p.alpha * x .lss7 + p.beta * x .lrs7 else x .ls5
def rs5 : Rat := if Label.l7 ∈ L then p.alpha * x .rss7 + p.beta * x .rrs7 else x .rs5
def l3 : Rat := if Label.l3 ∈ L then x .l3 else l5 L x + p.delta * ls5 L p x
def r3 : Rat := if Label.l3 ∈ L then x .r3 else r5 L x + p.delta * rs5 L p x
def l2 : Rat := if Label.l2 ∈ L then x .l2 else l3 L p x + 0.707 * x .centre
def r2 : Rat := if Label.l2 ∈ L then x .r2 else r3 L p x + 0.707 * x .centre
def mono : Rat := if Label.mono ∈ L then x .mono else (l2 L p x + r2 L p x) / 2
/-- Two height channels above 5.x or 7.x. -/
def ltf2 : Rat := if Label.ltf4 ∈ L then x .ltf4 + p.gamma * x .ltb4 else x .ltf2
def rtf2 : Rat := if Label.ltf4 ∈ L then x .rtf4 + p.gamma * x .rtb4 else x .rtf2
/-- Two height channels above 3.x. -/
def ltf3 : Rat := if Label.ltf3 ∈ L then x .ltf3 else ltf2 L p x + p.w * p.delta * ls5 L p x
def rtf3 : Rat := if Label.ltf3 ∈ L then x .rtf3 else rtf2 L p x + p.w * p.delta * rs5 L p x

/-- The down-mix of the channels `x` of the highest layout for one channel of a lower layout. -/
def channel : Label → Rat
  | .l5 => l5 L x
  | .r5 => r5 L x
  | .ls5 => ls5 L p x
  | .rs5 => rs5 L p x
  | .l3 => l3 L p x
  | .r3 => r3 L p x
  | .l2 => l2 L p x
  | .r2 => r2 L p x
  | .mono => mono L p x
  | .ltf2 => ltf2 L p x
  | .rtf2 => rtf2 L p x
  | .ltf3 => ltf3 L p x
  | .rtf3 => rtf3 L p x
  | l => x l

end Spec

private theorem spec_step (s : Step) (p : MixFactors) (L : List Label) (x : Label → Rat)
    (h : (s = .s7 → .l7 ∈ L) ∧ (s = .t4 → .ltf4 ∈ L) ∧ ∀ o ∈ s.down.outputs, o.1 ∉ L) :
    ∀ o ∈ s.down.outputs, Spec.channel L p x o.1 = o.2 p (Spec.channel L p x) := by
  obtain ⟨h7, h4, ho⟩ := h
  cases s <;>
    simp only [Step.down, s7ToS5, s5ToS3, s3ToS2, s2ToS1, t4ToT2, t2ToTf2, List.forall_mem_cons, List.not_mem_nil, false_imp_iff,
      implies_true, and_true, forall_const, reduceCtorEq] at h7 h4 ho ⊢ <;>
    simp only [Spec.channel]
  · simp [Spec.l5, Spec.r5, Spec.ls5, Spec.rs5, h7]
  · simp [Spec.l3, Spec.r3, ho]
  · simp only [Spec.l2, Spec.r2, ho, ↓reduceIte]; norm_num
  · simp only [Spec.mono, ho, ↓reduceIte]; ring
  · simp [Spec.ltf2, Spec.rtf2, h4]
  · simp [Spec.ltf3, Spec.rtf3, ho]

private theorem spec_input (L : List Label) (p : MixFactors) (x : Label → Rat)
    (c7 : (!L.contains Label.l7 || [Label.l5, .r5, .ls5, .rs5].all (fun l => !L.contains l)) = true)
    (c4 : (!L.contains Label.ltf4 || [Label.ltf2, .rtf2].all (fun l => !L.contains l)) = true)
    (cl3 : (L.contains Label.l3 == L.contains .r3) = true) (cl2 : (L.contains Label.l2 == L.contains .r2) = true)
    (ctf : (L.contains Label.ltf3 == L.contains .rtf3) = true) {l : Label} (hl : l ∈ L) : Spec.channel L p x l = x l := by
  simp only [List.all_cons, List.all_nil, Bool.and_true, Bool.or_eq_true, Bool.not_eq_true', Bool.eq_false_iff, ne_eq,
    List.contains_iff_mem, Bool.and_eq_true] at c7 c4
  have e3 : .l3 ∈ L ↔ .r3 ∈ L := by rw [beq_iff_eq] at cl3; rw [← List.contains_iff_mem, cl3, List.contains_iff_mem]
  have e2 : .l2 ∈ L ↔ .r2 ∈ L := by rw [beq_iff_eq] at cl2; rw [← List.contains_iff_mem, cl2, List.contains_iff_mem]
  have et : .ltf3 ∈ L ↔ .rtf3 ∈ L := by rw [beq_iff_eq] at ctf; rw [← List.contains_iff_mem, ctf, List.contains_iff_mem]
  cases l <;> simp only [Spec.channel, Spec.l5, Spec.r5, Spec.ls5, Spec.rs5, Spec.l3, Spec.r3, Spec.l2, Spec.r2, Spec.mono,
    Spec.ltf2, Spec.rtf2, Spec.ltf3, Spec.rtf3] <;> simp_all

private theorem downs_spec {D : SamplesMap} {p : MixFactors} {σ : Label → Rat} (i : Nat) {steps : List Step} {av A : List Label}
    (hav : ∀ l ∈ av, D.at i l = σ l)
    (hD : ∀ s ∈ steps, ∀ o ∈ s.down.outputs, D.at i o.1 = o.2 p (D.at i))
    (hσ : ∀ s ∈ steps, ∀ o ∈ s.down.outputs, σ o.1 = o.2 p σ)
    (h : simDown steps av = some A) : ∀ l ∈ A, D.at i l = σ l := by
  induction steps generalizing av with
  | nil =>
    simp only [simDown, Option.some.injEq] at h
    subst h
    exact hav
  | cons s ss ih =>
    unfold simDown at h
    split at h
    next hc =>
      simp only [Bool.and_eq_true, List.all_eq_true, List.contains_iff_mem] at hc
      refine ih ?_ (fun t ht => hD t (List.mem_cons_of_mem _ ht)) (fun t ht => hσ t (List.mem_cons_of_mem _ ht)) h
      intro l hl
      rcases List.mem_append.mp hl with hl | hl
      · exact hav l hl
      · obtain ⟨o, ho, rfl⟩ := List.mem_map.mp hl
        rw [hD s List.mem_cons_self o ho, hσ s List.mem_cons_self o ho]
        exact down_on s o ho p _ _ (fun l hl => hav l (hc.1 l hl))
    · simp at h

/-- **C28 (reconstruction).** Take any channel-based element that is accepted (with layouts that are not expanded), any
samples for all channels of its highest layout, and any down-mixing factors that are not near zero.  Then, in whatever order
the substreams and the frames are visited,
* the samples can be down-mixed to the substreams: each substream gets its channels, computed by the formulas of IAMF
  (`Spec.channel`), and for the encoder the same divided by the output gains;
* demixing the frames of the substreams succeeds and gives back the original samples of every channel of the highest layout. -/
theorem C28_reconstruction (ids : List UInt32) (c : ScalableLayout) (r : ElementLabels)
    (hlen : 1 ≤ c.layers.length ∧ c.layers.length ≤ 255) (hx : ∀ l ∈ c.layers, l.layout ≠ kLayoutExpanded)
    (h : finalizeScalable ids c = .ok r) (L : List Label) (hL : labelsToReconstruct c.layers = .ok L)
    (sub sub' : SubstreamLabels) (hsub : sub.Perm r.labels) (hsub' : sub'.Perm r.labels)
    (linear : Int16 → Rat) (p : MixFactors)
    (hb : 1 / 100000 ≤ |p.beta|) (hg : 1 / 100000 ≤ |p.gamma|) (hd : 1 / 100000 ≤ |p.delta|)
    (n : Nat) (input : SamplesMap) (hin : ∀ l ∈ L, ∃ s, input l = some s ∧ s.length = n) :
    ∃ frames, downMixToSubstreams (downMixers L sub) sub linear r.gains p input = .ok frames ∧
      (frames.map (·.id)).Perm ids ∧
      (∀ f ∈ frames, ∃ ls, (f.id, ls) ∈ r.labels ∧
        f.original = ls.map (fun l => (List.range n).map fun i => Spec.channel L p (input.at i) l) ∧
        f.toEncode = (ls.zip f.original).map fun x => x.2.map fun v => v / (match r.gains.lookup x.1 with
          | none => 1
          | some g => linear g)) ∧
      ∀ (start : Int) (as : List LabeledInput), as.Perm (frames.map fun f => ⟨f.id, start, f.original, p⟩) →
        ∃ out, demixElement (demixers L sub') sub' as = .ok (some out) ∧
          ∀ l ∈ L, ∃ s, findSamples l out.samples = .ok s ∧ input l = some s := by
  obtain ⟨last, hlast⟩ : ∃ last, c.layers.getLast? = some last := by
    cases hc : c.layers.getLast? with
    | none => rw [List.getLast?_eq_none_iff] at hc; simp [hc] at hlen
    | some l => exact ⟨l, rfl⟩
  have hexp : last.layout ≠ kLayoutExpanded := hx last (List.mem_of_getLast? hlast)
  unfold labelsToReconstruct at hL
  rw [hlast] at hL
  simp only [hexp, ↓reduceIte] at hL
  have hlen' := (C27_channels ids c r hlen (fun l hl he => absurd he (hx l hl)) h).1
  obtain ⟨hn, acc, hst, hacc⟩ : ids.Nodup ∧ ∃ acc, (acc, r.labels.map Prod.snd) ∈ layerings ∧ layoutChannels last.layout = .ok acc := by
    unfold finalizeScalable at h
    split at h
    · simp at h
    next hn =>
      simp only [Decidable.not_not] at hn
      obtain ⟨r', h1, h⟩ := except_bind_ok h
      have hnum : c.numLayers.toNat = c.layers.length := by
        unfold ScalableLayout.numLayers
        rw [UInt8.toNat_ofNat']
        omega
      rw [hnum, List.take_length] at h1
      split at h
      · simp at h
      · simp only [Except.ok.injEq] at h
        subst h
        obtain ⟨acc, si, a1, -, a3⟩ := layers_all hn hx hlast h1
        exact ⟨hn, acc, a1, a3⟩
  have hrev := reversible_of hst hacc hL
  have hflat : (r.labels.map Prod.snd).flatten = allLabels r.labels := by simp [allLabels, List.flatMap]
  unfold reversible at hrev
  simp only [hflat, Bool.and_eq_true, List.all_eq_true] at hrev
  obtain ⟨⟨hone, hsp⟩, hrev⟩ := hrev
  split at hrev
  · simp at hrev
  next A hA =>
    simp only [Bool.and_eq_true, List.all_eq_true, List.contains_iff_mem, Option.isNone_iff_eq_none, decide_eq_true_eq] at hrev
    obtain ⟨⟨hlab, hnodup⟩, hrev⟩ := hrev
    split at hrev
    · simp at hrev
    next K hK =>
      simp only [Bool.and_eq_true, List.all_eq_true, Option.isNone_iff_eq_none] at hrev
      have hone' : ∀ sub : SubstreamLabels, sub.Perm r.labels → ∀ x ∈ sub, oneOf surroundTable x.2 = true ∧ oneOf heightTable x.2 = true ∧ x.2 ≠ [] := by
        intro sub hs x hx
        have := hone x.2 (List.mem_map_of_mem (hs.mem_iff.mp hx))
        simp only [Bool.not_eq_true', List.isEmpty_eq_false_iff] at this
        exact ⟨this.1.1, this.1.2, this.2⟩
      have hall : ∀ sub : SubstreamLabels, sub.Perm r.labels → ∀ l, l ∈ allLabels sub ↔ l ∈ allLabels r.labels := by
        intro sub hs l
        simp only [allLabels, List.mem_flatMap]
        exact ⟨fun ⟨x, a, b⟩ => ⟨x, hs.mem_iff.mp a, b⟩, fun ⟨x, a, b⟩ => ⟨x, hs.mem_iff.mpr a, b⟩⟩
      have e1 := (steps_eq L sub (allLabels r.labels) (fun x hx => ⟨(hone' sub hsub x hx).1, (hone' sub hsub x hx).2.1⟩) (hall sub hsub)).1
      have e2 := (steps_eq L sub' (allLabels r.labels) (fun x hx => ⟨(hone' sub' hsub' x hx).1, (hone' sub' hsub' x hx).2.1⟩) (hall sub' hsub')).2
      obtain ⟨D, d1, d2, d3, d4, d5⟩ := downs_run p n _ hin hA
      obtain ⟨⟨⟨⟨⟨hstep0, c7⟩, c4⟩, cl3⟩, cl2⟩, ctf⟩ := hsp
      have hstep : ∀ s ∈ surroundSteps L (allLabels r.labels) ++ heightSteps L (allLabels r.labels),
          (s = .s7 → .l7 ∈ L) ∧ (s = .t4 → .ltf4 ∈ L) ∧ ∀ o ∈ s.down.outputs, o.1 ∉ L := by
        intro s hs
        have := hstep0 s hs
        simp only [bne_iff_ne, Bool.or_eq_true, List.contains_iff_mem, List.mem_map, forall_exists_index,
          and_imp, Bool.not_eq_true', Bool.eq_false_iff, ne_eq] at this
        obtain ⟨⟨q1, q2⟩, q3⟩ := this
        exact ⟨fun e => q1.resolve_left (fun q => q e), fun e => q2.resolve_left (fun q => q e), fun o ho => q3 _ o ho rfl⟩
      have hspec : ∀ i, ∀ l ∈ L, D.at i l = Spec.channel L p (input.at i) l := by
        intro i l hl
        rw [spec_input L p (input.at i) c7 c4 cl3 cl2 ctf hl]
        simp only [SamplesMap.at]
        rw [d2 l hl]
      have hsubD : ∀ sub : SubstreamLabels, sub.Perm r.labels → ∀ x ∈ sub, ∀ l ∈ x.2, Has D n l := by
        intro sub hs x hx l hl
        refine d4 l (hlab l ?_).1
        simp only [allLabels, List.mem_flatMap]
        exact ⟨x, hs.mem_iff.mp hx, hl⟩
      obtain ⟨fs, f1, f2, f3⟩ := mapM_frames (linear := linear) (gains := r.gains) sub (hsubD sub hsub)
      have hids : (fs.map (·.id)).Perm ids := by rw [f2, ← hlen']; exact hsub.map _
      refine ⟨fs, ?_, hids, ?_, ?_⟩
      · unfold downMixToSubstreams
        rw [e1, d1]; exact f1
      · intro f hf
        obtain ⟨x, hx, hid, ⟨hc, hl⟩, henc⟩ := f3 f hf
        refine ⟨x.2, ?_, ?_, henc⟩
        · rw [← hid]; exact hsub.mem_iff.mp hx
        · have hcar : ∀ l ∈ x.2, D l = some ((List.range n).map fun i => Spec.channel L p (input.at i) l) := by
            intro l hl
            obtain ⟨t, ht, htn⟩ := hsubD sub hsub x hx l hl
            rw [ht, Option.some.injEq]
            refine List.ext_getElem (by simp [htn]) fun i q1 q2 => ?_
            have hi : i < n := by omega
            have := downs_spec i (hspec i) (fun s hs o ho => ((d5 s hs).2 o ho).2 i hi)
              (fun s hs => spec_step s p L (input.at i) (hstep s hs)) hA l
              (hlab l (by simp only [allLabels, List.mem_flatMap]; exact ⟨x, hsub.mem_iff.mp hx, hl⟩)).1
            rw [List.getElem_map, List.getElem_range, ← this]
            simp [SamplesMap.at, ht, q1]
          have : x.2.map D = (x.2.map (fun l => (List.range n).map fun i => Spec.channel L p (input.at i) l)).map some := by
            rw [List.map_map]
            exact List.map_congr_left fun l hl => hcar l hl
          rw [hc] at this
          exact List.map_injective_iff.mpr (Option.some_injective _) this
      · intro start as has
        have hkeys' : (sub'.map Prod.fst).Nodup := by
          rw [(hsub'.map Prod.fst).nodup_iff, hlen']; exact hn
        have hcar : ∀ a ∈ as, a.start = start ∧ a.params = p ∧ a.samples ≠ [] ∧
            ∃ ls, sub'.lookup a.id = some ls ∧ Carries D n ls a.samples := by
          intro a ha
          obtain ⟨f, hf, rfl⟩ := List.mem_map.mp (has.mem_iff.mp ha)
          obtain ⟨x, hx, hid, hc, -⟩ := f3 f hf
          have hx' : x ∈ sub' := hsub'.mem_iff.mpr (hsub.mem_iff.mp hx)
          refine ⟨rfl, rfl, ?_, x.2, ?_, hc⟩
          · intro he
            have he : f.original = [] := he
            have := hc.1
            rw [he] at this
            exact (hone' sub hsub x hx).2.2 (by simpa using this)
          · show sub'.lookup f.id = _
            rw [← hid]; exact lookup_of_mem hkeys' hx'
        have hne : as ≠ [] := by
          intro e
          rw [e] at has
          have h0 := has.length_eq
          have h1 := hids.length_eq
          simp only [List.length_nil, List.length_map] at h0 h1
          have : r.labels = [] := by
            have := congrArg List.length hlen'
            rw [List.length_map] at this
            exact List.length_eq_zero_iff.mp (by omega)
          have hlastnum := (C27_channels ids c r hlen (fun l hl he => absurd he (hx l hl)) h).2.2.2.1
          have hLne : L ≠ [] := by
            unfold plainLayoutLabels at hL
            split at hL <;> simp only [Except.ok.injEq, reduceCtorEq] at hL <;> subst hL <;> simp
          obtain ⟨l, hl⟩ := List.exists_mem_of_ne_nil L hLne
          obtain ⟨q1, q2⟩ := hlastnum
          have hpl := plain_of_layout hacc
          rw [this] at hst
          have hst' : layerings.all (fun s => !s.2.isEmpty) = true := by decide +kernel
          have := List.all_eq_true.mp hst' _ hst
          simp at this
        obtain ⟨a0, as', has0⟩ := List.exists_cons_of_ne_nil hne
        obtain ⟨f', s1, s2, s3⟩ := storeLoop_ok as hcar none (.inl rfl) ⟨.empty, ⟨0, 0, 0, 0, 0⟩⟩
        have hstore : storeSamples sub' as ⟨.empty, ⟨0, 0, 0, 0, 0⟩⟩ = .ok f' := by
          have h0 : a0.start = start := (hcar a0 (by rw [has0]; exact List.mem_cons_self)).1
          rw [has0] at s1 ⊢
          simp only [storeSamples]
          rw [h0]; exact s1
        have hmem : ∀ l, (∃ a ∈ as, ∃ ls, sub'.lookup a.id = some ls ∧ l ∈ ls) ↔ l ∈ allLabels r.labels := by
          intro l
          constructor
          · rintro ⟨a, ha, ls, q1, q2⟩
            obtain ⟨f, hf, rfl⟩ := List.mem_map.mp (has.mem_iff.mp ha)
            obtain ⟨x, hx, hid, hc, -⟩ := f3 f hf
            have hx' : x ∈ sub' := hsub'.mem_iff.mpr (hsub.mem_iff.mp hx)
            have : sub'.lookup f.id = some x.2 := by rw [← hid]; exact lookup_of_mem hkeys' hx'
            change sub'.lookup f.id = some ls at q1
            rw [this] at q1
            simp only [Option.some.injEq] at q1
            subst q1
            simp only [allLabels, List.mem_flatMap]
            exact ⟨x, hsub.mem_iff.mp hx, q2⟩
          · intro hl
            simp only [allLabels, List.mem_flatMap] at hl
            obtain ⟨x, hx, hl⟩ := hl
            have hxs : x.1 ∈ fs.map (·.id) := by
              rw [f2]; exact List.mem_map_of_mem (hsub.mem_iff.mpr hx)
            obtain ⟨f, hf, hid⟩ := List.mem_map.mp hxs
            refine ⟨⟨f.id, start, f.original, p⟩, has.mem_iff.mpr (List.mem_map_of_mem hf), x.2, ?_, hl⟩
            show sub'.lookup f.id = _
            rw [hid]; exact lookup_of_mem hkeys' (hsub'.mem_iff.mpr hx)
        have hM : Faithful D f'.samples := by
          intro k t hk
          rw [s3 k] at hk
          split at hk
          next hin' =>
            rw [(hlab k ((hmem k).mp hin')).2]
            exact hk
          · simp [SamplesMap.empty] at hk
        have hks : ∀ k ∈ allLabels r.labels, ∃ s, f'.samples k = some s := by
          intro k hk
          rw [s3 k, if_pos ((hmem k).mpr hk)]
          obtain ⟨t, ht, -⟩ := d4 k (hlab k hk).1
          exact ⟨t, ht⟩
        obtain ⟨hok, hz⟩ := factors_ok hb hg hd
        obtain ⟨M', m1, m2, m3⟩ := ups_run hok hz d4 (fun s hs o ho => ((d5 s hs).2 o ho).2) _ hM hks hK
        refine ⟨⟨M', p⟩, ?_, ?_⟩
        · unfold demixElement
          rw [hstore]
          have hany : as.any (fun a => (sub'.lookup a.id).isSome) = true := by
            rw [List.any_eq_true]
            refine ⟨a0, by rw [has0]; exact List.mem_cons_self, ?_⟩
            obtain ⟨-, -, -, ls, q, -⟩ := hcar a0 (by rw [has0]; exact List.mem_cons_self)
            rw [q]; rfl
          simp only [bind, Except.bind, hany, ↓reduceIte]
          rw [s2 hne, e2, m1]
        · intro l hl
          obtain ⟨t, t1, t2, -⟩ := find_ok d4 m2 m3 (hrev l hl).2 (hrev l hl).1 (d3 hl)
          exact ⟨t, t1, (d2 l hl).symm.trans t2⟩

/-- **C28 (modes).** The factors of every down-mixing mode meet the condition of `C28_reconstruction`. -/
theorem C28_modes_are_reversible (mode : UInt8) (w : Int) (rule : WIdxRule) (q : DownMixingParams)
    (h : dmixpModeToParams mode w rule = .ok q) :
    1 / 100000 ≤ |q.factors.beta| ∧ 1 / 100000 ≤ |q.factors.gamma| ∧ 1 / 100000 ≤ |q.factors.delta| := by
  unfold dmixpModeToParams dmixpModeValues at h
  split at h
  · simp at h
  next heq =>
    simp only at h
    split at h
    · simp at h
    · simp only [Except.ok.injEq] at h
      subst h
      simp only [DownMixingParams.factors]
      repeat' split at heq
      all_goals simp only [Option.some.injEq, Prod.mk.injEq, reduceCtorEq] at heq
      all_goals obtain ⟨-, rfl, rfl, rfl, -⟩ := heq
      all_goals refine ⟨?_, ?_, ?_⟩ <;> norm_num [abs_of_pos]

private def exampleC28 : ScalableLayout :=
  ⟨0, [⟨0, false, false, 0, 1, 0, 0, 0, 0, none⟩, ⟨1, false, true, 0, 1, 0, 0, 0, 0, none⟩,
    ⟨8, false, true, 0, 3, 1, 0, 0, 0, none⟩, ⟨4, false, true, 0, 2, 2, 0, 0, 0, none⟩]⟩

/-- Mono, stereo, 3.1.2 and 5.1.4 layers: all four lower down-mixers and demixers take part. -/
example : (∃ r, finalizeScalable [10, 11, 12, 13, 14, 15, 16] exampleC28 = .ok r) ∧
    labelsToReconstruct exampleC28.layers = .ok [.l5, .r5, .centre, .lfe, .ls5, .rs5, .ltf4, .rtf4, .ltb4, .rtb4] ∧
    ∃ q, dmixpModeToParams 2 0 .normal = .ok q :=
  ⟨⟨⟨[(10, [.mono]), (11, [.l2]), (12, [.ltf3, .rtf3]), (13, [.centre]), (14, [.lfe]), (15, [.l5, .r5]), (16, [.ltf4, .rtf4])],
      [], [⟨1, 0, 0, 0⟩, ⟨2, 0, 0, 0⟩, ⟨3, 1, 2, 0⟩, ⟨5, 1, 4, 0⟩]⟩, by decide +kernel⟩, by decide +kernel,
    ⟨⟨10000, 8660, 8660, 8660, -1, 0, 0, true⟩, by decide +kernel⟩⟩

/-- **C28 (finding).** An output gain is divided out of the samples that go to the encoder, but nothing multiplies the
decoded samples with it again: with a lossless codec, the left channel of this stereo element (gain 1 dB on the left) comes
back as `1 / linear 256` times the original, whatever the linear gain is. -/
theorem C28_output_gain_is_not_undone (linear : Int16 → Rat) (x y : Rat) (p : MixFactors) :
    ∃ r frames out,
      finalizeScalable [5] ⟨0, [⟨1, true, false, 0, 1, 1, 32, 0, 256, none⟩]⟩ = .ok r ∧
      downMixToSubstreams (downMixers [.l2, .r2] r.labels) r.labels linear r.gains p
        (fun l => if l = .l2 then some [x] else if l = .r2 then some [y] else none) = .ok frames ∧
      demixElement (demixers [.l2, .r2] r.labels) r.labels (frames.map fun f => ⟨f.id, 0, f.toEncode, p⟩) = .ok (some out) ∧
      findSamples .l2 out.samples = .ok [x / linear 256] ∧ findSamples .r2 out.samples = .ok [y / 1] := by
  refine ⟨⟨[(5, [.l2, .r2])], [(.l2, 256)], [⟨2, 0, 0, 0⟩]⟩, [⟨5, [[x], [y]], [[x / linear 256], [y / 1]]⟩],
    ⟨storeChannels [.l2, .r2] [[x / linear 256], [y / 1]] .empty, p⟩, by decide +kernel, rfl, rfl, rfl, rfl⟩

end Iamf.Props
