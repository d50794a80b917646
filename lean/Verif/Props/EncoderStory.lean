import Verif.Props.EncoderSpec
/-
  Every run of an encoder is a history as specified: lemmas about the parts.
-/
namespace Iamf.Props
open Iamf

variable {L : EncoderLib} {P : EncoderParts} {σ : Type} {K : Sink σ} {linear : Int16 → Rat}

/-! ### Histories, one call longer -/

theorem unitsIn_snoc (evs : List EncoderEvent) (ev : EncoderEvent) : unitsIn (evs ++ [ev]) = unitsIn evs ++ ev.unit.toList := by
  unfold unitsIn
  rw [List.filterMap_append]
  cases h : ev.unit <;> simp [h]

theorem ticksIn_snoc (evs : List EncoderEvent) (ev : EncoderEvent) : ticksIn (evs ++ [ev]) = ticksIn evs ++ (ev.unit.bind (·.tick)).toList := by
  unfold ticksIn
  rw [unitsIn_snoc, List.filterMap_append]
  cases h : ev.unit with
  | none => rfl
  | some p => cases h2 : p.tick <;> simp [h2]

theorem finalizedIn_snoc (evs : List EncoderEvent) (ev : EncoderEvent) : finalizedIn (evs ++ [ev]) = (finalizedIn evs || ev.call.isFinal) := by
  unfold finalizedIn
  simp [List.any_append]

/-- The temporal units with frames. -/
def framed (evs : List EncoderEvent) : List UnitParts := (unitsIn evs).filter fun p => !p.frames.isEmpty

private theorem foldl_first {α : Type} (definitions : List (UInt32 × ParamEntry)) (evs : List EncoderEvent) :
    ∀ s, (evs.foldl (givenStep definitions) s).1 = s.1 + (framed evs).length := by
  induction evs with
  | nil => intro s; rfl
  | cons ev evs ih =>
    intro s
    rw [List.foldl_cons, ih]
    simp only [givenStep, framed, unitsIn, Nat.add_assoc]
    congr 1
    rw [show ev :: evs = [ev] ++ evs from rfl, List.filterMap_append, List.filter_append, List.length_append]

theorem metadataGiven_snoc (definitions : List (UInt32 × ParamEntry)) (evs : List EncoderEvent) (ev : EncoderEvent) :
    metadataGiven definitions (evs ++ [ev]) = metadataGiven definitions evs ++ (metadataTaken definitions ev.call).map fun b => (b, (framed evs).length) := by
  unfold metadataGiven
  rw [List.foldl_append]
  simp only [List.foldl_cons, List.foldl_nil, givenStep]
  rw [foldl_first (α := Unit), Nat.zero_add]

theorem givenFor_snoc (definitions : List (UInt32 × ParamEntry)) (k : BlockKind) (evs : List EncoderEvent) (ev : EncoderEvent) :
    givenFor definitions k (evs ++ [ev]) = givenFor definitions k evs ++
      (metadataOf definitions k (metadataTaken definitions ev.call)).map fun b => (b, (framed evs).length) := by
  unfold givenFor metadataOf
  rw [metadataGiven_snoc, List.filter_append, List.filter_map]
  rfl

theorem givenFor_metadata (definitions : List (UInt32 × ParamEntry)) (k : BlockKind) (evs : List EncoderEvent) :
    (givenFor definitions k evs).map Prod.fst = metadataOf definitions k ((metadataGiven definitions evs).map Prod.fst) := by
  unfold givenFor metadataOf
  rw [List.filter_map]
  rfl

private theorem pending_first (definitions : List (UInt32 × ParamEntry)) (evs : List EncoderEvent) :
    ∀ s, (evs.foldl (pendingStep definitions) s).1 = (s.1 || finalizedIn evs) := by
  induction evs with
  | nil => intro s; simp [finalizedIn]
  | cons ev evs ih =>
    intro s
    rw [List.foldl_cons, ih]
    unfold finalizedIn
    rw [List.any_cons]
    unfold pendingStep
    cases hc : ev.call with
    | encode u =>
      simp only [IamfEncoderCall.isFinal, Bool.false_or]
      split <;> rfl
    | finalizeEncode => simp [IamfEncoderCall.isFinal]
    | output r b => simp [IamfEncoderCall.isFinal]

theorem pendingSamples_snoc (definitions : List (UInt32 × ParamEntry)) (evs : List EncoderEvent) (ev : EncoderEvent) :
    pendingSamples definitions (evs ++ [ev]) = (pendingStep definitions (finalizedIn evs, pendingSamples definitions evs) ev).2 := by
  unfold pendingSamples
  rw [List.foldl_append]
  simp only [List.foldl_cons, List.foldl_nil]
  have : evs.foldl (pendingStep definitions) (false, []) = (finalizedIn evs, (evs.foldl (pendingStep definitions) (false, [])).2) := by
    refine Prod.ext ?_ rfl
    rw [pending_first]; simp
  rw [this]

private theorem generator_first (evs : List EncoderEvent) : ∀ s, (evs.foldl generatorStep s).1 = (s.1 || finalizedIn evs) := by
  induction evs with
  | nil => intro s; simp [finalizedIn]
  | cons ev evs ih =>
    intro s
    rw [List.foldl_cons, ih]
    unfold finalizedIn
    rw [List.any_cons]
    simp [generatorStep, Bool.or_assoc]

theorem generatorCallsIn_snoc (evs : List EncoderEvent) (ev : EncoderEvent) :
    generatorCallsIn (evs ++ [ev]) = generatorCallsIn evs ++ ev.generatorCalls (finalizedIn evs) := by
  unfold generatorCallsIn
  rw [List.foldl_append]
  simp only [List.foldl_cons, List.foldl_nil, generatorStep]
  rw [generator_first]
  simp

/-! ### Samples -/

theorem cacheSamples_latest {pending m : List ((UInt32 × Label) × Samples)} (h : LatestOf pending m) (k : UInt32 × Label) (s : Samples) :
    LatestOf (pending ++ [(k, s)]) (IamfEncoder.cacheSamples k s m) := by
  -- what caching does
  have key : ∀ m : List ((UInt32 × Label) × Samples), (m.map Prod.fst).Nodup →
      ((IamfEncoder.cacheSamples k s m).map Prod.fst).Nodup ∧
      ∀ k' s', (k', s') ∈ IamfEncoder.cacheSamples k s m ↔ if k' = k then s' = s else (k', s') ∈ m := by
    intro m
    induction m with
    | nil =>
      intro _
      refine ⟨by simp [IamfEncoder.cacheSamples], fun k' s' => ?_⟩
      simp only [IamfEncoder.cacheSamples, List.mem_singleton, Prod.mk.injEq, List.not_mem_nil, if_false_right]
    | cons x m ih =>
      intro hn
      obtain ⟨k0, s0⟩ := x
      simp only [List.map_cons, List.nodup_cons] at hn
      obtain ⟨i1, i2⟩ := ih hn.2
      simp only [IamfEncoder.cacheSamples]
      by_cases hk : k0 = k
      · subst hk
        rw [if_pos rfl]
        refine ⟨by simpa using hn, fun k' s' => ?_⟩
        by_cases hk' : k' = k0
        · subst hk'
          rw [if_pos rfl, List.mem_cons]
          constructor
          · rintro (h | h)
            · simpa using h
            · exact absurd (List.mem_map_of_mem (f := Prod.fst) h) hn.1
          · rintro rfl; exact .inl rfl
        · rw [if_neg hk', List.mem_cons, List.mem_cons]
          constructor
          · rintro (h | h)
            · exact absurd (Prod.mk.inj h).1 hk'
            · exact .inr h
          · rintro (h | h)
            · exact absurd (Prod.mk.inj h).1 hk'
            · exact .inr h
      · rw [if_neg hk]
        refine ⟨?_, fun k' s' => ?_⟩
        · simp only [List.map_cons, List.nodup_cons]
          refine ⟨fun hm => ?_, i1⟩
          obtain ⟨⟨a, b⟩, ha, hab⟩ := List.mem_map.mp hm
          simp only at hab
          subst hab
          have := (i2 a b).mp ha
          rw [if_neg hk] at this
          exact hn.1 (List.mem_map_of_mem (f := Prod.fst) this)
        · rw [List.mem_cons, i2, List.mem_cons]
          by_cases hk' : k' = k
          · subst hk'
            rw [if_pos rfl, if_pos rfl]
            constructor
            · rintro (h | h)
              · exact absurd (Prod.mk.inj h).1.symm hk
              · exact h
            · exact .inr
          · rw [if_neg hk', if_neg hk']
  obtain ⟨k1, k2⟩ := key m h.once
  refine ⟨k1, fun k' s' => ?_⟩
  rw [k2, List.filter_append]
  by_cases hk : k' = k
  · subst hk
    rw [if_pos rfl]
    simp only [List.filter_cons, List.filter_nil, decide_true, if_true, List.getLast?_append, List.getLast?_singleton, Option.some_or, Option.some.injEq,
      Prod.mk.injEq, true_and]
    exact eq_comm
  · rw [if_neg hk, h.latest]
    have : ([(k, s)].filter fun x => decide (x.1 = k')) = [] := by simp [Ne.symm hk]
    rw [this, List.append_nil]

theorem cacheAll_latest (l : List ((UInt32 × Label) × Samples)) : ∀ {pending m : List ((UInt32 × Label) × Samples)}, LatestOf pending m →
    LatestOf (pending ++ l.filter fun x => !x.2.isEmpty) (IamfEncoder.cacheAll l m) := by
  induction l with
  | nil => intro pending m h; simpa [IamfEncoder.cacheAll] using h
  | cons x l ih =>
    intro pending m h
    obtain ⟨k, s⟩ := x
    simp only [IamfEncoder.cacheAll, List.filter_cons]
    cases he : s.isEmpty with
    | true => simpa using ih h
    | false =>
      have := ih (cacheSamples_latest h k s)
      simpa using this

theorem latest_nil : LatestOf [] [] := ⟨List.nodup_nil, fun k s => by simp⟩

theorem latest_sorted {pending m : List ((UInt32 × Label) × Samples)} (h : LatestOf pending m) (rank : UInt32 × Label → Nat) :
    LatestOf pending (sortBy (fun a b => decide (rank a.1 ≤ rank b.1)) m) := by
  have hp := sortBy_perm (fun (a b : (UInt32 × Label) × Samples) => decide (rank a.1 ≤ rank b.1)) m
  exact ⟨(hp.map Prod.fst).nodup_iff.mpr h.once, fun k s => by rw [hp.mem_iff, h.latest]⟩

/-! ### Arbitrary OBUs -/

/-- The OBUs that are left. -/
structure TimedOk (s : EncoderSetup L P σ) (done : List Int) (m : TimedObus) : Prop where
  sorted : m.Pairwise fun a b => a.1 < b.1
  keys : ∀ t, t ∈ m.map Prod.fst ↔ t ∈ s.ticks ∧ t ∉ done
  obus : ∀ x ∈ m, x.2 = s.obusAt x.1

/-- What is known while the OBUs are arranged. -/
private structure Arranged (seen : List ArbitraryObu) (m : TimedObus) : Prop where
  sorted : m.Pairwise fun a b => a.1 < b.1
  keys : ∀ t, t ∈ m.map Prod.fst ↔ t ∈ seen.filterMap (·.insertionTick)
  obus : ∀ x ∈ m, x.2 = seen.filter fun o => o.insertionTick = some x.1

private theorem add_spec (t : Int) (o : ArbitraryObu) : ∀ m : TimedObus, m.Pairwise (fun a b => a.1 < b.1) →
    (TimedObus.add t o m).Pairwise (fun a b => a.1 < b.1) ∧ (∀ k, k ∈ (TimedObus.add t o m).map Prod.fst ↔ k = t ∨ k ∈ m.map Prod.fst) ∧
    ∀ x ∈ TimedObus.add t o m, (x.1 ≠ t ∧ x ∈ m) ∨ (x.1 = t ∧ ((t ∉ m.map Prod.fst ∧ x.2 = [o]) ∨ ∃ os, (t, os) ∈ m ∧ x.2 = os ++ [o])) := by
  intro m
  induction m with
  | nil =>
    intro _
    refine ⟨by simp [TimedObus.add], by simp [TimedObus.add], fun x hx => ?_⟩
    simp only [TimedObus.add, List.mem_singleton] at hx
    subst hx
    exact .inr ⟨rfl, .inl ⟨by simp, rfl⟩⟩
  | cons y m ih =>
    intro hs
    obtain ⟨k, os⟩ := y
    obtain ⟨h1, h2⟩ := List.pairwise_cons.mp hs
    obtain ⟨i1, i2, i3⟩ := ih h2
    simp only [TimedObus.add]
    by_cases hlt : t < k
    · rw [if_pos hlt]
      have hnot : t ∉ ((k, os) :: m).map Prod.fst := by
        intro hm
        obtain ⟨z, hz, rfl⟩ := List.mem_map.mp hm
        rcases List.mem_cons.mp hz with rfl | hz'
        · simp only at hlt; omega
        · have := h1 z hz'; simp only at this; omega
      refine ⟨List.pairwise_cons.mpr ⟨fun z hz => ?_, hs⟩, fun k' => by simp, fun x hx => ?_⟩
      · rcases List.mem_cons.mp hz with rfl | hz'
        · exact hlt
        · have := h1 z hz'; simp only at this ⊢; omega
      · rcases List.mem_cons.mp hx with rfl | hx'
        · exact .inr ⟨rfl, .inl ⟨hnot, rfl⟩⟩
        · refine .inl ⟨fun he => hnot (by rw [← he]; exact List.mem_map_of_mem hx'), hx'⟩
    · rw [if_neg hlt]
      by_cases heq : t = k
      · subst heq
        rw [if_pos rfl]
        refine ⟨List.pairwise_cons.mpr ⟨h1, h2⟩, fun k' => by simp, fun x hx => ?_⟩
        rcases List.mem_cons.mp hx with rfl | hx'
        · exact .inr ⟨rfl, .inr ⟨os, List.mem_cons_self, rfl⟩⟩
        · have := h1 x hx'
          simp only at this
          exact .inl ⟨by omega, List.mem_cons_of_mem _ hx'⟩
      · rw [if_neg heq]
        refine ⟨List.pairwise_cons.mpr ⟨fun z hz => ?_, i1⟩, fun k' => ?_, fun x hx => ?_⟩
        · have hz' := (i2 z.1).mp (List.mem_map_of_mem hz)
          rcases hz' with h | h
          · simp only; omega
          · obtain ⟨w, hw, hwz⟩ := List.mem_map.mp h
            have := h1 w hw
            simp only at this ⊢
            omega
        · simp only [List.map_cons, List.mem_cons, i2]
          constructor
          · rintro (h | h | h)
            · exact .inr (.inl h)
            · exact .inl h
            · exact .inr (.inr h)
          · rintro (h | h | h)
            · exact .inr (.inl h)
            · exact .inl h
            · exact .inr (.inr h)
        · rcases List.mem_cons.mp hx with rfl | hx'
          · exact .inl ⟨fun h => heq h.symm, List.mem_cons_self⟩
          · rcases i3 x hx' with ⟨a, b⟩ | ⟨a, b | ⟨os', b, c⟩⟩
            · exact .inl ⟨a, List.mem_cons_of_mem _ b⟩
            · refine .inr ⟨a, .inl ⟨?_, b.2⟩⟩
              simp only [List.map_cons, List.mem_cons, not_or]
              exact ⟨heq, b.1⟩
            · exact .inr ⟨a, .inr ⟨os', List.mem_cons_of_mem _ b, c⟩⟩

private theorem arrange_spec (os : List ArbitraryObu) : ∀ (seen d : List ArbitraryObu) (m : TimedObus), Arranged seen m →
    (arrangeArbitrary os d m).1 = d ++ (os.filter fun o => o.insertionTick = none) ∧ Arranged (seen ++ os) (arrangeArbitrary os d m).2 := by
  induction os with
  | nil => intro seen d m h; simpa [arrangeArbitrary] using h
  | cons o os ih =>
    intro seen d m h
    simp only [arrangeArbitrary]
    cases ht : o.insertionTick with
    | none =>
      simp only
      have ha : Arranged (seen ++ [o]) m := by
        refine ⟨h.sorted, fun t => ?_, fun x hx => ?_⟩
        · rw [h.keys, List.filterMap_append]; simp [ht]
        · rw [h.obus x hx, List.filter_append]; simp [ht]
      obtain ⟨k1, k2⟩ := ih _ (d ++ [o]) m ha
      refine ⟨?_, by simpa using k2⟩
      rw [k1]
      simp [ht]
    | some t =>
      simp only
      obtain ⟨a1, a2, a3⟩ := add_spec t o m h.sorted
      have ha : Arranged (seen ++ [o]) (TimedObus.add t o m) := by
        refine ⟨a1, fun k => ?_, fun x hx => ?_⟩
        · rw [a2, h.keys, List.filterMap_append]
          simp [ht, or_comm]
        · rw [List.filter_append]
          rcases a3 x hx with ⟨b1, b2⟩ | ⟨b1, b2⟩
          · rw [h.obus x b2]
            have : ([o].filter fun o => decide (o.insertionTick = some x.1)) = [] := by simp [ht, Ne.symm b1]
            rw [this, List.append_nil]
          · have h1 : ([o].filter fun o => decide (o.insertionTick = some x.1)) = [o] := by simp [ht, b1]
            rw [h1]
            rcases b2 with ⟨c1, c2⟩ | ⟨os', c1, c2⟩
            · rw [c2]
              have h2 : (seen.filter fun o => decide (o.insertionTick = some x.1)) = [] := by
                rw [List.filter_eq_nil_iff]
                intro y hy hy'
                apply c1
                rw [h.keys, List.mem_filterMap]
                exact ⟨y, hy, by rw [← b1]; simpa using hy'⟩
              rw [h2]; rfl
            · have h3 := h.obus _ c1
              simp only at h3
              rw [c2, h3, b1]
      obtain ⟨k1, k2⟩ := ih _ d _ ha
      refine ⟨?_, by simpa using k2⟩
      rw [k1]
      simp [ht]

theorem arranged_descriptors (s : EncoderSetup L P σ) :
    (arrangeArbitrary s.sequence.arbitrary [] []).1 = s.sequence.arbitrary.filter (fun o => o.insertionTick = none) := by
  have := (arrange_spec s.sequence.arbitrary [] [] [] ⟨List.Pairwise.nil, by simp, fun x hx => (by cases hx)⟩).1
  simpa using this

theorem arranged_timed (s : EncoderSetup L P σ) : TimedOk s [] (arrangeArbitrary s.sequence.arbitrary [] []).2 := by
  have := (arrange_spec s.sequence.arbitrary [] [] [] ⟨List.Pairwise.nil, by simp, fun x hx => (by cases hx)⟩).2
  simp only [List.nil_append] at this
  exact ⟨this.sorted, fun t => by rw [this.keys]; simp [EncoderSetup.ticks], this.obus⟩

theorem TimedOk.notEmpty {s : EncoderSetup L P σ} {done : List Int} {m : TimedObus} (h : TimedOk s done m) (x : Int × List ArbitraryObu) (hx : x ∈ m) :
    x.2 ≠ [] := by
  have := ((h.keys x.1).mp (List.mem_map_of_mem hx)).1
  unfold EncoderSetup.ticks at this
  obtain ⟨o, ho, ht⟩ := List.mem_filterMap.mp this
  rw [h.obus x hx]
  intro he
  unfold EncoderSetup.obusAt at he
  rw [List.filter_eq_nil_iff] at he
  exact he o ho (by simpa using ht)

/-- Taking the OBUs with the smallest tick. -/
theorem TimedOk.first {s : EncoderSetup L P σ} {done : List Int} {m : TimedObus} (h : TimedOk s done m) :
    (m = [] ∧ m.takeFirst = ([], []) ∧ ∀ t ∈ s.ticks, t ∈ done) ∨
    ∃ t, m.takeFirst.1 = s.obusAt t ∧ m.takeFirst.1 ≠ [] ∧ t ∈ s.ticks ∧ t ∉ done ∧ (∀ t' ∈ s.ticks, t' ∉ done → t ≤ t') ∧
      TimedOk s (done ++ [t]) m.takeFirst.2 := by
  cases m with
  | nil =>
    refine .inl ⟨rfl, rfl, fun t ht => ?_⟩
    have := (h.keys t).not.mp (by simp)
    refine Decidable.byContradiction fun hn => this ⟨ht, hn⟩
  | cons x m =>
    obtain ⟨t, os⟩ := x
    right
    obtain ⟨h1, h2⟩ := List.pairwise_cons.mp h.sorted
    have hk := (h.keys t).mp (by simp)
    refine ⟨t, h.obus (t, os) List.mem_cons_self, h.notEmpty (t, os) List.mem_cons_self, hk.1, hk.2, fun t' ht' hn => ?_, h2, fun t' => ?_,
      fun y hy => h.obus y (List.mem_cons_of_mem _ hy)⟩
    · have := (h.keys t').mpr ⟨ht', hn⟩
      rw [List.map_cons, List.mem_cons] at this
      rcases this with rfl | hm
      · exact Int.le_refl _
      · obtain ⟨y, hy, rfl⟩ := List.mem_map.mp hm
        exact Int.le_of_lt (h1 y hy)
    · simp only [TimedObus.takeFirst, List.mem_append, List.mem_singleton, not_or]
      constructor
      · intro hm
        have a := (h.keys t').mp (List.mem_cons_of_mem _ hm)
        obtain ⟨y, hy, rfl⟩ := List.mem_map.mp hm
        have := h1 y hy
        simp only at this
        exact ⟨a.1, a.2, by omega⟩
      · rintro ⟨a, b, c⟩
        have := (h.keys t').mpr ⟨a, b⟩
        rw [List.map_cons, List.mem_cons] at this
        exact this.resolve_left c

/-- Taking the OBUs with a given tick. -/
theorem TimedOk.at {s : EncoderSetup L P σ} {done : List Int} (t : Int) : ∀ {m : TimedObus}, TimedOk s done m →
    (m.takeAt t).1 = (if t ∈ s.ticks ∧ t ∉ done then s.obusAt t else []) ∧
    TimedOk s (done ++ (if t ∈ s.ticks ∧ t ∉ done then some t else none).toList) (m.takeAt t).2 := by
  -- for any map
  have key : ∀ m : TimedObus, m.Pairwise (fun a b => a.1 < b.1) →
      (t ∉ m.map Prod.fst → m.takeAt t = ([], m)) ∧
      (∀ os, (t, os) ∈ m → (m.takeAt t).1 = os ∧ (m.takeAt t).2.Pairwise (fun a b => a.1 < b.1) ∧
        ∀ y, y ∈ (m.takeAt t).2 ↔ y ∈ m ∧ y.1 ≠ t) := by
    intro m
    induction m with
    | nil => intro _; exact ⟨fun _ => rfl, fun os h => (by cases h)⟩
    | cons x m ih =>
      intro hs
      obtain ⟨k, ks⟩ := x
      obtain ⟨h1, h2⟩ := List.pairwise_cons.mp hs
      obtain ⟨i1, i2⟩ := ih h2
      refine ⟨fun hn => ?_, fun os ho => ?_⟩
      · simp only [List.map_cons, List.mem_cons, not_or] at hn
        simp only [TimedObus.takeAt]
        rw [if_neg (Ne.symm hn.1), i1 hn.2]
      · simp only [TimedObus.takeAt]
        by_cases hk : k = t
        · subst hk
          rw [if_pos rfl]
          have hne : ∀ y ∈ m, y.1 ≠ k := by
            intro y hy he
            have := h1 y hy
            simp only at this
            omega
          refine ⟨?_, h2, fun y => ⟨fun hy => ⟨List.mem_cons_of_mem _ hy, hne y hy⟩, fun hy => ?_⟩⟩
          · rcases List.mem_cons.mp ho with h | h
            · exact (Prod.mk.inj h).2.symm
            · exact absurd rfl (hne _ h)
          · rcases List.mem_cons.mp hy.1 with rfl | h
            · exact absurd rfl hy.2
            · exact h
        · rw [if_neg hk]
          have ho' : (t, os) ∈ m := by
            rcases List.mem_cons.mp ho with h | h
            · exact absurd (Prod.mk.inj h).1.symm hk
            · exact h
          obtain ⟨j1, j2, j3⟩ := i2 os ho'
          refine ⟨j1, List.pairwise_cons.mpr ⟨fun y hy => h1 y ((j3 y).mp hy).1, j2⟩, fun y => ?_⟩
          rw [List.mem_cons, List.mem_cons, j3]
          constructor
          · rintro (rfl | h)
            · exact ⟨.inl rfl, hk⟩
            · exact ⟨.inr h.1, h.2⟩
          · rintro ⟨rfl | h, h'⟩
            · exact .inl rfl
            · exact .inr ⟨h, h'⟩
  intro m h
  obtain ⟨k1, k2⟩ := key m h.sorted
  by_cases ht : t ∈ s.ticks ∧ t ∉ done
  · rw [if_pos ht, if_pos ht]
    obtain ⟨⟨t', os⟩, hx, rfl⟩ := List.mem_map.mp ((h.keys t).mpr ht)
    obtain ⟨a1, a2, a3⟩ := k2 os hx
    refine ⟨by rw [a1]; exact h.obus _ hx, a2, fun u => ?_, fun y hy => h.obus y ((a3 y).mp hy).1⟩
    simp only [Option.toList_some, List.mem_append, List.mem_singleton, not_or]
    constructor
    · intro hm
      obtain ⟨y, hy, rfl⟩ := List.mem_map.mp hm
      have b := (a3 y).mp hy
      have c := (h.keys y.1).mp (List.mem_map_of_mem b.1)
      exact ⟨c.1, c.2, b.2⟩
    · rintro ⟨b1, b2, b3⟩
      obtain ⟨y, hy, rfl⟩ := List.mem_map.mp ((h.keys u).mpr ⟨b1, b2⟩)
      exact List.mem_map_of_mem ((a3 y).mpr ⟨hy, b3⟩)
  · rw [if_neg ht, if_neg ht]
    rw [k1 (fun hm => ht ((h.keys t).mp hm))]
    exact ⟨rfl, by simpa using h⟩

/-! ### The frame generator -/

theorem calls_addDemixing (bs : List BlockWithData) : ∀ g : FrameGenerator L.State,
    FrameGenerator.calls L linear (bs.map .addDemixing) g = .ok (bs.map fun _ => [], IamfEncoder.addDemixingBlocks bs g) := by
  induction bs with
  | nil => intro g; rfl
  | cons b bs ih =>
    intro g
    simp only [List.map_cons, FrameGenerator.calls, FrameGenerator.call, bind, Except.bind, ih]
    rfl

theorem calls_addCached (l : List ((UInt32 × Label) × Samples)) : ∀ g g' : FrameGenerator L.State, IamfEncoder.addCached linear l g = .ok g' →
    FrameGenerator.calls L linear (l.map fun x => .add x.1.1 x.1.2 x.2) g = .ok (l.map fun _ => [], g') := by
  induction l with
  | nil => intro g g' h; simp only [IamfEncoder.addCached, Except.ok.injEq] at h; subst h; rfl
  | cons x l ih =>
    intro g g' h
    obtain ⟨⟨i, lb⟩, s⟩ := x
    simp only [IamfEncoder.addCached, bind, except_ok] at h
    obtain ⟨g1, h1, h2⟩ := h
    simp only [List.map_cons, FrameGenerator.calls, FrameGenerator.call, bind, Except.bind, h1, ih _ _ h2]

/-- What the frame generator does in a call of `OutputTemporalUnit`. -/
theorem output_calls {g gi go : FrameGenerator L.State} {handed : List BlockWithData} {fed : List ((UInt32 × Label) × Samples)} {finalized : Bool}
    {fs : List (GenFrame × List UInt8)} (h1 : IamfEncoder.addCached linear fed (IamfEncoder.addDemixingBlocks handed g) = .ok gi)
    (h2 : (if finalized then gi.finalize else gi).outputFrames L linear = .ok (fs, go)) :
    ∃ fss, FrameGenerator.calls L linear (handed.map .addDemixing ++ fed.map (fun x => .add x.1.1 x.1.2 x.2) ++ (if finalized then [.finalize] else []) ++ [.output]) g =
      .ok (fss, go) ∧ fss.filter (fun x => !x.isEmpty) = [fs].filter (fun x => !x.isEmpty) := by
  have hnil : ∀ {α : Type} (l : List α), ((l.map fun _ => ([] : List (GenFrame × List UInt8))).filter fun x => !x.isEmpty) = [] := by
    intro α l
    rw [List.filter_eq_nil_iff]
    intro x hx
    obtain ⟨y, -, rfl⟩ := List.mem_map.mp hx
    simp
  have hout : ∀ g' : FrameGenerator L.State, g'.outputFrames L linear = .ok (fs, go) → FrameGenerator.calls L linear [.output] g' = .ok ([fs], go) := by
    intro g' h
    simp only [FrameGenerator.calls, FrameGenerator.call, bind, Except.bind, h]
  rw [calls_append, calls_append, calls_append, calls_addDemixing]
  simp only [Except.bind]
  rw [calls_addCached _ _ _ h1]
  simp only
  cases finalized with
  | true =>
    simp only [if_true] at h2 ⊢
    simp only [FrameGenerator.calls, FrameGenerator.call, bind, Except.bind, h2]
    refine ⟨_, rfl, ?_⟩
    simp only [List.filter_append, hnil, List.nil_append]
    rfl
  | false =>
    simp only [Bool.false_eq_true, if_false] at h2 ⊢
    simp only [FrameGenerator.calls, FrameGenerator.call, bind, Except.bind, h2]
    refine ⟨_, rfl, ?_⟩
    simp only [List.filter_append, hnil, List.nil_append, List.append_nil]

theorem withTiming_retimed {S : Type} (g : FrameGenerator S) (b : List (UInt32 × TimingData)) (t : TimingModule) (h : t.frames = g.timing.frames) :
    withTiming (g.retimed b) t = g.retimed t.blocks := by
  unfold withTiming FrameGenerator.retimed
  rw [← h]

theorem calls_of_retimed {cs : List GeneratorCall} {g go : FrameGenerator L.State} {b : List (UInt32 × TimingData)} {fss : List (List (GenFrame × List UInt8))}
    (h : FrameGenerator.calls L linear cs (g.retimed b) = .ok (fss, go)) :
    ∃ g', FrameGenerator.calls L linear cs g = .ok (fss, g') ∧ go = g'.retimed b := by
  rw [calls_retimed] at h
  unfold retime at h
  cases hc : FrameGenerator.calls L linear cs g with
  | error e => rw [hc] at h; simp [Except.map] at h
  | ok y =>
    rw [hc] at h
    simp only [Except.map, Except.ok.injEq, Prod.mk.injEq] at h
    exact ⟨y.2, by rw [← h.1], h.2.symm⟩

/-! ### The streaming sequencer -/

/-- It holds the bytes of the descriptors. -/
structure Streams (g : LebGen) (delimiters : Bool) (q : Sequencer StreamingOutput) (d : SequenceObus) : Prop where
  lebs : q.lebs = g
  delimited : q.delimiters = delimiters
  notDelayed : q.delay = false
  statistics : ∃ s, q.statistics = some s ∧ s.bytes = q.sink.descriptors
  bytes : DescriptorBytes g d q.sink.descriptors

theorem Streams.initial {g : LebGen} {dl : Bool} {d : SequenceObus} {q : Sequencer StreamingOutput}
    (h : (streamingSequencer g dl).pushDescriptors streamingSink d = (.ok (), q)) : Streams g dl q d := by
  unfold Sequencer.pushDescriptors streamingSequencer Sequencer.create Sequencer.pushDescriptorsBody at h
  simp only at h
  cases hw : serialize g (wSequenceObus d) with
  | error e => rw [hw] at h; simp [Sequencer.abortOnFailure] at h
  | ok w =>
    rw [hw] at h
    simp only at h
    cases hst : descriptorStatistics (d.codecs.map fun c => c.2.body) w.bytes with
    | error e => rw [hst] at h; simp [Sequencer.abortOnFailure] at h
    | ok s =>
      rw [hst] at h
      simp only [Bool.false_eq_true, if_false, streamingSink, Sequencer.onSink, Sequencer.abortOnFailure, Prod.mk.injEq, true_and] at h
      have hb : s.bytes = w.bytes := by
        have := streamed_descriptors (dl := dl) hw (by
          simp only [Sequencer.call, Sequencer.pushDescriptors, streamingSequencer, Sequencer.create, Sequencer.pushDescriptorsBody, hw, hst, Bool.false_eq_true,
            if_false, streamingSink, Sequencer.onSink, Sequencer.abortOnFailure])
        simpa only [Sequencer.call, Sequencer.pushDescriptors, streamingSequencer, Sequencer.create, Sequencer.pushDescriptorsBody, hw, hst, Bool.false_eq_true,
            if_false, streamingSink, Sequencer.onSink, Sequencer.abortOnFailure] using this
      subst h
      exact ⟨rfl, rfl, rfl, ⟨s, rfl, rfl⟩, by simp only; rw [hb]; exact sequence_bytes hw⟩

theorem Streams.unit {g : LebGen} {dl : Bool} {d : SequenceObus} {q q' : Sequencer StreamingOutput} {v : TemporalUnitView} (hq : Streams g dl q d)
    (h : q.pushUnit streamingSink v = (.ok (), q')) : Streams g dl q' d ∧ UnitBytes g dl v q'.sink.previousUnit := by
  have hbody : q.pushUnitBody streamingSink v = (.ok (), q') := by
    unfold Sequencer.pushUnit Sequencer.abortOnFailure at h
    obtain ⟨⟨r, q2⟩, hr⟩ : ∃ x, q.pushUnitBody streamingSink v = x := ⟨_, rfl⟩
    cases hp : q.phase <;> rw [hp] at h <;> simp only [hr] at h ⊢
    · simp at h
    · cases r <;> simp_all
    · cases r <;> simp_all
    · simp at h
  unfold Sequencer.pushUnitBody at hbody
  rw [hq.lebs, hq.delimited] at hbody
  cases hw : serialize g (wTemporalUnit dl v) with
  | error e => rw [hw] at hbody; simp at hbody
  | ok w =>
    rw [hw] at hbody
    simp only at hbody
    have hub := (serialize_unit.1 w hw).1
    split at hbody
    · simp at hbody
    · obtain ⟨s, hs, hsb⟩ := hq.statistics
      rw [hs] at hbody
      simp only at hbody
      cases hf : s.firstUntrimmed with
      | none =>
        rw [hf] at hbody
        simp only [Sequencer.handleInitial, hq.notDelayed, Bool.not_false, if_true, streamingSink, Sequencer.onSink, Prod.mk.injEq, true_and] at hbody
        subst hbody
        refine ⟨⟨hq.lebs, hq.delimited, by first | rfl | exact hq.notDelayed, ⟨_, rfl, ?_⟩, hq.bytes⟩, hub⟩
        simp only
        split <;> exact hsb
      | some t =>
        rw [hf] at hbody
        simp only at hbody
        split at hbody
        · simp at hbody
        · simp only [streamingSink, Sequencer.onSink, Prod.mk.injEq, true_and] at hbody
          subst hbody
          exact ⟨⟨hq.lebs, hq.delimited, hq.notDelayed, ⟨s, hs, hsb⟩, hq.bytes⟩, hub⟩

theorem Streams.closed {g : LebGen} {dl : Bool} {d d' : SequenceObus} {q q' : Sequencer StreamingOutput} (hq : Streams g dl q d)
    (h : q.updateAndClose streamingSink d' = (.ok (), q')) : DescriptorBytes g d' q'.sink.descriptors := by
  have hbody : q.updateBody streamingSink d' = (.ok (), q') ∧ (q.phase = .descriptorsCalled ∨ q.phase = .descriptorsPushed) := by
    unfold Sequencer.updateAndClose Sequencer.abortOnFailure at h
    obtain ⟨⟨r, q2⟩, hr⟩ : ∃ x, q.updateBody streamingSink d' = x := ⟨_, rfl⟩
    cases hp : q.phase <;> rw [hp] at h <;> simp only [hr] at h ⊢
    · simp at h
    · cases r <;> simp_all
    · cases r <;> simp_all
    · simp at h
  obtain ⟨hbody, hph⟩ := hbody
  unfold Sequencer.updateBody at hbody
  rw [hq.lebs] at hbody
  cases hw : serialize g (wSequenceObus d') with
  | error e => rw [hw] at hbody; simp at hbody
  | ok w =>
    rw [hw] at hbody
    simp only at hbody
    obtain ⟨s, hs, hsb⟩ := hq.statistics
    rw [hs] at hbody
    simp only at hbody
    -- closing
    have hclose : ∀ q1 : Sequencer StreamingOutput, (∃ s', q1.statistics = some s' ∧ s'.bytes = q1.sink.descriptors) ∨ q1.phase = .descriptorsPushed →
        q1.close streamingSink = (.ok (), q') → q'.sink.descriptors = q1.sink.descriptors := by
      intro q1 a5 hc
      unfold Sequencer.close at hc
      cases hp : q1.phase with
      | initialized =>
        rw [hp] at hc
        simp only [Sequencer.closeNow, streamingSink, Prod.mk.injEq, true_and] at hc
        subst hc
        rfl
      | descriptorsCalled =>
        obtain ⟨s', a4, a5⟩ := a5.resolve_right (by rw [hp]; decide)
        rw [hp, a4] at hc
        simp only [Sequencer.closeNow, streamingSink, Sequencer.onSink, Prod.mk.injEq, true_and] at hc
        subst hc
        exact a5
      | descriptorsPushed =>
        rw [hp] at hc
        simp only [Sequencer.closeNow, streamingSink, Prod.mk.injEq, true_and] at hc
        subst hc
        rfl
      | closed => rw [hp] at hc; simp at hc
    split at hbody
    · rename_i he
      rw [hclose q (.inl ⟨s, hs, hsb⟩) hbody, ← hsb, ← he]
      exact sequence_bytes hw
    · cases hst : descriptorStatistics (d'.codecs.map fun c => c.2.body) w.bytes with
      | error e => rw [hst] at hbody; simp at hbody
      | ok new =>
        rw [hst] at hbody
        simp only at hbody
        split at hbody
        · simp at hbody
        · split at hbody
          · simp at hbody
          · simp only [streamingSink, Sequencer.onSink] at hbody
            have := hclose _ (.inr rfl) hbody
            rw [this]
            exact sequence_bytes hw

end Iamf.Props
