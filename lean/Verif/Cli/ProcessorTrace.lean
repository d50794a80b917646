import Verif.Cli.ProcessorProofs
/-
  `ProcessTemporalUnit` as a sequence of steps on the data that is left.
-/
namespace Iamf

/-! ### States between OBUs -/

/-- Nothing is waiting for the next temporal unit, and the current one has a timestamp only if it has data. -/
structure ProcState.Good (st : ProcState) : Prop where
  next : st.next = .empty
  nonempty : st.current.timestamp.isSome → ¬ (st.current.frames.isEmpty && st.current.blocks.isEmpty)

/-! ### Steps -/

/-- Collecting what an OBU contributes: whether a temporal unit ends there, the unit if it has data, and the state. -/
def advanceUnit (out : Option ProcOut) (st : ProcState) : Bool × Option OutputUnit × ProcState :=
  let (st, delimiterEnd) := collectOut out st
  if st.next.timestamp.isSome || delimiterEnd then
    if st.current.frames.isEmpty && st.current.blocks.isEmpty then (true, none, st)
    else (true, some ⟨st.current.frames, st.current.blocks, st.current.timestamp.getD 0⟩,
      { st with current := st.next, next := .empty })
  else (false, none, st)

/-- One OBU that is consumed: see `advanceUnit`, and what is left. -/
def step (c : ProcContext) (st : ProcState) (r : Bits) : Option ((Bool × Option OutputUnit × ProcState) × Bits) :=
  match obuAt c st r with
  | (.ok (true, out, st1), r1) => some (advanceUnit out st1, r1)
  | _ => none

/-- `n` OBUs: the units that end, the state, and what is left. -/
def steps (c : ProcContext) : Nat → ProcState → Bits → Option (List OutputUnit × ProcState × Bits)
  | 0, st, r => some ([], st, r)
  | n + 1, st, r => match step c st r with
    | none => none
    | some ((_, u, st1), r1) => match steps c n st1 r1 with
      | none => none
      | some (us, st2, r2) => some (u.toList ++ us, st2, r2)

theorem steps_add (c : ProcContext) (m n : Nat) (st : ProcState) (r : Bits) :
    steps c (m + n) st r = match steps c m st r with
      | none => none
      | some (us, st1, r1) => match steps c n st1 r1 with
        | none => none
        | some (vs, st2, r2) => some (us ++ vs, st2, r2) := by
  induction m generalizing st r with
  | zero =>
    simp only [Nat.zero_add, steps, List.nil_append]
    split <;> simp_all
  | succ m ih =>
    rw [show m + 1 + n = (m + n) + 1 by omega]
    simp only [steps]
    cases hs : step c st r with
    | none => rfl
    | some x =>
      obtain ⟨⟨b, u, st1⟩, r1⟩ := x
      simp only [ih]
      cases hm : steps c m st1 r1 with
      | none => rfl
      | some y =>
        obtain ⟨us, st2, r2⟩ := y
        simp only
        cases hn : steps c n st2 r2 with
        | none => rfl
        | some z => simp

/-- Nothing more can be done with what is left. -/
def Stuck (c : ProcContext) (st : ProcState) (r : Bits) : Prop := obuAt c st r = (.ok (false, none, st), r)

theorem stuck_nil (c : ProcContext) (st : ProcState) : Stuck c st [] := by
  have : (ObuHeader.fillMetadata.runA ⟨[], 0, true⟩).1 = .error .resourceExhausted := by decide
  unfold Stuck
  rw [obuAt_eq, this]
  rfl

theorem Stuck.step {c : ProcContext} {st : ProcState} {r : Bits} (h : Stuck c st r) : step c st r = none := by
  unfold Iamf.step; rw [h]

/-- What the end of the stream makes of the current unit (obu_processor.cc:619-640). -/
def flushUnit (st : ProcState) : Option OutputUnit × ProcState :=
  if st.current.frames.isEmpty && st.current.blocks.isEmpty then (none, st)
  else (some ⟨st.current.frames, st.current.blocks, st.current.timestamp.getD 0⟩, { st with current := st.next, next := .empty })

/-- A call of `ProcessTemporalUnit` that returns OK: it takes `n` steps on what is left, of which only the last may end a unit;
if none of them does, nothing more can be done with what is left. -/
theorem loop_steps {c : ProcContext} {eos : Bool} {fuel : Nat} {st st' : ProcState} {s s' : RS} {u : Option OutputUnit} {cont : Bool}
    (hs : s.pos ≤ s.src.length) (hb : s.rest.length < 8 * 4294967295)
    (h : (processUnitLoop c eos fuel st).runA s = (.ok (.ok (u, cont), st'), s')) (hn : st.next.timestamp = none) :
    ∃ n us st1, (∀ F, steps c n st (s.rest ++ F) = some (us, st1, s'.rest ++ F)) ∧
      ((cont = true ∧ us = u.toList ∧ st' = st1 ∧ s'.rest.length + 8 ≤ s.rest.length) ∨
       (cont = false ∧ us = [] ∧ Stuck c st1 s'.rest ∧ s'.rest.length ≤ s.rest.length ∧
        (u, st') = if eos then flushUnit st1 else (none, st1))) := by
  induction fuel generalizing st s with
  | zero => simp [processUnitLoop, Rd.runA] at h
  | succ fuel ih =>
    simp only [processUnitLoop, Rd.runA] at h
    have hobu := obu_runA c st s hs
    have hin := Rd.runA_inside (processObu c st) s hs
    match hx : (processObu c st).runA s with
    | (.error e, s1) =>
      rw [hx] at h
      simp only at h
      split at h <;> simp [Rd.runA] at h
    | (.ok (cont1, out, st1), s1) =>
      rw [hx] at h hobu hin
      simp only at h hobu hin
      rcases obuAt_local hb hobu.symm with ⟨rfl, ⟨w, hw, hr⟩, hext⟩ | ⟨rfl, rfl, rfl, hr⟩
      · have hlen := congrArg List.length hr
        rw [List.length_append] at hlen
        have hstep : ∀ F, step c st (s.rest ++ F) = some (advanceUnit out st1, s1.rest ++ F) := by
          intro F; unfold step; rw [hext F]
        by_cases hbreak : ((collectOut out st1).1.next.timestamp.isSome || (collectOut out st1).2) = true
        · rw [if_pos (by simp only [Bool.not_true, Bool.false_and, Bool.false_or]; exact hbreak)] at h
          by_cases hem : ((collectOut out st1).1.current.frames.isEmpty && (collectOut out st1).1.current.blocks.isEmpty) = true
          · rw [if_pos hem] at h
            simp only [Rd.runA, Prod.mk.injEq, Except.ok.injEq] at h
            obtain ⟨⟨⟨rfl, rfl⟩, rfl⟩, rfl⟩ := h
            refine ⟨1, _, _, fun F => ?_, .inl ⟨rfl, rfl, rfl, by omega⟩⟩
            simp only [steps, hstep F, advanceUnit, hbreak, hem, ↓reduceIte]
            rfl
          · rw [if_neg hem] at h
            simp only [Rd.runA, Prod.mk.injEq, Except.ok.injEq] at h
            obtain ⟨⟨⟨rfl, rfl⟩, rfl⟩, rfl⟩ := h
            refine ⟨1, _, _, fun F => ?_, .inl ⟨rfl, rfl, rfl, by omega⟩⟩
            simp only [steps, hstep F, advanceUnit, hbreak, hem, ↓reduceIte]
            rfl
        · rw [if_neg (by simp only [Bool.not_true, Bool.false_and, Bool.false_or]; exact hbreak)] at h
          simp only [↓reduceIte] at h
          have hn2 : (collectOut out st1).1.next.timestamp = none := by
            cases ht : (collectOut out st1).1.next.timestamp with
            | none => rfl
            | some t => rw [ht] at hbreak; simp at hbreak
          obtain ⟨n, us, st3, h1, h2⟩ := ih hin.1 (by omega) h hn2
          have hadv : advanceUnit out st1 = (false, none, (collectOut out st1).1) := by
            simp only [advanceUnit, hbreak, Bool.false_eq_true, ↓reduceIte]
          refine ⟨n + 1, us, st3, fun F => ?_, ?_⟩
          · simp only [steps, hstep F, hadv, h1 F]
            rfl
          · rcases h2 with ⟨a, b, c, d⟩ | ⟨a, b, c, d, e⟩
            · exact .inl ⟨a, b, c, by omega⟩
            · exact .inr ⟨a, b, c, by omega, e⟩
      · have hst : Stuck c st1 s1.rest := by rw [hr]; unfold Stuck; rw [← hobu, hr]
        have hc : collectOut none st1 = (st1, false) := rfl
        rw [hc] at h
        simp only [hn, Option.isSome_none, Bool.or_false, Bool.not_false, Bool.true_and, Bool.false_eq_true, ↓reduceIte] at h
        have hfin : s' = s1 ∧ cont = false ∧ (u, st') = if eos then flushUnit st1 else (none, st1) := by
          cases eos with
          | false =>
            simp only [Bool.false_eq_true, ↓reduceIte, Rd.runA, Prod.mk.injEq, Except.ok.injEq] at h
            obtain ⟨⟨⟨rfl, rfl⟩, rfl⟩, rfl⟩ := h
            exact ⟨rfl, rfl, rfl⟩
          | true =>
            simp only [↓reduceIte] at h
            by_cases hem : (st1.current.frames.isEmpty && st1.current.blocks.isEmpty) = true
            · rw [if_pos hem] at h
              simp only [Rd.runA, Prod.mk.injEq, Except.ok.injEq] at h
              obtain ⟨⟨⟨rfl, rfl⟩, rfl⟩, rfl⟩ := h
              exact ⟨rfl, rfl, by simp only [flushUnit, hem, ↓reduceIte]⟩
            · rw [if_neg hem] at h
              simp only [Rd.runA, Prod.mk.injEq, Except.ok.injEq] at h
              obtain ⟨⟨⟨rfl, rfl⟩, rfl⟩, rfl⟩ := h
              exact ⟨rfl, rfl, by simp only [flushUnit, hem, Bool.false_eq_true, ↓reduceIte]⟩
        obtain ⟨rfl, rfl, h3⟩ := hfin
        exact ⟨0, [], st1, fun F => by rw [hr]; rfl, .inr ⟨rfl, rfl, hst, by rw [hr], h3⟩⟩

/-! ### Invariants of the steps -/

theorem Stuck.any {c : ProcContext} {st : ProcState} {r : Bits} (hb : r.length < 8 * 4294967295) (h : Stuck c st r) (st2 : ProcState) :
    Stuck c st2 r := (obuAt_units hb h).2.2 rfl st2

theorem Good.nextTimestamp {st : ProcState} (h : st.Good) : st.next.timestamp = none := by rw [h.next]; rfl

private theorem addData_good {t : Int} {add : UnitData → UnitData} {st : ProcState} (h : st.Good)
    (hts : ∀ u, (add u).timestamp = u.timestamp) (hne : ∀ u, ¬ ((add u).frames.isEmpty && (add u).blocks.isEmpty) = true) :
    ((addData t add st).next.timestamp = none → (addData t add st).Good) ∧
    ((addData t add st).next.timestamp.isSome →
      ¬ ((addData t add st).current.frames.isEmpty && (addData t add st).current.blocks.isEmpty) = true ∧
      ({ addData t add st with current := (addData t add st).next, next := .empty } : ProcState).Good) := by
  unfold addData
  cases ht : st.current.timestamp with
  | none =>
    simp only [Option.isNone_none, ↓reduceIte]
    refine ⟨fun _ => ⟨h.next, fun _ => hne _⟩, fun hh => ?_⟩
    rw [h.next] at hh
    simp [UnitData.empty] at hh
  | some t' =>
    simp only [Option.isNone_some, Bool.false_eq_true, ↓reduceIte, ht, Option.some.injEq]
    by_cases he : t' = t
    · simp only [he, ↓reduceIte]
      refine ⟨fun _ => ⟨h.next, fun _ => hne _⟩, fun hh => ?_⟩
      rw [h.next] at hh
      simp [UnitData.empty] at hh
    · simp only [he, ↓reduceIte]
      refine ⟨fun hh => by simp at hh, fun _ => ⟨h.nonempty (by rw [ht]; rfl), ⟨rfl, fun _ => hne _⟩⟩⟩

theorem Good.advance {out : Option ProcOut} {st : ProcState} (h : st.Good) : (advanceUnit out st).2.2.Good := by
  unfold advanceUnit collectOut
  match out with
  | none =>
    simp only [Good.nextTimestamp h, Option.isSome_none, Bool.or_false, Bool.false_eq_true, ↓reduceIte]
    exact h
  | some (.frame f) =>
    obtain ⟨h1, h2⟩ := addData_good (t := f.frame.start) (add := fun u => { u with frames := u.frames ++ [f] }) h
      (fun _ => rfl) (fun u => by simp)
    simp only [Bool.or_false]
    split
    next hn =>
      obtain ⟨h3, h4⟩ := h2 hn
      rw [if_neg h3]; exact h4
    next hn => exact h1 (by simpa using hn)
  | some (.block b) =>
    obtain ⟨h1, h2⟩ := addData_good (t := b.start) (add := fun u => { u with blocks := u.blocks ++ [b] }) h
      (fun _ => rfl) (fun u => by simp)
    simp only [Bool.or_false]
    split
    next hn =>
      obtain ⟨h3, h4⟩ := h2 hn
      rw [if_neg h3]; exact h4
    next hn => exact h1 (by simpa using hn)
  | some .delimiter =>
    simp only [Good.nextTimestamp h, Option.isSome_none, Bool.false_or]
    split
    · split
      · exact ⟨h.next, h.nonempty⟩
      · exact ⟨rfl, by rw [h.next]; simp [UnitData.empty]⟩
    · exact ⟨h.next, h.nonempty⟩

theorem Good.flush {st : ProcState} (h : st.Good) : (flushUnit st).2.Good := by
  unfold flushUnit
  split
  · exact h
  · exact ⟨rfl, by rw [h.next]; simp [UnitData.empty]⟩

/-- What the end of the stream gives, it gives once. -/
theorem Good.flush_twice {st : ProcState} (h : st.Good) : flushUnit (flushUnit st).2 = (none, (flushUnit st).2) := by
  unfold flushUnit
  by_cases he : (st.current.frames.isEmpty && st.current.blocks.isEmpty) = true
  · simp only [he, ↓reduceIte]
  · simp only [he, Bool.false_eq_true, ↓reduceIte, h.next]
    simp [UnitData.empty]

theorem step_good {c : ProcContext} {st : ProcState} {r : Bits} {x : Bool × Option OutputUnit × ProcState} {r1 : Bits}
    (h : st.Good) (hb : r.length < 8 * 4294967295) (hs : step c st r = some (x, r1)) :
    x.2.2.Good ∧ r1.length + 8 ≤ r.length := by
  unfold step at hs
  split at hs
  next out st1 r2 ho =>
    simp only [Option.some.injEq, Prod.mk.injEq] at hs
    obtain ⟨rfl, rfl⟩ := hs
    obtain ⟨u1, u2, -⟩ := obuAt_units hb ho
    refine ⟨Good.advance ⟨u2.trans h.next, ?_⟩, ?_⟩
    · rw [u1]; exact h.nonempty
    · rcases obuAt_local hb ho with ⟨-, ⟨w, hw, hr⟩, -⟩ | ⟨hc, -⟩
      · have := congrArg List.length hr
        rw [List.length_append] at this
        omega
      · simp at hc
  next => simp at hs

theorem steps_good {c : ProcContext} {n : Nat} {st st' : ProcState} {r r' : Bits} {us : List OutputUnit}
    (h : st.Good) (hb : r.length < 8 * 4294967295) (hs : steps c n st r = some (us, st', r')) :
    st'.Good ∧ r'.length + 8 * n ≤ r.length := by
  induction n generalizing st r us with
  | zero =>
    simp only [steps, Option.some.injEq, Prod.mk.injEq] at hs
    obtain ⟨-, rfl, rfl⟩ := hs
    exact ⟨h, Nat.le_refl _⟩
  | succ n ih =>
    simp only [steps] at hs
    match hx : step c st r with
    | none => rw [hx] at hs; simp at hs
    | some ((b, u, st1), r1) =>
      rw [hx] at hs
      simp only at hs
      obtain ⟨g1, g2⟩ := step_good h hb hx
      match hy : steps c n st1 r1 with
      | none => rw [hy] at hs; simp at hs
      | some (vs, st2, r2) =>
        rw [hy] at hs
        simp only [Option.some.injEq, Prod.mk.injEq] at hs
        obtain ⟨-, rfl, rfl⟩ := hs
        obtain ⟨k1, k2⟩ := ih g1 (by omega) hy
        exact ⟨k1, by omega⟩

/-- Steps up to where nothing more can be done: all others are the first of them. -/
theorem steps_stuck {c : ProcContext} {m n : Nat} {st st1 st2 : ProcState} {r r1 r2 : Bits} {us vs : List OutputUnit}
    (hn : steps c n st r = some (us, st1, r1)) (hs : Stuck c st1 r1) (hm : steps c m st r = some (vs, st2, r2)) :
    m ≤ n ∧ ∃ ws, us = vs ++ ws ∧ steps c (n - m) st2 r2 = some (ws, st1, r1) := by
  have hle : m ≤ n := by
    rcases Nat.lt_or_ge n m with hlt | hle
    · exfalso
      obtain ⟨k, rfl⟩ : ∃ k, m = n + (k + 1) := ⟨m - n - 1, by omega⟩
      rw [steps_add, hn] at hm
      simp only [steps, hs.step] at hm
      simp at hm
    · exact hle
  refine ⟨hle, ?_⟩
  obtain ⟨k, rfl⟩ : ∃ k, n = m + k := ⟨n - m, by omega⟩
  rw [steps_add, hm] at hn
  simp only at hn
  rw [Nat.add_sub_cancel_left]
  match hx : steps c k st2 r2 with
  | none => rw [hx] at hn; simp at hn
  | some (ws, st3, r3) =>
    rw [hx] at hn
    simp only [Option.some.injEq, Prod.mk.injEq] at hn
    obtain ⟨rfl, rfl, rfl⟩ := hn
    exact ⟨ws, rfl, rfl⟩

/-! ### Success -/

/-- A call of `ProcessTemporalUnit` returns OK if all that is left can be processed, be it there or not. -/
theorem loop_forward {c : ProcContext} {eos : Bool} {fuel n : Nat} {st st1 : ProcState} {s : RS} {Q r1 : Bits} {us : List OutputUnit}
    (hs : s.pos ≤ s.src.length) (hb : (s.rest ++ Q).length < 8 * 4294967295) (hfuel : s.rest.length / 8 < fuel)
    (h1 : steps c n st (s.rest ++ Q) = some (us, st1, r1)) (h2 : Stuck c st1 r1) :
    ∃ x st' s', (processUnitLoop c eos fuel st).runA s = (.ok (.ok x, st'), s') := by
  induction fuel generalizing st s n us with
  | zero => omega
  | succ fuel ih =>
    have hbs : s.rest.length < 8 * 4294967295 := by rw [List.length_append] at hb; omega
    have hok : ∃ y r', obuAt c st (s.rest ++ Q) = (.ok y, r') := by
      cases n with
      | zero =>
        simp only [steps, Option.some.injEq, Prod.mk.injEq] at h1
        obtain ⟨-, rfl, rfl⟩ := h1
        exact ⟨_, _, h2⟩
      | succ n =>
        simp only [steps] at h1
        match hx : step c st (s.rest ++ Q) with
        | none => rw [hx] at h1; simp at h1
        | some _ =>
          unfold step at hx
          split at hx
          next ho => exact ⟨_, _, ho⟩
          next => simp at hx
    obtain ⟨y, r', hok⟩ := hok
    obtain ⟨⟨cont, out, st2⟩, r2, hz⟩ := obuAt_before hb hok
    have hobu := obu_runA c st s hs
    have hin := Rd.runA_inside (processObu c st) s hs
    simp only [processUnitLoop, Rd.runA]
    match hx : (processObu c st).runA s with
    | (.error e, s1) =>
      rw [hx, hz] at hobu
      simp at hobu
    | (.ok (cont1, out1, st3), s1) =>
      rw [hx, hz] at hobu
      rw [hx] at hin
      simp only [Prod.mk.injEq, Except.ok.injEq] at hobu hin
      obtain ⟨⟨rfl, rfl, rfl⟩, hr2⟩ := hobu
      simp only
      have hc : ∀ (b : Bool) (x : Rd (Except Err (Option OutputUnit × Bool) × ProcState)) {cont : Bool} {u w : ProcState},
          ∃ x st' s', (if b then .ret (.ok (none, cont), u) else
            .ret (.ok (some ⟨u.current.frames, u.current.blocks, u.current.timestamp.getD 0⟩, cont), w) :
              Rd (Except Err (Option OutputUnit × Bool) × ProcState)).runA s1 = (.ok (.ok x, st'), s') := by
        intro b x cont u w
        cases b
        · exact ⟨_, _, _, rfl⟩
        · exact ⟨_, _, _, rfl⟩
      split
      · exact hc _ (.fail .diverge)
      · split
        next hbreak hcont =>
          subst hcont
          rcases obuAt_local hbs hz with ⟨-, ⟨w, hw, hr⟩, hext⟩ | ⟨hf, -⟩
          · have hlen := congrArg List.length hr
            rw [List.length_append] at hlen
            rw [hext Q] at hok
            simp only [Bool.not_true, Bool.false_and, Bool.false_or] at hbreak
            cases n with
            | zero =>
              simp only [steps, Option.some.injEq, Prod.mk.injEq] at h1
              obtain ⟨-, rfl, rfl⟩ := h1
              unfold Stuck at h2
              rw [hext Q] at h2
              simp at h2
            | succ n =>
              simp only [steps, step, hext Q] at h1
              have hadv : advanceUnit out1 st3 = (false, none, (collectOut out1 st3).1) := by
                simp only [advanceUnit]
                rw [if_neg hbreak]
              rw [hadv] at h1
              simp only at h1
              match hy : steps c n (collectOut out1 st3).1 (r2 ++ Q) with
              | none => rw [hy] at h1; simp at h1
              | some (vs, st4, r4) =>
                rw [hy] at h1
                simp only [Option.some.injEq, Prod.mk.injEq] at h1
                obtain ⟨-, rfl, rfl⟩ := h1
                rw [← hr2] at hy hlen
                exact ih hin.1 (by rw [List.length_append] at hb ⊢; omega) (by omega) hy
          · simp at hf
        · exact ⟨_, _, _, rfl⟩

end Iamf
