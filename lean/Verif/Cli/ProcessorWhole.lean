import Verif.Cli.ProcessorTrace
/-
  `ProcessTemporalUnit` on data that can be processed to its end.
-/
namespace Iamf

/-- In `n` steps, no unit ends without data. -/
def Solid (c : ProcContext) : Nat → ProcState → Bits → Prop
  | 0, _, _ => True
  | n + 1, st, r => match step c st r with
    | none => False
    | some ((b, u, st1), r1) => (b = true → u.isSome = true) ∧ Solid c n st1 r1

theorem solid_add (c : ProcContext) (m n : Nat) (st st1 : ProcState) (r r1 : Bits) (us : List OutputUnit)
    (h : steps c m st r = some (us, st1, r1)) : Solid c (m + n) st r ↔ Solid c m st r ∧ Solid c n st1 r1 := by
  induction m generalizing st r us with
  | zero =>
    simp only [steps, Option.some.injEq, Prod.mk.injEq] at h
    obtain ⟨-, rfl, rfl⟩ := h
    simp [Solid]
  | succ m ih =>
    rw [show m + 1 + n = (m + n) + 1 by omega]
    simp only [steps] at h
    simp only [Solid]
    match hs : step c st r with
    | none => rw [hs] at h; simp at h
    | some ((b, u, st2), r2) =>
      rw [hs] at h
      simp only at h ⊢
      match hm : steps c m st2 r2 with
      | none => rw [hm] at h; simp at h
      | some (vs, st3, r3) =>
        rw [hm] at h
        simp only [Option.some.injEq, Prod.mk.injEq] at h
        obtain ⟨-, rfl, rfl⟩ := h
        rw [ih st2 r2 vs hm, and_assoc]

/-- A call of `ProcessTemporalUnit` stops before the end of the data only with a unit. -/
theorem loop_solid {c : ProcContext} {eos : Bool} {fuel n : Nat} {st st1 st' : ProcState} {s s' : RS} {us : List OutputUnit}
    (hs : s.pos ≤ s.src.length) (hb : s.rest.length < 8 * 4294967295)
    (h1 : steps c n st s.rest = some (us, st1, [])) (h2 : Solid c n st s.rest)
    (h : (processUnitLoop c eos fuel st).runA s = (.ok (.ok (none, true), st'), s')) : False := by
  induction fuel generalizing st s n us with
  | zero => simp [processUnitLoop, Rd.runA] at h
  | succ fuel ih =>
    simp only [processUnitLoop, Rd.runA] at h
    have hobu := obu_runA c st s hs
    have hin := Rd.runA_inside (processObu c st) s hs
    match hx : (processObu c st).runA s with
    | (.error e, s1) =>
      rw [hx] at h
      simp only at h
      split at h <;> simp [Rd.runA] at h
    | (.ok (cont1, out, st2), s1) =>
      rw [hx] at h hobu hin
      simp only at h hobu hin
      rcases obuAt_local hb hobu.symm with ⟨rfl, ⟨w, hw, hr⟩, hext⟩ | ⟨rfl, rfl, rfl, hr⟩
      · have hlen := congrArg List.length hr
        rw [List.length_append] at hlen
        have hstep : step c st s.rest = some (advanceUnit out st2, s1.rest) := by
          unfold step; rw [← hobu]
        cases n with
        | zero =>
          simp only [steps, Option.some.injEq, Prod.mk.injEq] at h1
          obtain ⟨-, rfl, e⟩ := h1
          rw [e] at hstep
          rw [(stuck_nil c st).step] at hstep
          simp at hstep
        | succ n =>
          simp only [steps, hstep] at h1
          simp only [Solid, hstep] at h2
          obtain ⟨h2a, h2b⟩ := h2
          match hm : steps c n (advanceUnit out st2).2.2 s1.rest with
          | none => rw [hm] at h1; simp at h1
          | some (vs, st3, r3) =>
            rw [hm] at h1
            simp only [Option.some.injEq, Prod.mk.injEq] at h1
            obtain ⟨-, rfl, rfl⟩ := h1
            by_cases hbreak : ((collectOut out st2).1.next.timestamp.isSome || (collectOut out st2).2) = true
            · rw [if_pos (by simp only [Bool.not_true, Bool.false_and, Bool.false_or]; exact hbreak)] at h
              by_cases hem : ((collectOut out st2).1.current.frames.isEmpty && (collectOut out st2).1.current.blocks.isEmpty) = true
              · simp only [advanceUnit, hbreak, hem, ↓reduceIte] at h2a
                simp at h2a
              · rw [if_neg hem] at h
                simp [Rd.runA] at h
            · rw [if_neg (by simp only [Bool.not_true, Bool.false_and, Bool.false_or]; exact hbreak)] at h
              simp only [↓reduceIte] at h
              have hadv : advanceUnit out st2 = (false, none, (collectOut out st2).1) := by
                simp only [advanceUnit, hbreak, Bool.false_eq_true, ↓reduceIte]
              rw [hadv] at hm h2b
              exact ih hin.1 (by omega) hm h2b h
      · have hc : collectOut none st2 = (st2, false) := rfl
        rw [hc] at h
        split at h
        · split at h <;> simp [Rd.runA] at h
        · simp [Rd.runA] at h

/-- A call of `ProcessTemporalUnit` on data that can be processed to its end, and that is said to be the end of a sequence: it gives
out the first unit that ends in the data; if there is none, all of the data is processed and what has been collected is given out. -/
theorem loop_whole {c : ProcContext} {fuel n : Nat} {st st1 : ProcState} {s : RS} {us : List OutputUnit}
    (hs : s.pos ≤ s.src.length) (hb : s.rest.length < 8 * 4294967295) (hfuel : s.rest.length / 8 < fuel) (hg : st.Good)
    (h1 : steps c n st s.rest = some (us, st1, [])) (h2 : Solid c n st s.rest) :
    ∃ u cont st' s', (processUnitLoop c true fuel st).runA s = (.ok (.ok (u, cont), st'), s') ∧ s'.rest.length ≤ s.rest.length ∧
      ((∃ w k, u = some w ∧ k ≤ n ∧ steps c k st s.rest = some ([w], st', s'.rest)) ∨
       (us = [] ∧ (u, st') = flushUnit st1 ∧ s'.rest = [])) := by
  obtain ⟨⟨u, cont⟩, st', s', hx⟩ := loop_forward (eos := true) (Q := []) hs (by rw [List.append_nil]; exact hb) hfuel
    (by rw [List.append_nil]; exact h1) (stuck_nil c st1)
  obtain ⟨k, vs, st2, k1, k2⟩ := loop_steps hs hb hx (Good.nextTimestamp hg)
  have k1 := k1 []
  simp only [List.append_nil] at k1
  obtain ⟨hle, ws, rfl, hrest⟩ := steps_stuck h1 (stuck_nil c st1) k1
  refine ⟨u, cont, st', s', hx, ?_⟩
  rcases k2 with ⟨rfl, rfl, rfl, hlen⟩ | ⟨rfl, rfl, hst, hlen, hfl⟩
  · refine ⟨by omega, .inl ?_⟩
    match u with
    | none => exact (loop_solid hs hb h1 h2 hx).elim
    | some w => exact ⟨w, k, rfl, hle, k1⟩
  · refine ⟨hlen, .inr ?_⟩
    obtain ⟨hle2, -⟩ := steps_stuck k1 hst h1
    obtain rfl : k = n := by omega
    rw [Nat.sub_self] at hrest
    simp only [steps, Option.some.injEq, Prod.mk.injEq] at hrest
    obtain ⟨rfl, rfl, hr⟩ := hrest
    exact ⟨rfl, hfl, hr⟩

/-! ### Data with an end in it -/

/-- The data `bs` is processed from `st` to `st'`, with the units `em` given out; none of them is without data. -/
def Passes (c : ProcContext) (st : ProcState) (bs : Bits) (em : List OutputUnit) (st' : ProcState) : Prop :=
  ∃ m, ∀ F, steps c m st (bs ++ F) = some (em, st', F) ∧ Solid c m st (bs ++ F)

theorem Passes.nil (c : ProcContext) (st : ProcState) : Passes c st [] [] st := ⟨0, fun _ => ⟨rfl, trivial⟩⟩

theorem Passes.append {c : ProcContext} {st st1 st2 : ProcState} {b1 b2 : Bits} {e1 e2 : List OutputUnit}
    (h1 : Passes c st b1 e1 st1) (h2 : Passes c st1 b2 e2 st2) : Passes c st (b1 ++ b2) (e1 ++ e2) st2 := by
  obtain ⟨m, h1⟩ := h1
  obtain ⟨n, h2⟩ := h2
  refine ⟨m + n, fun F => ⟨?_, ?_⟩⟩
  · rw [steps_add, List.append_assoc, (h1 _).1]
    simp only [(h2 _).1]
  · rw [List.append_assoc, solid_add c m n st st1 _ _ e1 (h1 _).1]
    exact ⟨(h1 _).2, (h2 _).2⟩

theorem Passes.one {c : ProcContext} {st st' : ProcState} {bs : Bits} {out : Option ProcOut}
    (h : ∀ F, obuAt c st (bs ++ F) = (.ok (true, out, st'), F)) (hs : (advanceUnit out st').1 = true → (advanceUnit out st').2.1.isSome = true) :
    Passes c st bs (advanceUnit out st').2.1.toList (advanceUnit out st').2.2 := by
  refine ⟨1, fun F => ⟨?_, ?_⟩⟩
  · simp only [steps, step, h F, List.append_nil]
  · simp only [Solid, step, h F, and_true]
    exact hs

/-- The pieces of data `parts` can be processed one after the other, whether or not the end of a sequence is announced between them,
and the units `outs` are then given out: one for each piece, when the next
one begins or the end is announced, and one for what had been collected before. -/
def Plays (c : ProcContext) : List Bits → ProcState → List OutputUnit → Prop
  | [], st, outs => outs = (flushUnit st).1.toList
  | b :: bs, st, outs => outs.length = (bs.length + 1) + (flushUnit st).1.toList.length ∧
    (∃ em st' outs', Passes c st b em st' ∧ outs = em ++ outs' ∧ (flushUnit st').1.isSome = true ∧ Plays c bs st' outs') ∧
    (∃ em st' outs', Passes c (flushUnit st).2 b em st' ∧ outs = (flushUnit st).1.toList ++ (em ++ outs') ∧
      (flushUnit st').1.isSome = true ∧ Plays c bs st' outs')

theorem Plays.length {c : ProcContext} {parts : List Bits} {st : ProcState} {outs : List OutputUnit} (h : Plays c parts st outs) :
    outs.length = parts.length + (flushUnit st).1.toList.length := by
  cases parts with
  | nil => unfold Plays at h; rw [h]; simp
  | cons b bs => exact h.1

theorem Plays.flush {c : ProcContext} {parts : List Bits} {st : ProcState} {outs : List OutputUnit} (h : Plays c parts st outs)
    (hg : st.Good) : ∃ outs', outs = (flushUnit st).1.toList ++ outs' ∧ Plays c parts (flushUnit st).2 outs' := by
  have h2 := Good.flush_twice hg
  cases parts with
  | nil =>
    unfold Plays at h
    refine ⟨[], by rw [h, List.append_nil], ?_⟩
    unfold Plays
    rw [h2]
    rfl
  | cons b bs =>
    obtain ⟨h0, -, em, st', outs', a1, a2, a3⟩ := h
    refine ⟨em ++ outs', a2, ?_, ⟨em, st', outs', a1, rfl, a3⟩, ⟨em, st', outs', ?_, ?_, a3⟩⟩
    · rw [a2, List.length_append] at h0
      rw [h2]
      simp only [Option.toList_none, List.length_nil]
      omega
    · rw [h2]; exact a1
    · rw [h2]; rfl

/-- What a unit ends with, in whatever state it ends, has data. -/
theorem advance_solid {out : Option ProcOut} {st : ProcState} (h : st.Good)
    (hd : out = some .delimiter → st.current.delimiter = true → ¬ (st.current.frames.isEmpty && st.current.blocks.isEmpty) = true) :
    (advanceUnit out st).1 = true → (advanceUnit out st).2.1.isSome = true := by
  have key : ((collectOut out st).1.next.timestamp.isSome || (collectOut out st).2) = true →
      ¬ ((collectOut out st).1.current.frames.isEmpty && (collectOut out st).1.current.blocks.isEmpty) = true := by
    have hn := Good.nextTimestamp h
    match out with
    | none => simp [collectOut, hn]
    | some .delimiter =>
      simp only [collectOut, hn, Option.isSome_none, Bool.false_or]
      exact hd rfl
    | some (.frame f) =>
      simp only [collectOut, Bool.or_false]
      unfold addData
      have := h.nonempty
      cases ht : st.current.timestamp with
      | none => simp
      | some t0 =>
        rw [ht] at this
        by_cases he : t0 = f.frame.start
        · simp [ht, he]
        · simp only [Option.isNone_some, Bool.false_eq_true, ↓reduceIte, ht, Option.some.injEq, he]
          intro _
          exact this rfl
    | some (.block f) =>
      simp only [collectOut, Bool.or_false]
      unfold addData
      have := h.nonempty
      cases ht : st.current.timestamp with
      | none => simp
      | some t0 =>
        rw [ht] at this
        by_cases he : t0 = f.start
        · simp [ht, he]
        · simp only [Option.isNone_some, Bool.false_eq_true, ↓reduceIte, ht, Option.some.injEq, he]
          intro _
          exact this rfl
  unfold advanceUnit
  simp only
  by_cases h1 : ((collectOut out st).1.next.timestamp.isSome || (collectOut out st).2) = true
  · rw [if_pos h1, if_neg (key h1)]; simp
  · rw [if_neg h1]; simp

theorem steps_local {c : ProcContext} {n : Nat} {st st' : ProcState} {r r' : Bits} {us : List OutputUnit}
    (hb : r.length < 8 * 4294967295) (h : steps c n st r = some (us, st', r')) (F : Bits) :
    steps c n st (r ++ F) = some (us, st', r' ++ F) ∧ (Solid c n st r → Solid c n st (r ++ F)) := by
  induction n generalizing st r us with
  | zero =>
    simp only [steps, Option.some.injEq, Prod.mk.injEq] at h
    obtain ⟨rfl, rfl, rfl⟩ := h
    exact ⟨rfl, fun _ => trivial⟩
  | succ n ih =>
    simp only [steps] at h ⊢
    simp only [Solid]
    match hs : step c st r with
    | none => rw [hs] at h; simp at h
    | some ((b, u, st1), r1) =>
      rw [hs] at h
      simp only at h
      have hs2 : step c st (r ++ F) = some ((b, u, st1), r1 ++ F) ∧ r1.length ≤ r.length := by
        unfold step at hs ⊢
        match hx : obuAt c st r with
        | (.error e, r2) => rw [hx] at hs; simp at hs
        | (.ok (cont, out, st2), r2) =>
          rw [hx] at hs
          rcases obuAt_local hb hx with ⟨rfl, ⟨v, -, hr⟩, hext⟩ | ⟨rfl, -⟩
          · simp only [Option.some.injEq, Prod.mk.injEq] at hs
            obtain ⟨hs1, rfl⟩ := hs
            rw [hext F]
            simp only [hs1, hr, List.length_append, true_and]
            omega
          · simp at hs
      rw [hs2.1]
      simp only
      match hm : steps c n st1 r1 with
      | none => rw [hm] at h; simp at h
      | some (vs, st3, r3) =>
        rw [hm] at h
        simp only [Option.some.injEq, Prod.mk.injEq] at h
        obtain ⟨rfl, rfl, rfl⟩ := h
        obtain ⟨e1, e2⟩ := ih (by omega) hm
        rw [e1]
        exact ⟨rfl, fun hh => ⟨hh.1, e2 hh.2⟩⟩

theorem steps_len {c : ProcContext} {n : Nat} {st st' : ProcState} {r r' : Bits} {us : List OutputUnit}
    (hb : r.length < 8 * 4294967295) (h : steps c n st r = some (us, st', r')) : r'.length ≤ r.length := by
  induction n generalizing st r us with
  | zero =>
    simp only [steps, Option.some.injEq, Prod.mk.injEq] at h
    obtain ⟨rfl, rfl, rfl⟩ := h
    exact Nat.le_refl _
  | succ n ih =>
    simp only [steps] at h
    match hs : step c st r with
    | none => rw [hs] at h; simp at h
    | some ((b, u, st1), r1) =>
      rw [hs] at h
      simp only at h
      have hs2 : r1.length ≤ r.length := by
        unfold step at hs
        match hx : obuAt c st r with
        | (.error e, r2) => rw [hx] at hs; simp at hs
        | (.ok (cont, out, st2), r2) =>
          rw [hx] at hs
          rcases obuAt_local hb hx with ⟨rfl, ⟨v, -, hr⟩, hext⟩ | ⟨rfl, -⟩
          · simp only [Option.some.injEq, Prod.mk.injEq] at hs
            obtain ⟨hs1, rfl⟩ := hs
            rw [hr, List.length_append]
            omega
          · simp at hs
      match hm : steps c n st1 r1 with
      | none => rw [hm] at h; simp at h
      | some (vs, st3, r3) =>
        rw [hm] at h
        simp only [Option.some.injEq, Prod.mk.injEq] at h
        obtain ⟨rfl, rfl, rfl⟩ := h
        have := ih (by omega) hm
        omega

/-! ### What is left of pieces of data -/

/-- From `st` on, the data `r` is what is left of the pieces `W`; the pieces `Qs` are still to come; and the units `outs` will be given
out, one for each of these pieces. -/
def Rest (c : ProcContext) (st : ProcState) (r : Bits) (W Qs : List Bits) (outs : List OutputUnit) : Prop :=
  ∃ R0 ps us st1 outs1 V, r = R0 ++ ps.flatten ∧ W = V ++ ps ∧ Passes c st R0 us st1 ∧ Plays c (ps ++ Qs) st1 outs1 ∧ outs = us ++ outs1 ∧
    V.length = us.length + (flushUnit st1).1.toList.length ∧ R0.length ≤ (V.drop us.length).flatten.length

theorem Rest.start {c : ProcContext} {st : ProcState} {Qs : List Bits} {outs : List OutputUnit} (h : Plays c Qs st outs)
    (hf : (flushUnit st).1 = none) : Rest c st [] [] Qs outs :=
  ⟨[], [], [], st, outs, [], rfl, rfl, Passes.nil c st, h, rfl, by rw [hf]; rfl, Nat.le_refl _⟩

theorem Rest.push {c : ProcContext} {st : ProcState} {r : Bits} {W Q1 Qs : List Bits} {outs : List OutputUnit}
    (h : Rest c st r W (Q1 ++ Qs) outs) : Rest c st (r ++ Q1.flatten) (W ++ Q1) Qs outs := by
  obtain ⟨R0, ps, us, st1, outs1, V, rfl, rfl, h1, h2, rfl, h3, h4⟩ := h
  exact ⟨R0, ps ++ Q1, us, st1, outs1, V, by simp, by simp, h1, by rw [List.append_assoc]; exact h2, rfl, h3, h4⟩

theorem Rest.length {c : ProcContext} {st : ProcState} {r : Bits} {W Qs : List Bits} {outs : List OutputUnit}
    (h : Rest c st r W Qs outs) : outs.length = W.length + Qs.length := by
  obtain ⟨R0, ps, us, st1, outs1, V, rfl, rfl, h1, h2, rfl, h3, h4⟩ := h
  have := h2.length
  simp only [List.length_append] at this ⊢
  omega

theorem flatten_drop_le (V : List Bits) (n : Nat) : (V.drop n).flatten.length ≤ V.flatten.length := by
  have : V.flatten = (V.take n).flatten ++ (V.drop n).flatten := by rw [← List.flatten_append, List.take_append_drop]
  rw [this, List.length_append]
  omega

theorem Rest.bits {c : ProcContext} {st : ProcState} {r : Bits} {W Qs : List Bits} {outs : List OutputUnit}
    (h : Rest c st r W Qs outs) : r.length ≤ W.flatten.length := by
  obtain ⟨R0, ps, us, st1, outs1, V, rfl, rfl, h1, h2, rfl, h3, h4⟩ := h
  have := flatten_drop_le V us.length
  simp only [List.length_append, List.flatten_append]
  omega

theorem Rest.whole {c : ProcContext} {st : ProcState} {r : Bits} {W Qs : List Bits} {outs : List OutputUnit}
    (h : Rest c st r W Qs outs) : ∃ n em st2 outs2, steps c n st r = some (em, st2, []) ∧ Solid c n st r ∧ outs = em ++ outs2 ∧
      Plays c Qs st2 outs2 := by
  obtain ⟨R0, ps, us, st1, outs1, V, rfl, rfl, h1, h2, rfl, -, -⟩ := h
  clear V
  induction ps generalizing R0 us st1 outs1 with
  | nil =>
    obtain ⟨n, hn⟩ := h1
    have := hn []
    exact ⟨n, us, st1, outs1, by simpa using this.1, by simpa using this.2, rfl, h2⟩
  | cons b ps ih =>
    obtain ⟨-, ⟨em, st2, outs2, a1, rfl, -, a2⟩, -⟩ := h2
    obtain ⟨n, em', st3, outs3, e1, e2, e3, e4⟩ := ih (R0 ++ b) (us ++ em) st2 outs2 (h1.append a1) a2
    simp only [List.append_assoc, List.flatten_cons] at e1 e2 e3 ⊢
    exact ⟨n, em', st3, outs3, e1, e2, e3, e4⟩

theorem Rest.steps {c : ProcContext} {k : Nat} {st st' : ProcState} {r r' : Bits} {W Qs : List Bits} {outs us : List OutputUnit}
    (h : Rest c st r W Qs outs) (hb : r.length < 8 * 4294967295) (hk : steps c k st r = some (us, st', r')) :
    ∃ outs', outs = us ++ outs' ∧ Rest c st' r' (W.drop us.length) Qs outs' := by
  obtain ⟨R0, ps, vs, st1, outs1, V, rfl, rfl, h1, h2, rfl, h3, h4⟩ := h
  induction ps generalizing R0 st us vs st1 outs1 V k with
  | nil =>
    obtain ⟨m, hm⟩ := h1
    have hm := hm []
    simp only [List.append_nil, List.flatten_nil] at hm hk hb ⊢
    obtain ⟨hle, ws, rfl, e2⟩ := steps_stuck hm.1 (stuck_nil c st1) hk
    refine ⟨ws ++ outs1, by simp, r', [], ws, st1, outs1, V.drop us.length, by simp, by simp, ⟨m - k, fun F => ?_⟩, h2, rfl, ?_, ?_⟩
    · have hlen : r'.length ≤ R0.length := by
        exact steps_len hb hk
      obtain ⟨l1, l2⟩ := steps_local (by omega) e2 F
      refine ⟨by simpa using l1, l2 ?_⟩
      have := (solid_add c k (m - k) st st' R0 r' us hk).mp (by rw [show k + (m - k) = m by omega]; exact hm.2)
      exact this.2
    · simp only [List.length_append, List.length_drop] at h3 ⊢
      omega
    · have hlen := steps_len hb hk
      simp only [List.length_append, List.drop_drop] at h4 ⊢
      omega
  | cons b ps ih =>
    rcases Nat.lt_or_ge (h1.choose) k with hlt | hge
    · have hm := h1.choose_spec
      generalize h1.choose = m at hm hlt
      have hm1 := (hm ((b :: ps).flatten)).1
      obtain ⟨j, rfl⟩ : ∃ j, k = m + j := ⟨k - m, by omega⟩
      rw [steps_add, hm1] at hk
      simp only at hk
      match hj : Iamf.steps c j st1 (b :: ps).flatten with
      | none => rw [hj] at hk; simp at hk
      | some (ws, st2, r2) =>
        rw [hj] at hk
        simp only [Option.some.injEq, Prod.mk.injEq] at hk
        obtain ⟨rfl, rfl, rfl⟩ := hk
        obtain ⟨q0, ⟨em, st3, outs2, a1, rfl, a2, a3⟩, -⟩ := h2
        have hl2 := a3.length
        have hl3 : (flushUnit st3).1.toList.length = 1 := by
          obtain ⟨w, hw⟩ := Option.isSome_iff_exists.mp a2
          rw [hw]; rfl
        simp only [List.length_append] at q0 hl2
        have hVl : (V.drop vs.length).length = (flushUnit st1).1.toList.length := by rw [List.length_drop]; omega
        obtain ⟨outs', e1, e2⟩ := ih (st := st1) (us := ws) (k := j) b em st3 outs2 (V.drop vs.length ++ [b])
          (by rw [List.length_append, List.flatten_cons] at hb; omega) (by rw [List.flatten_cons] at hj; exact hj) a1 a3
          (by simp only [List.length_append, List.length_cons, List.length_nil, hVl]; omega)
          (by
            rw [List.drop_append_of_le_length (by omega), List.drop_of_length_le (by omega)]
            simp)
        refine ⟨outs', by rw [e1, List.append_assoc], ?_⟩
        have hW : (V ++ b :: ps).drop (vs ++ ws).length = (V.drop vs.length ++ [b] ++ ps).drop ws.length := by
          rw [List.length_append, ← List.drop_drop, List.drop_append_of_le_length (by omega)]
          simp
        rw [hW]
        exact e2
    · have hm := h1.choose_spec
      generalize h1.choose = m at hm hge
      have hm0 := hm []
      simp only [List.append_nil] at hm0
      have hbR : R0.length < 8 * 4294967295 := by rw [List.length_append] at hb; omega
      obtain ⟨j, rfl⟩ : ∃ j, m = k + j := ⟨m - k, by omega⟩
      have hsplit := hm0.1
      rw [steps_add] at hsplit
      match hk0 : Iamf.steps c k st R0 with
      | none => rw [hk0] at hsplit; simp at hsplit
      | some (us0, st0, r0) =>
        rw [hk0] at hsplit
        simp only at hsplit
        match hj : Iamf.steps c j st0 r0 with
        | none => rw [hj] at hsplit; simp at hsplit
        | some (ws, st2, r2) =>
          rw [hj] at hsplit
          simp only [Option.some.injEq, Prod.mk.injEq] at hsplit
          obtain ⟨rfl, rfl, rfl⟩ := hsplit
          have := (steps_local hbR hk0 (b :: ps).flatten).1
          rw [this] at hk
          simp only [Option.some.injEq, Prod.mk.injEq] at hk
          obtain ⟨rfl, rfl, rfl⟩ := hk
          have hlen := steps_len hbR hk0
          simp only [List.length_append] at h3 h4
          refine ⟨ws ++ outs1, by simp, r0, b :: ps, ws, st2, outs1, V.drop us0.length, rfl, ?_, ⟨j, fun F => ?_⟩, h2, rfl, ?_, ?_⟩
          · rw [List.drop_append_of_le_length (by omega)]
          · obtain ⟨l1, l2⟩ := steps_local (by omega) hj F
            refine ⟨by simpa using l1, l2 ?_⟩
            exact ((solid_add c k j st st0 R0 r0 us0 hk0).mp hm0.2).2
          · rw [List.length_drop]; omega
          · rw [List.drop_drop]; omega

end Iamf
