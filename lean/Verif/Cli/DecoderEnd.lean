import Verif.Cli.DecoderForward
import Verif.Cli.DecoderWhole
/-
  Decoders that are asked for all they can give before they get more data: when they have nothing to give, little is left in the buffer,
  or the end has been reached.
-/
namespace Iamf
open Iamf.Props

variable {B : Backend}

/-- Nothing can be done with the data until more is there: no more than 2 MB of it are left. -/
theorem Stuck.small {c : ProcContext} {st st1 : ProcState} {r Q : Bits} {n : Nat} {us : List OutputUnit} (h : Stuck c st r)
    (hb : (r ++ Q).length < 8 * 4294967295) (h1 : steps c n st (r ++ Q) = some (us, st1, [])) : r.length < 8 * 2097152 := by
  cases n with
  | zero =>
    simp only [steps, Option.some.injEq, Prod.mk.injEq] at h1
    have : r = [] := (List.append_eq_nil_iff.mp h1.2.2).1
    rw [this]; decide
  | succ n =>
    simp only [steps, Iamf.step] at h1
    match hx : obuAt c st (r ++ Q) with
    | (.ok (true, out, st2), r2) => exact obuAt_waits hb h hx
    | (.ok (false, out, st2), r2) => rw [hx] at h1; simp at h1
    | (.error e, r2) => rw [hx] at h1; simp at h1

/-- A call of `ProcessTemporalUnit` stops while there is data only with a unit, or to wait for more (`Q` is yet to come). -/
theorem loop_solid_more {c : ProcContext} {eos : Bool} {fuel n : Nat} {st st1 st' : ProcState} {s s' : RS} {us : List OutputUnit} {Q : Bits}
    (hs : s.pos ≤ s.src.length) (hb : s.rest.length < 8 * 4294967295)
    (h1 : steps c n st (s.rest ++ Q) = some (us, st1, [])) (h2 : Solid c n st (s.rest ++ Q))
    (h : (processUnitLoop c eos fuel st).runA s = (.ok (.ok (none, true), st'), s')) : False := by
  induction fuel generalizing st s n us with
  | zero => simp [processUnitLoop, Rd.runA] at h
  | succ fuel ih =>
    simp only [processUnitLoop, Rd.runA] at h
    have hobu := obu_runA c st s hs
    have hin := Rd.runA_inside (processObu c st) s hs
    match hx : (processObu c st).runA s with
    | (.error e, s1) =>
      rw [hx] at h
      simp only at h
      split at h <;> simp [Rd.runA] at h
    | (.ok (cont1, out, st2), s1) =>
      rw [hx] at h hobu hin
      simp only at h hobu hin
      rcases obuAt_local hb hobu.symm with ⟨rfl, ⟨w, hw, hr⟩, hext⟩ | ⟨rfl, rfl, rfl, hr⟩
      · have hlen := congrArg List.length hr
        rw [List.length_append] at hlen
        have hstep : step c st (s.rest ++ Q) = some (advanceUnit out st2, s1.rest ++ Q) := by
          unfold step; rw [hext Q]
        cases n with
        | zero =>
          simp only [steps, Option.some.injEq, Prod.mk.injEq] at h1
          obtain ⟨-, rfl, e⟩ := h1
          rw [e] at hstep
          rw [(stuck_nil c st).step] at hstep
          simp at hstep
        | succ n =>
          simp only [steps, hstep] at h1
          simp only [Solid, hstep] at h2
          obtain ⟨h2a, h2b⟩ := h2
          match hm : steps c n (advanceUnit out st2).2.2 (s1.rest ++ Q) with
          | none => rw [hm] at h1; simp at h1
          | some (vs, st3, r3) =>
            rw [hm] at h1
            simp only [Option.some.injEq, Prod.mk.injEq] at h1
            obtain ⟨-, rfl, rfl⟩ := h1
            by_cases hbreak : ((collectOut out st2).1.next.timestamp.isSome || (collectOut out st2).2) = true
            · rw [if_pos (by simp only [Bool.not_true, Bool.false_and, Bool.false_or]; exact hbreak)] at h
              by_cases hem : ((collectOut out st2).1.current.frames.isEmpty && (collectOut out st2).1.current.blocks.isEmpty) = true
              · simp only [advanceUnit, hbreak, hem, ↓reduceIte] at h2a
                simp at h2a
              · rw [if_neg hem] at h
                simp [Rd.runA] at h
            · rw [if_neg (by simp only [Bool.not_true, Bool.false_and, Bool.false_or]; exact hbreak)] at h
              simp only [↓reduceIte] at h
              have hadv : advanceUnit out st2 = (false, none, (collectOut out st2).1) := by
                simp only [advanceUnit, hbreak, Bool.false_eq_true, ↓reduceIte]
              rw [hadv] at hm h2b
              exact ih hin.1 (by omega) hm h2b h
      · have hc : collectOut none st2 = (st2, false) := rfl
        rw [hc] at h
        split at h
        · split at h <;> simp [Rd.runA] at h
        · simp [Rd.runA] at h

/-- One call of `DecodeOneTemporalUnit` that returns OK: as `decodeOne_spec`, with what is said about the output, and what it means that
there is no unit. -/
theorem decodeOne_more {eos : Bool} {d d' : Decoder B} {p : Processor B} (hp : d.processor = some p) (hf : d.buffer.Fit)
    (hg : p.state.Good) (ha : d.settings.android = false) (h : Decoder.decodeOne eos d = (.ok (), d')) :
    ∃ p' u, DecodedOne eos d d' p p' u ∧ p'.rate = p.rate ∧ p'.mixId = p.mixId ∧
      8 * d'.buffer.src.length < d'.buffer.abs.rest.length + 8 ∧
      (u = none → (∀ Q n us st1, steps p.context n p.state (d.buffer.abs.rest ++ Q) = some (us, st1, []) →
          ¬ Solid p.context n p.state (d.buffer.abs.rest ++ Q)) ∨
        ∃ st1, Stuck p.context st1 d'.buffer.abs.rest ∧ (none, p'.state) = if eos then flushUnit st1 else (none, st1)) := by
  unfold Decoder.decodeOne at h
  rw [hp] at h
  simp only at h
  have hfit := hf.run (processUnit p.context eos p.state)
  obtain ⟨q1, -, q3, -⟩ := (processUnit p.context eos p.state).run_refines d.buffer hf.wf
  match hx : (processUnit p.context eos p.state).run d.buffer with
  | (.error e, b) => rw [hx] at h; simp at h
  | (.ok (.error e, st), b) => rw [hx] at h; simp at h
  | (.ok (.ok (u, cont), st), b) =>
    rw [hx] at h q1 q3 hfit
    simp only at q1 q3 hfit
    obtain ⟨b', hb1, hb2, hb3⟩ := hfit.flush
    have htight := tight_flush hfit hb1
    have hrun : (processUnit p.context eos p.state).runA d.buffer.abs = (.ok (.ok (u, cont), st), b.abs) := by
      rw [q1, q3]
    unfold processUnit at hrun
    simp only [Rd.runA] at hrun
    obtain ⟨n, us, st1, h1, h2⟩ := loop_steps hf.pos hf.rest hrun (Good.nextTimestamp hg)
    have key : ∃ n us st1, (∀ F, steps p.context n p.state (d.buffer.abs.rest ++ F) = some (us, st1, b'.abs.rest ++ F)) ∧
      ((us = u.toList ∧ st = st1 ∧ b'.abs.rest.length + 8 ≤ d.buffer.abs.rest.length) ∨
       (us = [] ∧ Stuck p.context st1 b'.abs.rest ∧ b'.abs.rest.length ≤ d.buffer.abs.rest.length ∧
        (u, st) = if eos then flushUnit st1 else (none, st1))) := by
      rw [hb3]
      refine ⟨n, us, st1, h1, ?_⟩
      rcases h2 with ⟨-, a, b, c⟩ | ⟨-, a, b, c, e⟩
      · exact .inl ⟨a, b, c⟩
      · exact .inr ⟨a, b, c, e⟩
    match u with
    | none =>
      simp only [hb1, Prod.mk.injEq, true_and] at h
      subst h
      refine ⟨_, none, ⟨rfl, rfl, rfl, ⟨rfl, rfl, rfl, rfl⟩, hb2, key, ⟨rfl, rfl⟩⟩, rfl, rfl, htight, fun _ => ?_⟩
      rcases h2 with ⟨rfl, -⟩ | ⟨-, -, b, -, e⟩
      · left
        intro Q m vs st2 k1 k2
        exact loop_solid_more hf.pos hf.rest k1 k2 hrun
      · right
        exact ⟨st1, by simp only [hb3]; exact b, e⟩
    | some w =>
      simp only at h
      match hr : Decoder.render p.renderer w with
      | (.error e, rs) => rw [hr] at h; simp at h
      | (.ok x, rs) =>
        rw [hr] at h
        simp only [reordered_id ha, hb1, Prod.mk.injEq, true_and] at h
        subst h
        exact ⟨_, some w, ⟨rfl, rfl, rfl, ⟨rfl, rfl, rfl, rfl⟩, hb2, key, hr⟩, rfl, rfl, htight, fun e => by cases e⟩

/-- All of the data `T` can be decoded, each unit has data and is rendered to the samples `xs`, none of which are empty. -/
def Prompt (p0 : Processor B) (T : Bits) (xs : List Rendered) : Prop :=
  ∃ N us st rs, steps p0.context N p0.state T = some (us, st, []) ∧ Solid p0.context N p0.state T ∧
    renderAll p0.renderer (us ++ (flushUnit st).1.toList) = some (xs, rs) ∧ ∀ x ∈ xs, x ≠ []

theorem Prompt.complete {p0 : Processor B} {T : Bits} {xs : List Rendered} (h : Prompt p0 T xs) : Complete p0 T xs := by
  obtain ⟨N, us, st, rs, h1, -, h3, h4⟩ := h
  refine ⟨N, us, st, [], xs, rs, h1, stuck_nil _ _, h3, ?_⟩
  unfold sounding
  rw [List.filter_eq_self]
  intro x hx
  have := h4 x hx
  cases x with
  | nil => exact absurd rfl this
  | cons a l => rfl

/-- There is nothing to be done and nothing to be given out: that was all. -/
theorem Running.complete {p0 p : Processor B} {T : Bits} {taken : List Rendered} {d : Decoder B} {st : ProcState}
    (h : Running p0 p T [] taken d) (hpe : d.pending = []) (hst : Stuck p0.context st d.buffer.abs.rest)
    (hfl : flushUnit p.state = (none, p.state)) : Complete p0 T taken := by
  obtain ⟨n, us, st1, ws, xs, t1, t2, t3, t4⟩ := h.trace
  rw [show d.pendings = [] by simp [Decoder.pendings, hpe], List.append_nil] at t4
  rw [List.append_nil] at t1
  refine ⟨n, us, st1, _, xs, p.renderer, t1, hst.any h.fit.rest st1, ?_, t4⟩
  rcases t2 with ⟨rfl, rfl⟩ | ⟨-, -, -, w, hw, rfl⟩
  · rw [hfl]; exact t3
  · rw [hw]; exact t3

/-- What is asked of a decoder that has nothing to give out now. -/
def Waits (p0 : Processor B) (T : Bits) (taken : List Rendered) (d : Decoder B) : Prop :=
  if d.ended then Complete p0 T taken else d.buffer.src.length ≤ 2097152

/-- After `DecodeOneTemporalUnit` there is something to give out, or what is there has been used up. -/
theorem Running.decodeOne_prompt {p0 p : Processor B} {T Q : Bits} {taken outs : List Rendered} {d d' : Decoder B} {eos : Bool}
    (h : Running p0 p T Q taken d) (hg0 : p0.state.Good) (hT : T.length < 8 * 4294967295) (hP : Prompt p0 T outs) (hpend : d.pending = [])
    (heos : eos = d.ended) (hd : Decoder.decodeOne eos d = (.ok (), d')) :
    ∃ p', Running p0 p' T Q taken d' ∧ d'.ended = d.ended ∧ d'.settings = d.settings ∧
      (p'.layout = p.layout ∧ p'.rate = p.rate ∧ p'.mixId = p.mixId) ∧
      (d'.pending = [] → Waits p0 T taken d') := by
  obtain ⟨p', r1, r2, -, r4, -⟩ := h.decodeOne hpend (fun e => by rw [← heos]; exact e) hd
  obtain ⟨p1, u, hone, s1, s2, htight, hnone⟩ := decodeOne_more h.processor h.fit h.good h.settings.1 hd
  obtain rfl : p1 = p' := by
    have e1 := hone.processor
    rw [r1.processor] at e1
    cases e1
    rfl
  refine ⟨p1, r1, r2, r4, ⟨hone.layout, s1, s2⟩, fun hpe => ?_⟩
  obtain ⟨N, vs, st, rs, c1, c2, c3, c4⟩ := hP
  have hctx := h.context
  -- nothing is to be done any more
  have key : u = none → ∃ st1, Stuck p0.context st1 d'.buffer.abs.rest ∧ (none, p1.state) = if eos then flushUnit st1 else (none, st1) := by
    intro hu
    obtain ⟨n, us, st1, ws, xs, t1, t2, t3, t4⟩ := h.trace
    rcases t2 with ⟨rfl, rfl⟩ | ⟨t5, t6, t7, w, hw, rfl⟩
    · obtain ⟨hle, vs', rfl, hrest⟩ := steps_stuck c1 (stuck_nil _ _) t1
      have hsol := (solid_add p0.context n (N - n) p0.state p.state T _ us t1).mp (by rw [show n + (N - n) = N by omega]; exact c2)
      rcases hnone hu with hno | hst
      · rw [hctx] at hno
        exact absurd hsol.2 (hno Q _ _ _ hrest)
      · rw [hctx] at hst; exact hst
    · -- the end has been taken
      have hQ := h.ended t5
      subst hQ
      obtain ⟨k, us', st1', hk, halt⟩ := hone.steps
      have hst2 : Stuck p.context p.state d.buffer.abs.rest := by rw [hctx]; exact t6.any h.fit.rest p.state
      have hk0 := hk []
      simp only [List.append_nil] at hk0
      have h0 : Iamf.steps p.context 0 p.state d.buffer.abs.rest = some ([], p.state, d.buffer.abs.rest) := rfl
      obtain ⟨hle, -⟩ := steps_stuck h0 hst2 hk0
      have : k = 0 := by omega
      subst this
      simp only [Iamf.steps, Option.some.injEq, Prod.mk.injEq] at hk0
      obtain ⟨rfl, rfl, hrest⟩ := hk0
      rcases halt with ⟨-, -, a3⟩ | ⟨-, a2, -, a4⟩
      · rw [hrest] at a3; omega
      · rw [hctx] at a2
        rw [hu] at a4
        exact ⟨_, a2, a4⟩
  -- if there is a unit, it is rendered to something
  have hsome : u = none := by
    match u, hone with
    | none, _ => rfl
    | some w, hone =>
      exfalso
      have hr := hone.rendered
      simp only at hr
      rw [hpe] at hr
      obtain ⟨n, us, st1, ws, xs, t1, t2, t3, t4⟩ := h.trace
      obtain ⟨hle, vs', rfl, hrest⟩ := steps_stuck c1 (stuck_nil _ _) t1
      obtain ⟨k, us', st1', hk, halt⟩ := hone.steps
      rw [hctx] at hk halt
      rcases t2 with ⟨rfl, rfl⟩ | ⟨t5, t6, t7, v, hv, rfl⟩
      · rw [List.append_nil] at t3
        obtain ⟨hkm, vs2, rfl, hrest2⟩ := steps_stuck hrest (stuck_nil _ _) (hk Q)
        have fin : ∀ rest, renderAll p0.renderer (us ++ (w :: rest)) = some (outs, rs) → False := by
          intro rest hall
          rw [renderAll_append, t3] at hall
          simp only [renderAll, hr] at hall
          match hm : renderAll p1.renderer rest with
          | none => rw [hm] at hall; simp at hall
          | some (ys, rs2) =>
            rw [hm] at hall
            simp only [Option.some.injEq, Prod.mk.injEq] at hall
            exact c4 [] (by rw [← hall.1]; simp) rfl
        rcases halt with ⟨rfl, -, -⟩ | ⟨rfl, a2, -, a4⟩
        · simp only [Option.toList_some, List.append_assoc, List.cons_append, List.nil_append] at c3
          exact fin _ c3
        · cases eos with
          | false => simp at a4
          | true =>
            have hQ := h.ended heos.symm
            subst hQ
            simp only [List.append_nil] at hrest2
            have h0 : Iamf.steps p0.context 0 st1' d'.buffer.abs.rest = some ([], st1', d'.buffer.abs.rest) := rfl
            obtain ⟨hle2, -⟩ := steps_stuck h0 a2 hrest2
            rw [show N - n - k = 0 by omega] at hrest2
            simp only [Iamf.steps, Option.some.injEq, Prod.mk.injEq] at hrest2
            obtain ⟨rfl, rfl, -⟩ := hrest2
            simp only [↓reduceIte] at a4
            rw [← a4] at c3
            simp only [List.append_nil, Option.toList_some] at c3
            exact fin [] c3
      · have hQ := h.ended t5
        subst hQ
        have hst2 : Stuck p0.context p.state d.buffer.abs.rest := t6.any h.fit.rest p.state
        have hk0 := hk []
        simp only [List.append_nil] at hk0
        have h0 : Iamf.steps p0.context 0 p.state d.buffer.abs.rest = some ([], p.state, d.buffer.abs.rest) := rfl
        obtain ⟨hle, -⟩ := steps_stuck h0 hst2 hk0
        have : k = 0 := by omega
        subst this
        simp only [Iamf.steps, Option.some.injEq, Prod.mk.injEq] at hk0
        obtain ⟨rfl, rfl, hrest⟩ := hk0
        rcases halt with ⟨hu, -⟩ | ⟨-, -, -, a4⟩
        · simp at hu
        · have h2 : flushUnit p.state = (none, p.state) := by
            have := Good.flush_twice t7
            rw [hv] at this
            exact this
          cases eos <;> simp [h2] at a4
  obtain ⟨st1, k1, k2⟩ := key hsome
  unfold Waits
  rw [r2]
  cases hend : d.ended with
  | true =>
    simp only [↓reduceIte]
    have hQ := h.ended hend
    subst hQ
    rw [heos, hend] at k2
    simp only [↓reduceIte] at k2
    refine r1.complete hpe k1 ?_
    have hst : p1.state = st1 := by
      unfold flushUnit at k2
      split at k2
      · simp only [Prod.mk.injEq, true_and] at k2; exact k2
      · simp at k2
    rw [hst] at k2 ⊢
    exact k2.symm
  | false =>
    simp only [Bool.false_eq_true, ↓reduceIte]
    obtain ⟨n, us, st2, ws, xs, t1, t2, t3, t4⟩ := r1.trace
    obtain ⟨hle, vs', rfl, hrest⟩ := steps_stuck c1 (stuck_nil _ _) t1
    have hlen := (steps_good hg0 hT t1).2
    have := (k1.any r1.fit.rest st2).small (by omega) hrest
    omega

end Iamf
