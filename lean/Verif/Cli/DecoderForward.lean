import Verif.Cli.DecoderTrace
import Verif.Props.Output
/-
  Calls of the decoder that cannot fail.
-/
namespace Iamf
open Iamf.Props

variable {B : Backend}

private theorem renderAll_next {rs rs1 : B.State} {us vs : List OutputUnit} {xs : List Rendered} {w : OutputUnit}
    {y : List Rendered × B.State} (h : renderAll rs (us ++ (w :: vs)) = some y) (h1 : renderAll rs us = some (xs, rs1)) :
    ∃ x rs2, Decoder.render rs1 w = (.ok x, rs2) := by
  rw [renderAll_append, h1] at h
  simp only [renderAll] at h
  match hr : Decoder.render rs1 w with
  | (.error e, rs2) => rw [hr] at h; simp at h
  | (.ok x, rs2) => exact ⟨x, rs2, rfl⟩

/-- `DecodeOneTemporalUnit` returns OK if all of the data, be it there or not, can be decoded. -/
theorem Running.decodeOne_ok {p0 p : Processor B} {T Q : Bits} {taken outs : List Rendered} {d : Decoder B} {eos : Bool}
    (h : Running p0 p T Q taken d) (hg0 : p0.state.Good) (hT : T.length < 8 * 4294967295) (hc : Complete p0 T outs)
    (heos : eos = true → d.ended = true) : ∃ d', Decoder.decodeOne eos d = (.ok (), d') := by
  obtain ⟨n, us, st1, ws, xs, t1, t2, t3, t4⟩ := h.trace
  obtain ⟨m, vs, st2, r, ys, rs, c1, c2, c3, -⟩ := hc
  obtain ⟨hnm, vs', rfl, hrest⟩ := steps_stuck c1 c2 t1
  have hlen := (steps_good hg0 hT t1).2
  have hctx := h.context
  -- the processing succeeds
  have hproc : ∃ u cont st' s', (processUnitLoop p.context eos ((((d.buffer.abs.src.length - d.buffer.abs.pos) / 8 : Nat) : Int).toNat + 1)
      p.state).runA d.buffer.abs = (.ok (.ok (u, cont), st'), s') := by
    have hfuel : d.buffer.abs.rest.length / 8 < (((d.buffer.abs.src.length - d.buffer.abs.pos) / 8 : Nat) : Int).toNat + 1 := by
      simp only [RS.rest, List.length_drop, Int.toNat_natCast]; omega
    rcases t2 with ⟨rfl, -⟩ | ⟨hended, hst, -, -⟩
    · rw [← hctx] at hrest c2
      obtain ⟨x, st', s', hx⟩ := loop_forward (eos := eos) h.fit.pos (by omega) hfuel hrest c2
      exact ⟨x.1, x.2, st', s', hx⟩
    · have hQ := h.ended hended
      subst hQ
      rw [← hctx] at hst
      have h0 : Iamf.steps p.context 0 p.state (d.buffer.abs.rest ++ []) = some ([], p.state, d.buffer.abs.rest) := by
        rw [List.append_nil]; rfl
      obtain ⟨x, st', s', hx⟩ := loop_forward (eos := eos) h.fit.pos (by omega) hfuel h0 (hst.any h.fit.rest p.state)
      exact ⟨x.1, x.2, st', s', hx⟩
  obtain ⟨u, cont, st', s', hproc⟩ := hproc
  obtain ⟨k, us', st1', k1, k2⟩ := loop_steps h.fit.pos h.fit.rest hproc (Good.nextTimestamp h.good)
  -- so does the rendering
  have hrend : ∀ w, u = some w → ∃ x rs2, Decoder.render p.renderer w = (.ok x, rs2) := by
    rintro w rfl
    rw [hctx] at k1 k2
    rcases t2 with ⟨rfl, rfl⟩ | ⟨hended, hst, hgood, v, hv, -⟩
    · rw [List.append_nil] at t3
      obtain ⟨hkm, vs2, rfl, hrest2⟩ := steps_stuck hrest c2 (k1 Q)
      rcases k2 with ⟨-, rfl, -, -⟩ | ⟨-, rfl, hst, -, hfl⟩
      · simp only [Option.toList_some, List.append_assoc, List.cons_append, List.nil_append] at c3
        exact renderAll_next c3 t3
      · cases eos with
        | false => simp at hfl
        | true =>
          have hQ := h.ended (heos rfl)
          subst hQ
          rw [List.append_nil] at hrest2
          have h0 : Iamf.steps p0.context 0 st1' s'.rest = some ([], st1', s'.rest) := rfl
          obtain ⟨hle, -⟩ := steps_stuck h0 hst hrest2
          rw [show m - n - k = 0 by omega] at hrest2
          simp only [Iamf.steps, Option.some.injEq, Prod.mk.injEq] at hrest2
          obtain ⟨rfl, rfl, rfl⟩ := hrest2
          simp only [↓reduceIte] at hfl
          rw [← hfl] at c3
          simp only [List.append_nil, Option.toList_some] at c3
          exact renderAll_next c3 t3
    · exfalso
      have hst2 := hst.any h.fit.rest p.state
      have h0 : Iamf.steps p0.context 0 p.state d.buffer.abs.rest = some ([], p.state, d.buffer.abs.rest) := rfl
      have k0 := k1 []
      simp only [List.append_nil] at k0
      obtain ⟨hle, -⟩ := steps_stuck h0 hst2 k0
      obtain rfl : k = 0 := by omega
      simp only [Iamf.steps, Option.some.injEq, Prod.mk.injEq] at k0
      obtain ⟨rfl, rfl, hr⟩ := k0
      rcases k2 with ⟨-, hu, -⟩ | ⟨-, -, -, -, hfl⟩
      · simp at hu
      · have h2 : flushUnit p.state = (none, p.state) := by
          have := Good.flush_twice hgood
          rw [hv] at this
          exact this
        cases eos <;> simp [h2] at hfl
  unfold Decoder.decodeOne
  rw [h.processor]
  simp only
  have hfit := h.fit.run (processUnit p.context eos p.state)
  obtain ⟨q1, -, q3, -⟩ := (processUnit p.context eos p.state).run_refines d.buffer h.fit.wf
  have hrun : (processUnit p.context eos p.state).runA d.buffer.abs = (.ok (.ok (u, cont), st'), s') := by
    unfold processUnit
    simp only [Rd.runA]
    exact hproc
  rw [hrun] at q1
  match hx : (processUnit p.context eos p.state).run d.buffer with
  | (.error e, b) => rw [hx] at q1; simp at q1
  | (.ok (.error e, st), b) => rw [hx] at q1; simp at q1
  | (.ok (.ok (u1, cont1), st), b) =>
    rw [hx] at q1 hfit
    simp only [Except.ok.injEq, Prod.mk.injEq] at q1
    obtain ⟨⟨rfl, rfl⟩, rfl⟩ := q1
    obtain ⟨b', hb1, -⟩ := hfit.flush
    match u1 with
    | none => simp only [hb1]; exact ⟨_, rfl⟩
    | some w =>
      obtain ⟨x, rs2, hr⟩ := hrend w rfl
      simp only [hr, reordered_id h.settings.1, hb1]
      exact ⟨_, rfl⟩

/-! ### Calls -/

theorem Running.pushed {p0 p : Processor B} {T Q : Bits} {taken : List Rendered} {d : Decoder B} {bytes : List UInt8} {b : RBuf}
    (h : Running p0 p T (bytesBits bytes ++ Q) taken d) (hne : d.ended = false) (hp : d.buffer.pushBytes bytes = (.ok (), b))
    (ro : Option UInt8) : Running p0 p T Q taken { d with buffer := b, processor := some p, reorderer := ro } := by
  obtain ⟨f1, f2, f3⟩ := h.fit.push hp
  have hrest : b.abs.rest = d.buffer.abs.rest ++ bytesBits bytes := by
    rw [f3]
    simp only [RS.rest]
    rw [List.drop_append_of_le_length h.fit.pos]
  obtain ⟨n, us, st1, ws, xs, t1, t2, t3, t4⟩ := h.trace
  refine ⟨rfl, h.context, f1, h.good, h.settings, ?_, ⟨n, us, st1, ws, xs, ?_, ?_, t3, t4⟩⟩
  · intro he; rw [hne] at he; simp at he
  · rw [t1, hrest, List.append_assoc]
  · rcases t2 with t2 | ⟨hQ, -⟩
    · exact .inl t2
    · rw [hne] at hQ; simp at hQ

theorem Running.atEnd {p0 p : Processor B} {T : Bits} {taken : List Rendered} {d : Decoder B}
    (h : Running p0 p T [] taken d) : Running p0 p T [] taken { d with ended := true } :=
  ⟨h.processor, h.context, h.fit, h.good, h.settings, fun _ => rfl, by
    obtain ⟨n, us, st1, ws, xs, t1, t2, t3⟩ := h.trace
    exact ⟨n, us, st1, ws, xs, t1, t2.imp_right fun a => ⟨rfl, a.2⟩, t3⟩⟩

theorem Running.take {p0 p : Processor B} {T Q : Bits} {taken : List Rendered} {d : Decoder B}
    (h : Running p0 p T Q taken d) (hpe : d.pending.isEmpty = false) : Running p0 p T Q (taken ++ [d.pending]) { d with pending := [] } := by
  obtain ⟨n, us, st1, ws, xs, t1, t2, t3, t4⟩ := h.trace
  have hp0 : d.pendings = [d.pending] := by simp [Decoder.pendings, hpe]
  exact ⟨h.processor, h.context, h.fit, h.good, h.settings, h.ended, n, us, st1, ws, xs, t1, t2, t3, by
    rw [t4, hp0]; simp [Decoder.pendings]⟩

/-- What is left in the buffer does not become more. -/
theorem decodeOne_src {eos : Bool} {d : Decoder B} (h : d.buffer.Fit) :
    (Decoder.decodeOne eos d).2.buffer.src.length ≤ d.buffer.src.length := by
  unfold Decoder.decodeOne
  match d.processor with
  | none => exact Nat.le_refl _
  | some p =>
    simp only
    have hfit := h.run (processUnit p.context eos p.state)
    obtain ⟨-, -, -, q4⟩ := (processUnit p.context eos p.state).run_refines d.buffer h.wf
    match hx : (processUnit p.context eos p.state).run d.buffer with
    | (.error e, b) => rw [hx] at q4; simp only at q4 ⊢; rw [q4]
    | (.ok (.error e, st), b) => rw [hx] at q4; simp only at q4 ⊢; rw [q4]
    | (.ok (.ok (u, cont), st), b) =>
      rw [hx] at q4 hfit
      simp only at q4 hfit
      obtain ⟨b', h1, -, h3, -⟩ := flush_refines b hfit.wf
      have : b'.src.length ≤ d.buffer.src.length := by rw [h3, List.length_drop, q4]; omega
      match u with
      | none => simp only [h1]; exact this
      | some w =>
        simp only
        split
        · simp only [q4]; exact Nat.le_refl _
        · split
          · simp only [q4]; exact Nat.le_refl _
          · simp only [h1]; exact this

/-- A call returns OK if all of the data can be decoded: unless it decodes after the end has been signalled, pushes too much, or
asks for output with too small a buffer. -/
theorem Running.call_ok {p0 p : Processor B} {T Q : Bits} {taken outs : List Rendered} {d : Decoder B} {c : DecoderCall}
    (h : Running p0 p T (bytesBits c.fed ++ Q) taken d) (hg0 : p0.state.Good) (hT : T.length < 8 * 4294967295)
    (hc : Complete p0 T outs) (hend : c = .signalEnd → Q = []) (hdec : ∀ bytes, c = .decode bytes → d.ended = false)
    (hsmall : d.buffer.src.length + c.fed.length ≤ 4194304)
    (hout : ∀ x ∈ outs, ∃ size, writeFrameToSpan x d.settings.sampleType size = .ok (pcmOf d.settings.sampleType x))
    (hsize : ∀ size, c = .getOutput size → ∀ x ∈ outs, (pcmOf d.settings.sampleType x).length ≤ size) :
    ∃ o, (d.call c).1 = .ok o ∧ (d.call c).2.buffer.src.length ≤ d.buffer.src.length + c.fed.length := by
  cases c with
  | decode bytes =>
    simp only [DecoderCall.fed] at h hsmall ⊢
    have hne := hdec bytes rfl
    obtain ⟨b, h1, h2, h3, h4, h5⟩ := push_refines bytes d.buffer h.fit.wf h.fit.cap
      (by simp only [kEntireObuSizeMaxTwoMegabytes]; omega)
    simp only [Decoder.call, Decoder.decode, hne, Bool.false_eq_true, ↓reduceIte, h1, h.processor]
    have hsrc : b.src.length ≤ d.buffer.src.length + bytes.length := by rw [h3, List.length_append]
    cases hpe : d.pending.isEmpty with
    | false => simp only [Bool.false_eq_true, ↓reduceIte]; exact ⟨_, rfl, hsrc⟩
    | true =>
      simp only [↓reduceIte]
      have key : ∀ ro, ∃ d', Decoder.decodeOne d.fromDescriptors
          { d with buffer := b, processor := some p, ended := false, reorderer := ro } = (.ok (), d') ∧
          d'.buffer.src.length ≤ d.buffer.src.length + bytes.length := by
        intro ro
        have hr := h.pushed hne h1 ro
        obtain ⟨d', hd⟩ := hr.decodeOne_ok hg0 hT hc (eos := d.fromDescriptors) (by rw [h.settings.2]; simp)
        have hle := decodeOne_src (eos := d.fromDescriptors) hr.fit
        simp only [hne] at hd hle
        rw [hd] at hle
        simp only at hle
        exact ⟨d', hd, by omega⟩
      obtain ⟨d', hd, hle⟩ := key _
      rw [hd]
      exact ⟨_, rfl, hle⟩
  | getOutput size =>
    simp only [DecoderCall.fed, bytesBits, List.flatMap_nil, List.nil_append] at h
    simp only [DecoderCall.fed, List.length_nil, Nat.add_zero]
    simp only [Decoder.call, Decoder.getOutput]
    cases hpe : d.pending.isEmpty with
    | true => simp only [↓reduceIte]; exact ⟨_, rfl, Nat.le_refl _⟩
    | false =>
      simp only [Bool.false_eq_true, ↓reduceIte]
      have hmem : d.pending ∈ outs := by
        have := (h.prefix hc).subset
        exact this (by simp [Decoder.pendings, hpe])
      obtain ⟨s0, hs0⟩ := hout _ hmem
      have hw := C32_exact_buffer _ _ _ size _ hs0 (hsize size rfl _ hmem)
      simp only [hw]
      have hr := h.take hpe
      obtain ⟨d', hd⟩ := hr.decodeOne_ok hg0 hT hc (eos := d.fromDescriptors || d.ended) (by rw [h.settings.2]; simp)
      have hle := decodeOne_src (eos := d.fromDescriptors || d.ended) hr.fit
      simp only [hd] at hle ⊢
      exact ⟨_, rfl, hle⟩
  | signalEnd =>
    simp only [DecoderCall.fed, bytesBits, List.flatMap_nil, List.nil_append] at h
    simp only [DecoderCall.fed, List.length_nil, Nat.add_zero]
    have hQ := hend rfl
    subst hQ
    have hr := h.atEnd
    simp only [Decoder.call, Decoder.signalEnd]
    split
    next d' hx =>
      split at hx
      · have hle := decodeOne_src (eos := true) hr.fit
        rw [hx] at hle
        exact ⟨_, rfl, hle⟩
      · simp only [Prod.mk.injEq, true_and] at hx
        subst hx
        exact ⟨_, rfl, Nat.le_refl _⟩
    next e d' hx =>
      exfalso
      split at hx
      · obtain ⟨d'', hd⟩ := hr.decodeOne_ok hg0 hT hc (eos := true) (fun _ => rfl)
        rw [hd] at hx
        simp at hx
      · simp at hx

/-- Histories without `Decode` after the end has been signalled, seen from a decoder that is at the end or not. -/
def Orderly (ended : Bool) : List DecoderCall → Prop
  | [] => True
  | .decode _ :: cs => ended = false ∧ Orderly ended cs
  | .getOutput _ :: cs => Orderly ended cs
  | .signalEnd :: cs => Orderly true cs

theorem Orderly.cons {ended : Bool} {c : DecoderCall} {cs : List DecoderCall} (h : Orderly ended (c :: cs)) :
    (∀ bytes, c = .decode bytes → ended = false) ∧ Orderly (ended || decide (c = .signalEnd)) cs := by
  cases c with
  | decode b => exact ⟨fun _ _ => h.1, by simpa using h.2⟩
  | getOutput s => exact ⟨by simp, by simpa [Orderly] using h⟩
  | signalEnd => exact ⟨by simp, by simpa [Orderly] using h⟩

theorem Orderly.fed {cs : List DecoderCall} (h : Orderly true cs) : cs.flatMap (·.fed) = [] := by
  induction cs with
  | nil => rfl
  | cons c cs ih =>
    have h2 := h.cons
    rw [List.flatMap_cons, ih (by simpa using h2.2), List.append_nil]
    cases c with
    | decode b => simp at h2
    | getOutput s => rfl
    | signalEnd => rfl

theorem Running.calls_ok {p0 p : Processor B} {T Q : Bits} {taken outs : List Rendered} {d : Decoder B} (cs : List DecoderCall)
    (h : Running p0 p T (bytesBits (cs.flatMap (·.fed)) ++ Q) taken d) (hg0 : p0.state.Good) (hT : T.length < 8 * 4294967295)
    (hc : Complete p0 T outs) (hend : .signalEnd ∈ cs → Q = []) (hord : Orderly d.ended cs)
    (hsmall : d.buffer.src.length + (cs.flatMap (·.fed)).length ≤ 4194304)
    (hout : ∀ x ∈ outs, ∃ size, writeFrameToSpan x d.settings.sampleType size = .ok (pcmOf d.settings.sampleType x))
    (hsize : ∀ size, .getOutput size ∈ cs → ∀ x ∈ outs, (pcmOf d.settings.sampleType x).length ≤ size) :
    ∀ r ∈ (d.calls cs).1, ∃ o, r = .ok o := by
  induction cs generalizing p taken d with
  | nil => simp [Decoder.calls]
  | cons c cs ih =>
    obtain ⟨o1, o2⟩ := hord.cons
    simp only [List.flatMap_cons, bytesBits_append, List.append_assoc, List.length_append] at h hsmall
    have hQ : c = .signalEnd → bytesBits (cs.flatMap (·.fed)) ++ Q = [] := by
      rintro rfl
      rw [hend (by simp), Orderly.fed (by simpa using o2)]
      rfl
    obtain ⟨o, ho, hsrc⟩ := h.call_ok hg0 hT hc hQ o1 (by omega) hout (fun size hs => hsize size (by simp [hs]))
    obtain ⟨p', more, r1, r2, -, r4, -⟩ := h.call hQ (Prod.ext ho rfl)
    simp only [Decoder.calls, List.mem_cons, forall_eq_or_imp]
    refine ⟨⟨o, ho⟩, ih r1 (fun hm => hend (by simp [hm])) (by rw [r4]; exact o2) (by omega) (by rw [r2]; exact hout) ?_⟩
    intro size hs
    rw [r2]
    exact hsize size (by simp [hs])

/-! ### Descriptors -/

private theorem seek_ok (s : RS) (p : Nat) (hv : s.valid = true) (hp : p ≤ s.src.length) :
    s.seek (p : Int) = (.ok (), ⟨s.src, p, true⟩) := by
  unfold RS.seek
  simp only [hv, Bool.not_true, Bool.false_eq_true, ↓reduceIte, Int.toNat_natCast]
  rw [if_neg (by omega), if_neg (by omega)]

/-- `CreateObuProcessor` up to `Flush` does not fail when parsing does not and the processor can be set up. -/
private theorem createProcessor_ok {s : DecoderSettings} {P : List UInt8} {v : Bool} {r : Option Descriptors} (hP : P.length ≤ 4194304)
    (h : ((parseDescriptors false).runA ⟨bytesBits P, 0, true⟩).1 = .ok r) (hi : ∀ x, r = some x → ∃ p : Processor B, initAll s x = .ok p) :
    ∃ y, ((createProcessor (B := B) s false).runA ⟨bytesBits P, 0, v⟩).1 = .ok y := by
  unfold createProcessor
  simp only [Rd.runA]
  have he := parse_ends false (bytesBits P) 0 true (Nat.zero_le _) (by rw [bytesBits_length]; omega)
  have hv := Rd.runA_valid (parseDescriptors false) ⟨bytesBits P, 0, true⟩ rfl
  match hx : (parseDescriptors false).runA ⟨bytesBits P, 0, true⟩ with
  | (.error e, s1) => rw [hx] at h; simp at h
  | (.ok none, s1) => simp only [Bool.false_eq_true, ↓reduceIte, Rd.runA]; exact ⟨_, rfl⟩
  | (.ok (some x), s1) =>
    rw [hx] at h he hv
    simp only [Except.ok.injEq] at h hv
    obtain ⟨-, -, a3, -, a5, a6, -⟩ := he.done x rfl
    simp only at a3 a5 a6
    obtain ⟨p, hp⟩ := hi x h.symm
    simp only [hp, Rd.runA]
    rw [seek_ok ⟨s1.src, s1.pos, true⟩ 0 rfl (Nat.zero_le _)]
    simp only [Rd.runA_bind]
    obtain ⟨k, hk⟩ : ∃ k, s1.pos = 8 * k := ⟨s1.pos / 8, by omega⟩
    rw [bytesBits_length] at a5
    have hn : (((s1.pos : Int) - ((0 : Nat) : Int)) / 8).toNat = (P.take k).length := by rw [List.length_take]; omega
    rw [hn]
    obtain ⟨w, hw, hw2⟩ := reads_bytes (P.take k) ⟨s1.src, 0, true⟩ (Nat.zero_le _) (by
      simp only [RS.rest, List.drop_zero, a3]
      rw [← bytesBits_take]
      exact List.take_prefix _ _)
    rw [hw]
    exact ⟨_, rfl⟩

theorem Waiting.call_ok {P : List UInt8} {d : Decoder B} {c : DecoderCall} {r : Option Descriptors} (h : Waiting P d)
    (hdec : ∀ bytes, c = .decode bytes → d.ended = false) (hsmall : (P ++ c.fed).length ≤ 4194304)
    (hr : ((parseDescriptors false).runA ⟨bytesBits (P ++ c.fed), 0, true⟩).1 = .ok r)
    (hi : ∀ x, r = some x → ∃ p : Processor B, initAll d.settings x = .ok p) :
    ∃ o, (d.call c).1 = .ok o ∧ (d.call c).2.buffer.src.length ≤ (P ++ c.fed).length := by
  cases c with
  | decode bytes =>
    simp only [DecoderCall.fed] at hsmall hr ⊢
    have hne := hdec bytes rfl
    obtain ⟨b, h1, h2, h3, h4, h5⟩ := push_refines bytes d.buffer h.fit.wf h.fit.cap
      (by simp only [kEntireObuSizeMaxTwoMegabytes]; rw [h.src]; rw [List.length_append] at hsmall; omega)
    obtain ⟨f1, f2, f3⟩ := h.fit.push h1
    rw [h.src] at f2
    have habs : b.abs = ⟨bytesBits (P ++ bytes), 0, b.abs.valid⟩ := by
      have h1 : b.abs.pos = 0 := by rw [f3]; exact h.pos
      have h2 : b.abs.src = bytesBits (P ++ bytes) := by simp only [RBuf.abs, f2]
      rw [← h1, ← h2]
    obtain ⟨y, hy⟩ := createProcessor_ok (B := B) (s := d.settings) (v := b.abs.valid) hsmall hr hi
    rw [← habs] at hy
    obtain ⟨q1, -, -, q4⟩ := (createProcessor (B := B) d.settings false).run_refines b f1.wf
    have qf := f1.run (createProcessor (B := B) d.settings false)
    simp only [Decoder.call, Decoder.decode, hne, Bool.false_eq_true, ↓reduceIte, h1, h.processor, Decoder.setUp, h.settings.2]
    match hx : (createProcessor (B := B) d.settings false).run b with
    | (.error e, b1) => rw [hx, hy] at q1; simp at q1
    | (.ok none, b1) =>
      rw [hx] at q4
      simp only at q4 ⊢
      exact ⟨_, rfl, by rw [q4, f2]⟩
    | (.ok (some (p, bs)), b1) =>
      rw [hx] at q4 qf
      simp only at q4 qf
      obtain ⟨b2, c1, -, c3, -⟩ := flush_refines b1 qf.wf
      simp only [c1]
      refine ⟨_, rfl, ?_⟩
      rw [c3, List.length_drop, q4, f2]; omega
  | getOutput size =>
    simp only [Decoder.call, Decoder.getOutput, h.pending, List.isEmpty_nil, ↓reduceIte, DecoderCall.fed, List.append_nil, h.src]
    exact ⟨_, rfl, Nat.le_refl _⟩
  | signalEnd =>
    simp only [Decoder.call, Decoder.signalEnd, h.processor, Option.isSome_none, Bool.and_false, Bool.false_eq_true,
      ↓reduceIte, DecoderCall.fed, List.append_nil, h.src]
    exact ⟨_, rfl, Nat.le_refl _⟩

/-- A history of a decoder that waits for descriptors. -/
theorem Waiting.calls_ok {S P E : List UInt8} {x : Descriptors} {k : Nat} {d : Decoder B} {p0 : Processor B} {outs : List Rendered}
    (cs : List DecoderCall) (hS : S = P ++ (cs.flatMap (·.fed) ++ E)) (hsmall : S.length ≤ 4194304)
    (hpart : ∀ P, P <+: S → ∃ r, ((parseDescriptors false).runA ⟨bytesBits P, 0, true⟩).1 = .ok r ∧ (∀ y, r = some y →
      y = x ∧ ((parseDescriptors false).runA ⟨bytesBits P, 0, true⟩).2.pos = 8 * k))
    (h : Waiting P d) (hi : initAll d.settings x = .ok p0) (hc : Complete p0 (bytesBits (S.drop k)) outs)
    (hend : .signalEnd ∈ cs → E = []) (hord : Orderly d.ended cs)
    (hout : ∀ x ∈ outs, ∃ size, writeFrameToSpan x d.settings.sampleType size = .ok (pcmOf d.settings.sampleType x))
    (hsize : ∀ size, .getOutput size ∈ cs → ∀ x ∈ outs, (pcmOf d.settings.sampleType x).length ≤ size) :
    ∀ r ∈ (d.calls cs).1, ∃ o, r = .ok o := by
  induction cs generalizing P d with
  | nil => simp [Decoder.calls]
  | cons c cs ih =>
    obtain ⟨o1, o2⟩ := hord.cons
    have hS2 : S = (P ++ c.fed) ++ (cs.flatMap (·.fed) ++ E) := by
      rw [hS]; simp only [List.flatMap_cons, List.append_assoc]
    have hlen := congrArg List.length hS2
    rw [List.length_append] at hlen
    obtain ⟨r, hr1, hr2⟩ := hpart (P ++ c.fed) ⟨_, hS2.symm⟩
    obtain ⟨o, ho, hsrc⟩ := h.call_ok o1 (by omega) hr1 (fun y hy => by rw [(hr2 y hy).1]; exact ⟨p0, hi⟩)
    obtain ⟨rfl, hset, hended, -, hcase⟩ := h.call (Prod.ext ho rfl)
    simp only [Decoder.calls, List.mem_cons, forall_eq_or_imp]
    refine ⟨⟨_, ho⟩, ?_⟩
    rcases hcase with hw | ⟨p, y, j, -, a1, a2, a3, a4, a5⟩
    · exact ih hS2 hw (by rw [hset]; exact hi) (fun hm => hend (by simp [hm])) (by rw [hended]; exact o2)
        (by rw [hset]; exact hout) (fun size hs => by rw [hset]; exact hsize size (by simp [hs]))
    · rw [hr1] at a1
      simp only [Except.ok.injEq] at a1
      obtain ⟨rfl, hj⟩ := hr2 y a1
      have hjk : j = k := by omega
      subst hjk
      rw [hi] at a4
      simp only [Except.ok.injEq] at a4
      subst a4
      have hle : j ≤ (P ++ c.fed).length := by
        have := (parse_ends false (bytesBits (P ++ c.fed)) 0 true (Nat.zero_le _) (by rw [bytesBits_length]; omega)).done y (by rw [hr1, a1])
        rw [a2, bytesBits_length] at this
        omega
      have hdata : bytesBits ((P ++ c.fed).drop j) ++ (bytesBits (cs.flatMap (·.fed)) ++ bytesBits E) = bytesBits (S.drop j) := by
        rw [hS2, List.drop_append_of_le_length hle, bytesBits_append, bytesBits_append]
      have hrun := a5 (bytesBits (cs.flatMap (·.fed)) ++ bytesBits E)
      rw [hdata] at hrun
      simp only [List.length_append] at hlen hsrc
      refine hrun.calls_ok cs (initAll_good hi) (by rw [bytesBits_length, List.length_drop]; omega) hc
        (fun hm => by rw [hend (by simp [hm])]; rfl) (by rw [hended]; exact o2)
        (Nat.le_trans (Nat.add_le_add_right hsrc _) (by omega))
        (by rw [hset]; exact hout) (fun size hs => by rw [hset]; exact hsize size (by simp [hs]))

/-! ### Getting everything out -/

theorem Decoder.calls_append (a b : List DecoderCall) (d : Decoder B) :
    d.calls (a ++ b) = ((d.calls a).1 ++ ((d.calls a).2.calls b).1, ((d.calls a).2.calls b).2) := by
  induction a generalizing d with
  | nil => simp [Decoder.calls]
  | cons c a ih => simp only [List.cons_append, Decoder.calls, ih]

/-- Signalling the end and asking for output. -/
def endRound (size : Nat) : List DecoderCall := [.signalEnd, .getOutput size]

private theorem pcm_given (o : List UInt8) : ([Except.ok o] : List (Except Err (List UInt8))).filterMap (fun r => r.toOption.filter (!·.isEmpty)) =
    [o].filter (!·.isEmpty) := by
  cases o <;> simp [Option.filter, Except.toOption]

/-- A round gets on: it consumes data, or gets to the end of it. -/
private theorem Running.round {p0 p : Processor B} {T : Bits} {taken outs : List Rendered} {d : Decoder B} {size : Nat}
    (h : Running p0 p T [] taken d) (hg0 : p0.state.Good) (hT : T.length < 8 * 4294967295) (hc : Complete p0 T outs)
    (hsmall : d.buffer.src.length ≤ 4194304)
    (hout : ∀ x ∈ outs, ∃ size, writeFrameToSpan x d.settings.sampleType size = .ok (pcmOf d.settings.sampleType x))
    (hsize : ∀ x ∈ outs, (pcmOf d.settings.sampleType x).length ≤ size) :
    ∃ p' more, Running p0 p' T [] (taken ++ more) (d.calls (endRound size)).2 ∧
      (d.calls (endRound size)).2.settings = d.settings ∧
      (d.calls (endRound size)).1.filterMap (fun r => r.toOption.filter (!·.isEmpty)) =
        (more.map (pcmOf d.settings.sampleType)).filter (!·.isEmpty) ∧
      ((d.calls (endRound size)).2.buffer.abs.rest.length + 8 ≤ d.buffer.abs.rest.length ∨
        taken ++ more ++ (d.calls (endRound size)).2.pendings = outs) ∧
      (taken ++ d.pendings = outs → taken ++ more = outs) := by
  simp only [endRound, Decoder.calls]
  have hfil : ∀ a b : Except Err (List UInt8), [a, b].filterMap (fun r => r.toOption.filter (!·.isEmpty)) =
      [a].filterMap (fun r => r.toOption.filter (!·.isEmpty)) ++ [b].filterMap (fun r => r.toOption.filter (!·.isEmpty)) :=
    fun a b => by rw [← List.filterMap_append]; rfl
  rw [hfil]
  have hend := h.atEnd
  cases hpe : d.pending.isEmpty with
  | true =>
    have hpn : d.pending = [] := by simpa using hpe
    obtain ⟨d1, hd1⟩ := hend.decodeOne_ok hg0 hT hc (eos := true) (fun _ => rfl)
    obtain ⟨p1, r1, r2, -, r4, r5⟩ := hend.decodeOne hpn (fun _ => rfl) hd1
    have hcall1 : d.call .signalEnd = (.ok [], d1) := by
      simp only [Decoder.call, Decoder.signalEnd, h.settings.2, hpe, h.processor, Option.isSome_some, Bool.not_false, Bool.true_and,
        ↓reduceIte]
      have : ({ d with ended := true } : Decoder B) = ⟨d.settings, false, d.buffer, some p, d.pending, true, d.reorderer, d.descriptors⟩ := by
        rw [← h.settings.2, ← h.processor]
      rw [← this, hd1]
    simp only at r4 r5
    rw [hcall1]
    simp only
    have hshrink : d1.buffer.abs.rest.length ≤ d.buffer.abs.rest.length := by
      obtain ⟨p', u, hone⟩ := decodeOne_spec hend.processor hend.fit hend.good hend.settings.1 hd1
      obtain ⟨k, us', st1', hk, halt⟩ := hone.steps
      rcases halt with ⟨-, -, a⟩ | ⟨-, -, a, -⟩
      · simp only at a; omega
      · exact a
    cases hpe1 : d1.pending.isEmpty with
    | true =>
      have hcall2 : d1.call (.getOutput size) = (.ok [], d1) := by simp only [Decoder.call, Decoder.getOutput, hpe1, ↓reduceIte]
      rw [hcall2]
      refine ⟨p1, [], by rw [List.append_nil]; exact r1, r4, rfl, ?_, ?_⟩
      · rcases r5 with r5 | r5
        · exact .inl r5
        · right; rw [List.append_nil]; exact (r5 trivial).unique hc
      · intro he
        simpa [Decoder.pendings, hpe] using he
    | false =>
      have hp1 : d1.pendings = [d1.pending] := by simp [Decoder.pendings, hpe1]
      have hmem : d1.pending ∈ outs := (r1.prefix hc).subset (by simp [hp1])
      obtain ⟨s0, hs0⟩ := hout _ hmem
      have hw := C32_exact_buffer _ _ _ size _ hs0 (hsize _ hmem)
      rw [← r4] at hw
      have hr := r1.take hpe1
      obtain ⟨d2, hd2⟩ := hr.decodeOne_ok hg0 hT hc (eos := d1.fromDescriptors || d1.ended) (by rw [r1.settings.2]; simp)
      obtain ⟨p2, q1, q2, -, q4, q5⟩ := hr.decodeOne rfl (by rw [r1.settings.2]; simp) hd2
      have hcall2 : d1.call (.getOutput size) = (.ok (pcmOf d1.settings.sampleType d1.pending), d2) := by
        simp only [Decoder.call, Decoder.getOutput, hpe1, Bool.false_eq_true, ↓reduceIte, hw, hd2]
      rw [hcall2]
      simp only
      have hall : taken ++ [d1.pending] <+: outs := by
        have := r1.prefix hc
        rw [hp1] at this
        exact this
      refine ⟨p2, [d1.pending], q1, q4.trans r4, by rw [pcm_given, pcm_given, r4]; rfl, ?_, ?_⟩
      · have e2 : (d1.fromDescriptors || d1.ended) = true := by rw [r2]; simp
        rcases q5 with q5 | q5
        · left; simp only at q5; omega
        · right; exact (q5 e2).unique hc
      · intro he
        exfalso
        rw [show d.pendings = [] by simp [Decoder.pendings, hpe], List.append_nil] at he
        have := hall.length_le
        rw [← he, List.length_append] at this
        simp at this
  | false =>
    have hp0 : d.pendings = [d.pending] := by simp [Decoder.pendings, hpe]
    have hcall1 : d.call .signalEnd = (.ok [], { d with ended := true }) := by
      simp only [Decoder.call, Decoder.signalEnd, hpe, Bool.and_false, Bool.false_and, Bool.false_eq_true, ↓reduceIte]
    rw [hcall1]
    simp only
    have hmem : d.pending ∈ outs := (h.prefix hc).subset (by simp [hp0])
    obtain ⟨s0, hs0⟩ := hout _ hmem
    have hw := C32_exact_buffer _ _ _ size _ hs0 (hsize _ hmem)
    have hr := hend.take hpe
    obtain ⟨d2, hd2⟩ := hr.decodeOne_ok hg0 hT hc (eos := d.fromDescriptors || true) (by simp)
    obtain ⟨p2, q1, q2, -, q4, q5⟩ := hr.decodeOne rfl (by simp) hd2
    have hcall2 : ({ d with ended := true } : Decoder B).call (.getOutput size) = (.ok (pcmOf d.settings.sampleType d.pending), d2) := by
      simp only [Decoder.call, Decoder.getOutput, hpe, Bool.false_eq_true, ↓reduceIte, hw, hd2]
    rw [hcall2]
    simp only
    refine ⟨p2, [d.pending], q1, q4, by rw [pcm_given, pcm_given]; rfl, ?_, ?_⟩
    · rcases q5 with q5 | q5
      · exact .inl q5
      · right; exact (q5 (by simp)).unique hc
    · intro he
      rw [← hp0]; exact he

theorem Running.rounds {p0 p : Processor B} {T : Bits} {taken outs : List Rendered} {d : Decoder B} {size : Nat} (n : Nat)
    (h : Running p0 p T [] taken d) (hg0 : p0.state.Good) (hT : T.length < 8 * 4294967295) (hc : Complete p0 T outs)
    (hout : ∀ x ∈ outs, ∃ size, writeFrameToSpan x d.settings.sampleType size = .ok (pcmOf d.settings.sampleType x))
    (hsize : ∀ x ∈ outs, (pcmOf d.settings.sampleType x).length ≤ size)
    (hn : d.buffer.abs.rest.length + 16 ≤ 8 * n ∨ (taken ++ d.pendings = outs ∧ 1 ≤ n) ∨ taken = outs) :
    ∃ more, taken ++ more = outs ∧
      (d.calls (List.replicate n (endRound size)).flatten).1.filterMap (fun r => r.toOption.filter (!·.isEmpty)) =
        (more.map (pcmOf d.settings.sampleType)).filter (!·.isEmpty) := by
  induction n generalizing p taken d with
  | zero =>
    rcases hn with hn | ⟨-, hn⟩ | hn
    · omega
    · omega
    · exact ⟨[], by rw [List.append_nil]; exact hn, rfl⟩
  | succ n ih =>
    obtain ⟨p', more, r1, r2, r3, r4, r5⟩ := h.round (size := size) hg0 hT hc h.fit.small hout hsize
    rw [List.replicate_succ, List.flatten_cons, Decoder.calls_append, List.filterMap_append, r3]
    have hnext : (d.calls (endRound size)).2.buffer.abs.rest.length + 16 ≤ 8 * n ∨
        (taken ++ more ++ (d.calls (endRound size)).2.pendings = outs ∧ 1 ≤ n) ∨ taken ++ more = outs := by
      have hpre := r1.prefix hc
      rcases hn with hn | ⟨hn, -⟩ | hn
      · rcases r4 with r4 | r4
        · left; omega
        · right; left; exact ⟨r4, by omega⟩
      · exact .inr (.inr (r5 hn))
      · right; right
        have := hpre.length_le
        rw [← hn] at this
        simp only [List.length_append] at this
        have hm : more = [] := List.eq_nil_of_length_eq_zero (by omega)
        rw [hm, List.append_nil]; exact hn
    obtain ⟨more2, m1, m2⟩ := ih r1 (by rw [r2]; exact hout) (by rw [r2]; exact hsize) hnext
    refine ⟨more ++ more2, by rw [← List.append_assoc]; exact m1, ?_⟩
    rw [m2, r2, List.map_append, List.filter_append]

private theorem decodeOne_settings (eos : Bool) (d : Decoder B) : (d.decodeOne eos).2.settings = d.settings := by
  unfold Decoder.decodeOne
  split
  · rfl
  · split
    · rfl
    · rfl
    · rfl
    · split
      · rfl
      · split
        · rfl
        · rfl

theorem Decoder.call_settings (c : DecoderCall) (d : Decoder B) : (d.call c).2.settings = d.settings := by
  have set_up : ∀ d : Decoder B, d.setUp.2.settings = d.settings := by
    intro d
    unfold Decoder.setUp
    split
    · rfl
    · rfl
    · split <;> rfl
  cases c with
  | signalEnd =>
    have : d.signalEnd.2.settings = d.settings := by
      unfold Decoder.signalEnd
      simp only
      split
      · rw [decodeOne_settings]
      · rfl
    simp only [Decoder.call]
    split <;> simp_all
  | decode bytes =>
    have hd : (d.decode bytes).2.settings = d.settings := by
      unfold Decoder.decode
      split
      · rfl
      · split
        · rfl
        · split
          · have := fun b => set_up { d with buffer := b }
            split <;> rename_i hx <;> [have := hx ▸ this _; have := hx ▸ this _] <;> exact this
          · simp only
            split
            · rw [decodeOne_settings]
            · rfl
    simp only [Decoder.call]
    split <;> simp_all
  | getOutput size =>
    simp only [Decoder.call, Decoder.getOutput]
    split
    · rfl
    · have key : ∀ d1 : Decoder B, d1.settings = d.settings → ∀ eos w,
          (match d1.decodeOne eos with
            | (.error e, d) => (Except.error e, d)
            | (.ok (), d) => ((w : Except Err (List UInt8)), d)).2.settings = d.settings := fun d1 h1 eos w => by
        have := decodeOne_settings eos d1
        split <;> simp_all
      exact key _ (by split <;> rfl) _ _

end Iamf
