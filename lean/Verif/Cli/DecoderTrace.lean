import Verif.Cli.ProcessorTrace
import Verif.Cli.Decoder
/-
  Calls of the decoder as steps on the data that is left.
-/
namespace Iamf
open Iamf.Props

variable {B : Backend}

/-- Rendering units one after the other, if none of them fails. -/
def renderAll (rs : B.State) : List OutputUnit → Option (List Rendered × B.State)
  | [] => some ([], rs)
  | u :: us => match Decoder.render rs u with
    | (.ok x, rs1) => match renderAll rs1 us with
      | some (xs, rs2) => some (x :: xs, rs2)
      | none => none
    | _ => none

theorem renderAll_append (rs : B.State) (us vs : List OutputUnit) :
    renderAll rs (us ++ vs) = match renderAll rs us with
      | none => none
      | some (xs, rs1) => match renderAll rs1 vs with
        | none => none
        | some (ys, rs2) => some (xs ++ ys, rs2) := by
  induction us generalizing rs with
  | nil =>
    simp only [List.nil_append, renderAll]
    split <;> simp_all
  | cons u us ih =>
    simp only [List.cons_append, renderAll]
    match Decoder.render rs u with
    | (.error e, rs1) => rfl
    | (.ok x, rs1) =>
      simp only [ih]
      match renderAll rs1 us with
      | none => rfl
      | some (xs, rs2) =>
        simp only
        match renderAll rs2 vs with
        | none => rfl
        | some (ys, rs3) => rfl

/-- The samples that are not empty: only these are made available. -/
def sounding (xs : List Rendered) : List Rendered := xs.filter fun x => !x.isEmpty

theorem sounding_append (xs ys : List Rendered) : sounding (xs ++ ys) = sounding xs ++ sounding ys := List.filter_append ..

/-- The buffer of a decoder: `kInitialBufferSize` is positive and `PushBytes` refuses what does not fit. -/
structure RBuf.Fit (r : RBuf) : Prop where
  wf : r.WF
  cap : 0 < r.buf.length
  small : r.src.length ≤ 4194304

theorem RBuf.Fit.rest {r : RBuf} (h : r.Fit) : r.abs.rest.length < 8 * 4294967295 := by
  have := h.small
  simp only [RS.rest, RBuf.abs, List.length_drop, bytesBits_length]
  omega

theorem RBuf.Fit.pos {r : RBuf} (h : r.Fit) : r.abs.pos ≤ r.abs.src.length := by
  have h1 := r.tell_le h.wf
  have h2 := h.wf.srcSize_eq
  simp only [RBuf.abs, bytesBits_length]
  omega

theorem RBuf.Fit.run {α : Type} {r : RBuf} (h : r.Fit) (p : Rd α) : (p.run r).2.Fit := by
  obtain ⟨-, q2, -, q4⟩ := p.run_refines r h.wf
  exact ⟨q2, by rw [p.run_cap r]; exact h.cap, by rw [q4]; exact h.small⟩

theorem RBuf.Fit.flush {r : RBuf} (h : r.Fit) : ∃ r', r.flush = (.ok (), r') ∧ r'.Fit ∧ r'.abs.rest = r.abs.rest := by
  obtain ⟨r', h1, h2, h3, h4, -, h6⟩ := flush_refines r h.wf
  refine ⟨r', h1, ⟨h2, by rw [h4]; exact h.cap, ?_⟩, h6⟩
  have := h.small
  rw [h3, List.length_drop]; omega

theorem RBuf.Fit.push {r r' : RBuf} {bytes : List UInt8} (h : r.Fit) (hp : r.pushBytes bytes = (.ok (), r')) :
    r'.Fit ∧ r'.src = r.src ++ bytes ∧ r'.abs = { r.abs with src := r.abs.src ++ bytesBits bytes } := by
  rcases Nat.lt_or_ge (2 * kEntireObuSizeMaxTwoMegabytes) (r.src.length + bytes.length) with hl | hl
  · rw [push_full bytes r hl] at hp; simp at hp
  · obtain ⟨r1, h1, h2, h3, h4, h5⟩ := push_refines bytes r h.wf h.cap hl
    rw [h1] at hp
    simp only [Prod.mk.injEq, true_and] at hp
    subst hp
    refine ⟨⟨h2, by rw [h4]; exact h.cap, ?_⟩, h3, h5⟩
    rw [h3, List.length_append]
    simp only [kEntireObuSizeMaxTwoMegabytes] at hl
    omega

theorem RBuf.Fit.create (pv : Bool) : (RBuf.create Decoder.kInitialBufferSize [] pv).Fit :=
  ⟨RBuf.wf_create _ _ _ (.inr rfl), by simp only [RBuf.create, List.length_replicate]; decide, by simp [RBuf.create]⟩

/-- One call of `DecodeOneTemporalUnit` that returns OK. -/
structure DecodedOne (eos : Bool) (d d' : Decoder B) (p p' : Processor B) (u : Option OutputUnit) : Prop where
  processor : d'.processor = some p'
  context : p'.context = p.context
  layout : p'.layout = p.layout
  same : d'.settings = d.settings ∧ d'.fromDescriptors = d.fromDescriptors ∧ d'.ended = d.ended ∧ d'.reorderer = d.reorderer
  fit : d'.buffer.Fit
  steps : ∃ n us st1, (∀ F, steps p.context n p.state (d.buffer.abs.rest ++ F) = some (us, st1, d'.buffer.abs.rest ++ F)) ∧
      ((us = u.toList ∧ p'.state = st1 ∧ d'.buffer.abs.rest.length + 8 ≤ d.buffer.abs.rest.length) ∨
       (us = [] ∧ Stuck p.context st1 d'.buffer.abs.rest ∧ d'.buffer.abs.rest.length ≤ d.buffer.abs.rest.length ∧
        (u, p'.state) = if eos then flushUnit st1 else (none, st1)))
  rendered : match u with
    | none => p'.renderer = p.renderer ∧ d'.pending = d.pending
    | some w => Decoder.render p.renderer w = (.ok d'.pending, p'.renderer)

theorem reordered_id {d : Decoder B} (h : d.settings.android = false) (x : Rendered) : d.reordered x = .ok x := by
  unfold Decoder.reordered
  split
  · rfl
  · simp [reorderChannels, h]

theorem decodeOne_spec {eos : Bool} {d d' : Decoder B} {p : Processor B} (hp : d.processor = some p) (hf : d.buffer.Fit)
    (hg : p.state.Good) (ha : d.settings.android = false) (h : Decoder.decodeOne eos d = (.ok (), d')) :
    ∃ p' u, DecodedOne eos d d' p p' u := by
  unfold Decoder.decodeOne at h
  rw [hp] at h
  simp only at h
  have hfit := hf.run (processUnit p.context eos p.state)
  obtain ⟨q1, -, q3, -⟩ := (processUnit p.context eos p.state).run_refines d.buffer hf.wf
  match hx : (processUnit p.context eos p.state).run d.buffer with
  | (.error e, b) => rw [hx] at h; simp at h
  | (.ok (.error e, st), b) => rw [hx] at h; simp at h
  | (.ok (.ok (u, cont), st), b) =>
    rw [hx] at h q1 q3 hfit
    simp only at q1 q3 hfit
    obtain ⟨b', hb1, hb2, hb3⟩ := hfit.flush
    have hrun : (processUnit p.context eos p.state).runA d.buffer.abs = (.ok (.ok (u, cont), st), b.abs) := by
      rw [q1, q3]
    unfold processUnit at hrun
    simp only [Rd.runA] at hrun
    obtain ⟨n, us, st1, h1, h2⟩ := loop_steps hf.pos hf.rest hrun (Good.nextTimestamp hg)
    have key : ∃ n us st1, (∀ F, steps p.context n p.state (d.buffer.abs.rest ++ F) = some (us, st1, b'.abs.rest ++ F)) ∧
      ((us = u.toList ∧ st = st1 ∧ b'.abs.rest.length + 8 ≤ d.buffer.abs.rest.length) ∨
       (us = [] ∧ Stuck p.context st1 b'.abs.rest ∧ b'.abs.rest.length ≤ d.buffer.abs.rest.length ∧
        (u, st) = if eos then flushUnit st1 else (none, st1))) := by
      rw [hb3]
      refine ⟨n, us, st1, h1, ?_⟩
      rcases h2 with ⟨-, a, b, c⟩ | ⟨-, a, b, c, e⟩
      · exact .inl ⟨a, b, c⟩
      · exact .inr ⟨a, b, c, e⟩
    match u with
    | none =>
      simp only [hb1, Prod.mk.injEq, true_and] at h
      subst h
      exact ⟨_, none, ⟨rfl, rfl, rfl, ⟨rfl, rfl, rfl, rfl⟩, hb2, key, ⟨rfl, rfl⟩⟩⟩
    | some w =>
      simp only at h
      match hr : Decoder.render p.renderer w with
      | (.error e, rs) => rw [hr] at h; simp at h
      | (.ok x, rs) =>
        rw [hr] at h
        simp only [reordered_id ha, hb1, Prod.mk.injEq, true_and] at h
        subst h
        exact ⟨_, some w, ⟨rfl, rfl, rfl, ⟨rfl, rfl, rfl, rfl⟩, hb2, key, hr⟩⟩

/-! ### A decoder that has its descriptors -/

/-- The samples that are available. -/
def Decoder.pendings (d : Decoder B) : List Rendered := if d.pending.isEmpty then [] else [d.pending]

theorem sounding_pending (d : Decoder B) : sounding [d.pending] = d.pendings := by
  unfold sounding Decoder.pendings
  cases h : d.pending.isEmpty <;> simp [h]

/-- A decoder that started from `p0` on the data `T`, of which `Q` has not arrived yet, and gave out `taken`. -/
structure Running (p0 p : Processor B) (T Q : Bits) (taken : List Rendered) (d : Decoder B) : Prop where
  processor : d.processor = some p
  context : p.context = p0.context
  fit : d.buffer.Fit
  good : p.state.Good
  settings : d.settings.android = false ∧ d.fromDescriptors = false
  ended : d.ended = true → Q = []
  trace : ∃ n us st1 ws xs, steps p0.context n p0.state T = some (us, st1, d.buffer.abs.rest ++ Q) ∧
    ((p.state = st1 ∧ ws = []) ∨
      (d.ended = true ∧ Stuck p0.context st1 d.buffer.abs.rest ∧ st1.Good ∧ ∃ w, flushUnit st1 = (some w, p.state) ∧ ws = [w])) ∧
    renderAll p0.renderer (us ++ ws) = some (xs, p.renderer) ∧ sounding xs = taken ++ d.pendings

/-- All that there is to give out for the data `T`. -/
def Complete (p0 : Processor B) (T : Bits) (outs : List Rendered) : Prop :=
  ∃ n us st1 r xs rs, steps p0.context n p0.state T = some (us, st1, r) ∧ Stuck p0.context st1 r ∧
    renderAll p0.renderer (us ++ (flushUnit st1).1.toList) = some (xs, rs) ∧ sounding xs = outs

theorem Complete.unique {p0 : Processor B} {T : Bits} {o1 o2 : List Rendered} (h1 : Complete p0 T o1) (h2 : Complete p0 T o2) :
    o1 = o2 := by
  obtain ⟨n, us, st1, r, xs, rs, a1, a2, a3, a4⟩ := h1
  obtain ⟨m, vs, st2, r2, ys, rs2, b1, b2, b3, b4⟩ := h2
  obtain ⟨hle, ws, rfl, hw⟩ := steps_stuck a1 a2 b1
  obtain ⟨hle2, -⟩ := steps_stuck b1 b2 a1
  have : n = m := by omega
  subst this
  rw [Nat.sub_self] at hw
  simp only [Iamf.steps, Option.some.injEq, Prod.mk.injEq] at hw
  obtain ⟨rfl, rfl, rfl⟩ := hw
  rw [List.append_nil, b3] at a3
  simp only [Option.some.injEq, Prod.mk.injEq] at a3
  rw [← a4, ← b4, a3.1]

theorem Running.decodeOne {p0 p : Processor B} {T Q : Bits} {taken : List Rendered} {d d' : Decoder B} {eos : Bool}
    (h : Running p0 p T Q taken d) (hpend : d.pending = []) (heos : eos = true → d.ended = true)
    (hd : Decoder.decodeOne eos d = (.ok (), d')) :
    ∃ p', Running p0 p' T Q taken d' ∧ d'.ended = d.ended ∧ p'.layout = p.layout ∧ d'.settings = d.settings ∧
      (d'.buffer.abs.rest.length + 8 ≤ d.buffer.abs.rest.length ∨ (eos = true → Complete p0 T (taken ++ d'.pendings))) := by
  obtain ⟨p', u, hone⟩ := decodeOne_spec h.processor h.fit h.good h.settings.1 hd
  obtain ⟨k, us', st1', hk, halt⟩ := hone.steps
  obtain ⟨n, us, st1, ws, xs, t1, t2, t3, t4⟩ := h.trace
  have hctx := h.context
  have hsame := hone.same
  have hset : d'.settings.android = false ∧ d'.fromDescriptors = false := by
    rw [hsame.1, hsame.2.1]; exact h.settings
  have hend : d'.ended = true → Q = [] := by rw [hsame.2.2.1]; exact h.ended
  have hpendings : d.pendings = [] := by simp [Decoder.pendings, hpend]
  rw [hpendings, List.append_nil] at t4
  rcases t2 with ⟨rfl, rfl⟩ | ⟨hended, hst, hgood, w, hw, rfl⟩
  · -- the usual case
    rw [List.append_nil] at t3
    have hkQ := hk Q
    rw [hctx] at hkQ hk
    have hsteps : Iamf.steps p0.context (n + k) p0.state T = some (us ++ us', st1', d'.buffer.abs.rest ++ Q) := by
      rw [steps_add, t1]
      simp only [hkQ]
    have hgood1 : st1'.Good := by
      have := hk []
      simp only [List.append_nil] at this
      exact (steps_good h.good h.fit.rest this).1
    -- what is rendered
    have hrend : ∃ ys, renderAll p.renderer u.toList = some (ys, p'.renderer) ∧ sounding ys = d'.pendings := by
      have := hone.rendered
      match u with
      | none => exact ⟨[], by rw [this.1]; rfl, by simp [sounding, Decoder.pendings, this.2, hpend]⟩
      | some w =>
        simp only at this
        exact ⟨[d'.pending], by simp [renderAll, this], sounding_pending d'⟩
    obtain ⟨ys, hy1, hy2⟩ := hrend
    have hall : renderAll p0.renderer (us ++ u.toList) = some (xs ++ ys, p'.renderer) := by
      rw [renderAll_append, t3]
      simp only [hy1]
    have hsound : sounding (xs ++ ys) = taken ++ d'.pendings := by rw [sounding_append, t4, hy2]
    rcases halt with ⟨a1, a2, a3⟩ | ⟨a1, a2, a3, a4⟩
    · subst a1
      refine ⟨p', ⟨hone.processor, hone.context.trans hctx, hone.fit, by rw [a2]; exact hgood1, hset, hend,
        ⟨n + k, _, st1', [], _, hsteps, .inl ⟨a2, rfl⟩, by rw [List.append_nil]; exact hall, hsound⟩⟩,
        hsame.2.2.1, hone.layout, hsame.1, .inl a3⟩
    · subst a1
      rw [List.append_nil] at hsteps
      rw [hctx] at a2
      cases eos with
      | false =>
        simp only [Bool.false_eq_true, ↓reduceIte, Prod.mk.injEq] at a4
        obtain ⟨rfl, a4⟩ := a4
        refine ⟨p', ⟨hone.processor, hone.context.trans hctx, hone.fit, by rw [a4]; exact hgood1, hset, hend,
          ⟨n + k, _, st1', [], _, hsteps, .inl ⟨a4, rfl⟩, hall, hsound⟩⟩,
          hsame.2.2.1, hone.layout, hsame.1, .inr (by simp)⟩
      | true =>
        have hQ := h.ended (heos rfl)
        subst hQ
        simp only [↓reduceIte] at a4
        have hcomplete : Complete p0 T (taken ++ d'.pendings) :=
          ⟨n + k, us, st1', d'.buffer.abs.rest, _, _, by rw [hsteps, List.append_nil], a2, by rw [← a4]; exact hall, hsound⟩
        refine ⟨p', ⟨hone.processor, hone.context.trans hctx, hone.fit, ?_, hset, hend, ?_⟩,
          hsame.2.2.1, hone.layout, hsame.1, .inr fun _ => hcomplete⟩
        · have := Good.flush hgood1
          rw [← a4] at this
          exact this
        · match u with
          | none =>
            have hs : p'.state = st1' := by
              unfold flushUnit at a4
              split at a4
              · simp only [Prod.mk.injEq, true_and] at a4; exact a4
              · simp at a4
            exact ⟨n + k, us, st1', [], _, hsteps, .inl ⟨hs, rfl⟩, hall, hsound⟩
          | some w =>
            exact ⟨n + k, us, st1', [w], _, hsteps, .inr ⟨hsame.2.2.1.trans (heos rfl), a2, hgood1, w, a4.symm, rfl⟩, hall, hsound⟩
  · -- nothing more can be done, and the end has been taken
    have hQ := h.ended hended
    subst hQ
    have hst2 : Stuck p.context p.state d.buffer.abs.rest := by
      rw [hctx]; exact hst.any h.fit.rest p.state
    have hk0 := hk []
    simp only [List.append_nil] at hk0
    have h0 : Iamf.steps p.context 0 p.state d.buffer.abs.rest = some ([], p.state, d.buffer.abs.rest) := rfl
    obtain ⟨hle, -⟩ := steps_stuck h0 hst2 hk0
    have : k = 0 := by omega
    subst this
    simp only [Iamf.steps, Option.some.injEq, Prod.mk.injEq] at hk0
    obtain ⟨rfl, rfl, hrest⟩ := hk0
    rcases halt with ⟨-, -, a3⟩ | ⟨-, -, -, a4⟩
    · rw [hrest] at a3; omega
    · have hfl : flushUnit p.state = (none, p.state) := by
        have := Good.flush_twice hgood
        rw [hw] at this
        exact this
      have : u = none ∧ p'.state = p.state := by
        cases eos <;> simp [hfl] at a4 <;> exact a4
      obtain ⟨rfl, hps⟩ := this
      obtain ⟨r1, r2⟩ := hone.rendered
      have hpn : d'.pendings = [] := by simp [Decoder.pendings, r2, hpend]
      rw [hrest] at t1 hst
      refine ⟨p', ⟨hone.processor, hone.context.trans hctx, hone.fit, by rw [hps]; exact h.good, hset, hend,
        ⟨n, us, st1, [w], xs, t1, .inr ⟨hsame.2.2.1.trans hended, hst, hgood, w, by rw [hps]; exact hw, rfl⟩, by rw [r1]; exact t3,
          by rw [hpn, List.append_nil]; exact t4⟩⟩, hsame.2.2.1, hone.layout, hsame.1, .inr fun _ => ?_⟩
      refine ⟨n, us, st1, d'.buffer.abs.rest, xs, p.renderer, by rw [t1, List.append_nil], hst, by rw [hw]; exact t3, ?_⟩
      rw [hpn, List.append_nil]; exact t4

/-! ### Calls -/

/-- The bytes of samples. -/
def pcmOf (sampleType : Nat) (x : Rendered) : List UInt8 :=
  match writeTicks (fun x => .ok (normalizedToInt32 x)) (UInt8.ofNat (bytesPerSample sampleType * 8)) false x 0 (x.headD []).length with
  | .ok b => b
  | .error _ => []

theorem writeFrame_ok {x : Rendered} {t size : Nat} {b : List UInt8} (h : writeFrameToSpan x t size = .ok b) : b = pcmOf t x := by
  unfold writeFrameToSpan at h
  cases hv : validateWriteFrame x t size with
  | error e => rw [hv] at h; simp [Bind.bind, Except.bind] at h
  | ok u =>
    rw [hv] at h
    simp only [Bind.bind, Except.bind] at h
    unfold pcmOf
    rw [h]

/-- The bytes that a call pushes. -/
def DecoderCall.fed : DecoderCall → List UInt8
  | .decode bytes => bytes
  | _ => []

/-- One call that returns OK, of a decoder that has its descriptors. -/
theorem Running.call {p0 p : Processor B} {T Q : Bits} {taken : List Rendered} {d d' : Decoder B} {c : DecoderCall} {o : List UInt8}
    (h : Running p0 p T (bytesBits c.fed ++ Q) taken d) (hend : c = .signalEnd → Q = [])
    (hc : d.call c = (.ok o, d')) :
    ∃ p' more, Running p0 p' T Q (taken ++ more) d' ∧ d'.settings = d.settings ∧
      [o].filter (!·.isEmpty) = (more.map (pcmOf d.settings.sampleType)).filter (!·.isEmpty) ∧
      d'.ended = (d.ended || decide (c = .signalEnd)) ∧
      ∀ x ∈ more, ∃ size, writeFrameToSpan x d.settings.sampleType size = .ok (pcmOf d.settings.sampleType x) := by
  cases c with
  | decode bytes =>
    simp only [DecoderCall.fed] at h
    simp only [Decoder.call] at hc
    match hd : d.decode bytes with
    | (.error e, d1) => rw [hd] at hc; simp at hc
    | (.ok (), d1) =>
      rw [hd] at hc
      simp only [Prod.mk.injEq, Except.ok.injEq] at hc
      obtain ⟨rfl, rfl⟩ := hc
      unfold Decoder.decode at hd
      split at hd
      · simp at hd
      next hne =>
      match hp : d.buffer.pushBytes bytes with
      | (.error e, b) => rw [hp] at hd; simp at hd
      | (.ok (), b) =>
        rw [hp, h.processor] at hd
        simp only at hd
        obtain ⟨f1, f2, f3⟩ := h.fit.push hp
        have hrest : b.abs.rest = d.buffer.abs.rest ++ bytesBits bytes := by
          rw [f3]
          simp only [RS.rest]
          rw [List.drop_append_of_le_length h.fit.pos]
        obtain ⟨n, us, st1, ws, xs, t1, t2, t3, t4⟩ := h.trace
        -- the decoder after the bytes have been pushed
        have hpush : ∀ ro, Running p0 p T Q taken { d with buffer := b, processor := some p, reorderer := ro } := by
          intro ro
          refine ⟨rfl, h.context, f1, h.good, h.settings, ?_, ⟨n, us, st1, ws, xs, ?_, ?_, t3, t4⟩⟩
          · intro he; exact absurd he hne
          · rw [t1, hrest, List.append_assoc]
          · rcases t2 with t2 | ⟨hQ, hst, hg, w, hw⟩
            · exact .inl t2
            · exact absurd hQ hne
        split at hd
        next hpe =>
          obtain ⟨p', r1, r2, -, r4, -⟩ := (hpush _).decodeOne (by simpa using hpe) (by
            intro he
            exact absurd (h.settings.2.symm.trans he) (by decide)) hd
          exact ⟨p', [], by rw [List.append_nil]; exact r1, r4, rfl, by rw [r2]; simp, by simp⟩
        next hpe =>
          simp only [Prod.mk.injEq, true_and] at hd
          subst hd
          exact ⟨p, [], by rw [List.append_nil]; exact hpush _, rfl, rfl, by simp, by simp⟩
  | getOutput size =>
    simp only [DecoderCall.fed, bytesBits, List.flatMap_nil, List.nil_append] at h
    simp only [Decoder.call, Decoder.getOutput] at hc
    split at hc
    · simp only [Prod.mk.injEq, Except.ok.injEq] at hc
      obtain ⟨rfl, rfl⟩ := hc
      exact ⟨p, [], by rw [List.append_nil]; exact h, rfl, rfl, by simp, by simp⟩
    next hpe =>
    match hw : writeFrameToSpan d.pending d.settings.sampleType size with
    | .error e =>
      rw [hw] at hc
      simp only at hc
      split at hc <;> simp at hc
    | .ok w =>
      rw [hw] at hc
      simp only at hc
      match hd : Decoder.decodeOne (d.fromDescriptors || d.ended) { d with pending := [] } with
      | (.error e, d1) => rw [hd] at hc; simp at hc
      | (.ok (), d1) =>
        rw [hd] at hc
        simp only [Prod.mk.injEq, Except.ok.injEq] at hc
        obtain ⟨rfl, rfl⟩ := hc
        obtain ⟨n, us, st1, ws, xs, t1, t2, t3, t4⟩ := h.trace
        have hp0 : d.pendings = [d.pending] := by simp [Decoder.pendings, hpe]
        have htake : Running p0 p T Q (taken ++ [d.pending]) { d with pending := [] } :=
          ⟨h.processor, h.context, h.fit, h.good, h.settings, h.ended, n, us, st1, ws, xs, t1, t2, t3, by
            rw [t4, hp0]; simp [Decoder.pendings]⟩
        obtain ⟨p', r1, r2, -, r4, -⟩ := htake.decodeOne rfl (by
          rw [h.settings.2, Bool.false_or]; exact _root_.id) hd
        refine ⟨p', [d.pending], r1, r4, ?_, by rw [r2]; simp, ?_⟩
        · rw [writeFrame_ok hw]
          rfl
        · simp only [List.mem_singleton, forall_eq]
          exact ⟨size, by rw [← writeFrame_ok hw]; exact hw⟩
  | signalEnd =>
    simp only [DecoderCall.fed, bytesBits, List.flatMap_nil, List.nil_append] at h
    have hQ := hend rfl
    subst hQ
    simp only [Decoder.call] at hc
    match hd : d.signalEnd with
    | (.error e, d1) => rw [hd] at hc; simp at hc
    | (.ok (), d1) =>
      rw [hd] at hc
      simp only [Prod.mk.injEq, Except.ok.injEq] at hc
      obtain ⟨rfl, rfl⟩ := hc
      unfold Decoder.signalEnd at hd
      have hend : Running p0 p T [] taken { d with ended := true } :=
        ⟨h.processor, h.context, h.fit, h.good, h.settings, fun _ => rfl, by
          obtain ⟨n, us, st1, ws, xs, t1, t2, t3⟩ := h.trace
          exact ⟨n, us, st1, ws, xs, t1, t2.imp_right fun a => ⟨rfl, a.2⟩, t3⟩⟩
      simp only [h.settings.2, h.processor, Option.isSome_some, Bool.not_false, Bool.true_and, Bool.and_true] at hd
      split at hd
      next hpe =>
        obtain ⟨p', r1, r2, -, r4, -⟩ := hend.decodeOne (by simpa using hpe) (fun _ => rfl) (by rw [← hd, h.settings.2, h.processor])
        exact ⟨p', [], by rw [List.append_nil]; exact r1, r4, rfl, by rw [r2]; simp, by simp⟩
      next hpe =>
        simp only [Prod.mk.injEq, true_and] at hd
        subst hd
        refine ⟨p, [], ?_, rfl, rfl, by simp, by simp⟩
        rw [List.append_nil]
        convert hend using 2 <;> simp [h.settings.2, h.processor]

/-! ### Descriptors -/

private theorem seek_ok (s : RS) (p : Nat) (hv : s.valid = true) (hp : p ≤ s.src.length) :
    s.seek (p : Int) = (.ok (), ⟨s.src, p, true⟩) := by
  unfold RS.seek
  simp only [hv, Bool.not_true, Bool.false_eq_true, ↓reduceIte, Int.toNat_natCast]
  rw [if_neg (by omega), if_neg (by omega)]

theorem parse_valid (ex : Bool) (src : Bits) (v w : Bool) :
    (parseDescriptors ex).runA ⟨src, 0, v⟩ = (parseDescriptors ex).runA ⟨src, 0, w⟩ := by
  rw [parse_loop, parse_loop]

/-- `CreateObuProcessor` up to `Flush`, when it does not fail. -/
theorem createProcessor_runA {s : DecoderSettings} {ex : Bool} {P : List UInt8} {v : Bool} {s' : RS}
    {res : Option (Processor B × List UInt8)} (hP : P.length ≤ 4194304)
    (h : (createProcessor s ex).runA ⟨bytesBits P, 0, v⟩ = (.ok res, s')) :
    match (generalizing := false) res with
    | none => ex = false ∧ ((parseDescriptors ex).runA ⟨bytesBits P, 0, true⟩).1 = .ok none ∧ s' = ⟨bytesBits P, 0, true⟩
    | some (p, bytes) => ∃ x k, ((parseDescriptors ex).runA ⟨bytesBits P, 0, true⟩).1 = .ok (some x) ∧ initAll s x = .ok p ∧
        ((parseDescriptors ex).runA ⟨bytesBits P, 0, true⟩).2.pos = 8 * k ∧ k ≤ P.length ∧
        s' = ⟨bytesBits P, 8 * k, true⟩ ∧ bytes = P.take k := by
  unfold createProcessor at h
  simp only [Rd.runA] at h
  have he := parse_ends ex (bytesBits P) 0 true (Nat.zero_le _) (by rw [bytesBits_length]; omega)
  have hv := Rd.runA_valid (parseDescriptors ex) ⟨bytesBits P, 0, true⟩ rfl
  match hx : (parseDescriptors ex).runA ⟨bytesBits P, 0, true⟩ with
  | (.error e, s1) =>
    rw [hx] at h
    simp only at h
    split at h <;> simp [Rd.runA] at h
  | (.ok none, s1) =>
    rw [hx] at h he
    simp only at h
    cases ex with
    | true => simp [Rd.runA] at h
    | false =>
      simp only [Bool.false_eq_true, ↓reduceIte, Rd.runA, Prod.mk.injEq, Except.ok.injEq] at h
      obtain ⟨rfl, rfl⟩ := h
      exact ⟨rfl, rfl, he.wait rfl⟩
  | (.ok (some x), s1) =>
    rw [hx] at h he hv
    simp only at h hv
    obtain ⟨-, -, a3, -, a5, a6, -⟩ := he.done x rfl
    simp only at a3 a5 a6
    match hi : initAll (B := B) s x with
    | .error e =>
      rw [hi] at h
      simp only at h
      split at h <;> simp [Rd.runA] at h
    | .ok p =>
      rw [hi] at h
      simp only [Rd.runA] at h
      rw [seek_ok ⟨s1.src, s1.pos, true⟩ 0 rfl (Nat.zero_le _)] at h
      simp only [Rd.runA_bind] at h
      obtain ⟨k, hk⟩ : ∃ k, s1.pos = 8 * k := ⟨s1.pos / 8, by omega⟩
      rw [bytesBits_length] at a5
      have hkP : k ≤ P.length := by omega
      have hn : (((s1.pos : Int) - ((0 : Nat) : Int)) / 8).toNat = (P.take k).length := by rw [List.length_take]; omega
      rw [hn] at h
      obtain ⟨w, hw, hw2⟩ := reads_bytes (P.take k) ⟨s1.src, 0, true⟩ (Nat.zero_le _) (by
        simp only [RS.rest, List.drop_zero, a3]
        rw [← bytesBits_take]
        exact List.take_prefix _ _)
      rw [hw] at h
      simp only [Rd.runA, Prod.mk.injEq, Except.ok.injEq] at h
      obtain ⟨rfl, rfl⟩ := h
      refine ⟨x, k, rfl, hi, hk, hkP, ?_, rfl⟩
      rw [hw2 rfl, a3]
      simp only [bytesBits_length, List.length_take, RS.mk.injEq, true_and, and_true]
      omega

theorem initAll_good {s : DecoderSettings} {x : Descriptors} {p : Processor B} (h : initAll s x = .ok p) : p.state.Good := by
  unfold initAll at h
  cases hi : initProcessor x with
  | error e => rw [hi] at h; simp [Bind.bind, Except.bind] at h
  | ok q =>
    rw [hi] at h
    simp only [Bind.bind, Except.bind] at h
    have hq : q.2.current = .empty ∧ q.2.next = .empty := by
      unfold initProcessor at hi
      simp only [Bind.bind, Except.bind] at hi
      split at hi
      · simp at hi
      split at hi
      · simp at hi
      split at hi
      · simp at hi
      split at hi
      · simp at hi
      simp only [Except.ok.injEq] at hi
      subst hi
      exact ⟨rfl, rfl⟩
    have hp : p.state = q.2 := by
      unfold initRendering at h
      simp only [Bind.bind, Except.bind] at h
      split at h
      · simp at h
      split at h
      · simp at h
      split at h
      · simp at h
      split at h
      · simp at h
      split at h
      · simp at h
      split at h
      · simp at h
      split at h
      · simp at h
      simp only [Except.ok.injEq] at h
      subst h
      rfl
    rw [hp]
    exact ⟨hq.2, by rw [hq.1]; simp [UnitData.empty]⟩

/-- A decoder that has been given `P` and still waits for descriptors. -/
structure Waiting (P : List UInt8) (d : Decoder B) : Prop where
  processor : d.processor = none
  fit : d.buffer.Fit
  src : d.buffer.src = P
  pos : d.buffer.abs.pos = 0
  pending : d.pending = []
  settings : d.settings.android = false ∧ d.fromDescriptors = false
  asked : P = [] ∨ ((parseDescriptors false).runA ⟨bytesBits P, 0, true⟩).1 = .ok none

/-- One call that returns OK, of a decoder that waits for descriptors. -/
theorem Waiting.call {P : List UInt8} {d d' : Decoder B} {c : DecoderCall} {o : List UInt8} (h : Waiting P d)
    (hc : d.call c = (.ok o, d')) :
    o = [] ∧ d'.settings = d.settings ∧ d'.ended = (d.ended || decide (c = .signalEnd)) ∧ (d.ended = true → c.fed = []) ∧
    (Waiting (P ++ c.fed) d' ∨
      ∃ p x k, (c ≠ .signalEnd ∧ d.ended = false) ∧ ((parseDescriptors false).runA ⟨bytesBits (P ++ c.fed), 0, true⟩).1 = .ok (some x) ∧
        ((parseDescriptors false).runA ⟨bytesBits (P ++ c.fed), 0, true⟩).2.pos = 8 * k ∧ (P ++ c.fed).length ≤ 4194304 ∧
        initAll d.settings x = .ok p ∧ ∀ Q, Running p p (bytesBits ((P ++ c.fed).drop k) ++ Q) Q [] d') := by
  cases c with
  | decode bytes =>
    simp only [DecoderCall.fed]
    simp only [Decoder.call] at hc
    match hd : d.decode bytes with
    | (.error e, d1) => rw [hd] at hc; simp at hc
    | (.ok (), d1) =>
      rw [hd] at hc
      simp only [Prod.mk.injEq, Except.ok.injEq] at hc
      obtain ⟨rfl, rfl⟩ := hc
      unfold Decoder.decode at hd
      split at hd
      · simp at hd
      next hne =>
      match hp : d.buffer.pushBytes bytes with
      | (.error e, b) => rw [hp] at hd; simp at hd
      | (.ok (), b) =>
        rw [hp, h.processor] at hd
        simp only at hd
        obtain ⟨f1, f2, f3⟩ := h.fit.push hp
        rw [h.src] at f2
        have habs : b.abs = ⟨bytesBits (P ++ bytes), 0, b.abs.valid⟩ := by
          have h1 : b.abs.pos = 0 := by rw [f3]; exact h.pos
          have h2 : b.abs.src = bytesBits (P ++ bytes) := by simp only [RBuf.abs, f2]
          rw [← h1, ← h2]
        have hsmall : (P ++ bytes).length ≤ 4194304 := by rw [← f2]; exact f1.small
        obtain ⟨q1, -, q3, q4⟩ := (createProcessor (B := B) d.settings false).run_refines b f1.wf
        have qf := f1.run (createProcessor (B := B) d.settings false)
        have hfd := h.settings.2
        unfold Decoder.setUp at hd
        simp only [hfd] at hd
        match hx : (createProcessor (B := B) d.settings false).run b with
        | (.error e, b1) => rw [hx] at hd; simp at hd
        | (.ok none, b1) =>
          rw [hx] at hd q1 q3 q4 qf
          simp only [Prod.mk.injEq, true_and] at hd q1 q3 q4 qf
          subst hd
          have := createProcessor_runA hsmall (by rw [← habs]; exact Prod.ext q1.symm q3.symm)
          simp only at this
          refine ⟨rfl, rfl, by simp, fun he => absurd he hne, .inl ⟨rfl, qf, by simp only; rw [q4, f2], ?_, h.pending, ⟨h.settings.1, rfl⟩, .inr this.2.1⟩⟩
          exact congrArg RS.pos this.2.2
        | (.ok (some (p, bs)), b1) =>
          rw [hx] at hd q1 q3 q4 qf
          simp only at hd q1 q3 q4 qf
          have := createProcessor_runA hsmall (by rw [← habs]; exact Prod.ext q1.symm q3.symm)
          obtain ⟨x, k, a1, a2, a3, a4, a5, -⟩ := this
          obtain ⟨b2, c1, c2, c3⟩ := qf.flush
          rw [c1] at hd
          simp only [Prod.mk.injEq, true_and] at hd
          subst hd
          refine ⟨rfl, rfl, by simp, fun he => absurd he hne, .inr ⟨p, x, k, ⟨by simp, by simpa using hne⟩, a1, a3, hsmall, a2, fun Q => ?_⟩⟩
          have hrest : b2.abs.rest = bytesBits ((P ++ bytes).drop k) := by
            have a6 : b1.abs = ⟨bytesBits (P ++ bytes), 8 * k, true⟩ := a5
            rw [c3, a6]
            simp only [RS.rest]
            rw [bytesBits_drop]
          refine ⟨rfl, rfl, c2, initAll_good a2, ⟨h.settings.1, rfl⟩, fun he => absurd he hne, ⟨0, [], p.state, [], [], ?_, .inl ⟨rfl, rfl⟩, rfl, ?_⟩⟩
          · simp only [Iamf.steps, hrest]
          · simp [sounding, Decoder.pendings, h.pending]
  | getOutput size =>
    simp only [Decoder.call, Decoder.getOutput, h.pending, List.isEmpty_nil, ↓reduceIte, Prod.mk.injEq, Except.ok.injEq] at hc
    obtain ⟨rfl, rfl⟩ := hc
    exact ⟨rfl, rfl, by simp, fun _ => rfl, .inl (by simpa only [DecoderCall.fed, List.append_nil] using h)⟩
  | signalEnd =>
    simp only [Decoder.call, Decoder.signalEnd, h.processor, Option.isSome_none, Bool.and_false, Bool.false_eq_true,
      ↓reduceIte, Prod.mk.injEq, Except.ok.injEq] at hc
    obtain ⟨rfl, rfl⟩ := hc
    refine ⟨rfl, rfl, by simp, fun _ => rfl, .inl ?_⟩
    simp only [DecoderCall.fed, List.append_nil]
    exact ⟨rfl, h.fit, h.src, h.pos, h.pending, h.settings, h.asked⟩

/-! ### Histories -/

private theorem decodeOne_ended (eos : Bool) (d : Decoder B) : (d.decodeOne eos).2.ended = d.ended := by
  unfold Decoder.decodeOne
  split
  · rfl
  · split
    · rfl
    · rfl
    · rfl
    · split
      · rfl
      · split
        · rfl
        · rfl

theorem Decoder.signalEnd_ended (d : Decoder B) : (d.call .signalEnd).2.ended = true := by
  simp only [Decoder.call]
  have : d.signalEnd.2.ended = true := by
    unfold Decoder.signalEnd
    simp only
    split
    · rw [decodeOne_ended]
    · rfl
  split <;> simp_all

theorem Decoder.call_ended {d : Decoder B} {c : DecoderCall} (h : d.ended = true) :
    (d.call c).2.ended = true ∧ ((∃ o, (d.call c).1 = .ok o) → c.fed = []) := by
  cases c with
  | decode bytes =>
    have : d.decode bytes = (.error .failedPrecondition, d) := by
      unfold Decoder.decode
      rw [if_pos h]
    simp only [Decoder.call, this]
    exact ⟨h, by simp⟩
  | getOutput size =>
    refine ⟨?_, fun _ => rfl⟩
    simp only [Decoder.call, Decoder.getOutput]
    split
    · exact h
    · have key : ∀ d1 : Decoder B, d1.ended = true → ∀ eos w,
          (match d1.decodeOne eos with
            | (.error e, d) => (Except.error e, d)
            | (.ok (), d) => ((w : Except Err (List UInt8)), d)).2.ended = true := fun d1 h1 eos w => by
        have := decodeOne_ended eos d1
        split <;> simp_all
      exact key _ (by split <;> exact h) _ _
  | signalEnd => exact ⟨Decoder.signalEnd_ended d, fun _ => rfl⟩

theorem Running.calls {p0 p : Processor B} {T Q : Bits} {taken : List Rendered} {d : Decoder B} (cs : List DecoderCall)
    (h : Running p0 p T (bytesBits (cs.flatMap (·.fed)) ++ Q) taken d) (hend : .signalEnd ∈ cs → Q = [])
    (hok : ∀ r ∈ (d.calls cs).1, ∃ o, r = .ok o) :
    ∃ p' more, Running p0 p' T Q (taken ++ more) (d.calls cs).2 ∧ (d.calls cs).2.settings = d.settings ∧
      (d.calls cs).1.filterMap (fun r => r.toOption.filter (!·.isEmpty)) =
        (more.map (pcmOf d.settings.sampleType)).filter (!·.isEmpty) ∧
      ∀ x ∈ more, ∃ size, writeFrameToSpan x d.settings.sampleType size = .ok (pcmOf d.settings.sampleType x) := by
  induction cs generalizing p taken d with
  | nil => exact ⟨p, [], by rw [List.append_nil]; simpa [Decoder.calls] using h, rfl, rfl, by simp⟩
  | cons c cs ih =>
    obtain ⟨o, ho⟩ := hok (d.call c).1 (by simp [Decoder.calls])
    have hok2 : ∀ r ∈ ((d.call c).2.calls cs).1, ∃ o, r = .ok o := fun r hr => hok r (by simp [Decoder.calls, hr])
    have hc : d.call c = (.ok o, (d.call c).2) := Prod.ext ho rfl
    have hQ : c = .signalEnd → bytesBits (cs.flatMap (·.fed)) ++ Q = [] := by
      rintro rfl
      have hq := hend (by simp)
      subst hq
      rw [List.append_nil]
      -- after the end nothing is accepted
      have : ∀ (cs : List DecoderCall) (d : Decoder B), d.ended = true → (∀ r ∈ (d.calls cs).1, ∃ o, r = .ok o) →
          cs.flatMap (·.fed) = [] := by
        intro cs
        induction cs with
        | nil => intros; rfl
        | cons c cs ih2 =>
          intro d he hok
          obtain ⟨o, ho⟩ := hok (d.call c).1 (by simp [Decoder.calls])
          have hok2 : ∀ r ∈ ((d.call c).2.calls cs).1, ∃ o, r = .ok o := fun r hr => hok r (by simp [Decoder.calls, hr])
          have h1 := Decoder.call_ended (c := c) he
          rw [List.flatMap_cons, ih2 (d.call c).2 h1.1 hok2, List.append_nil]
          exact h1.2 ⟨o, ho⟩
      rw [this cs (d.call .signalEnd).2 (Decoder.signalEnd_ended d) hok2]
      rfl
    simp only [List.flatMap_cons, bytesBits_append, List.append_assoc] at h
    obtain ⟨p1, m1, r1, r2, r3, -, r5⟩ := h.call hQ hc
    obtain ⟨p2, m2, k1, k2, k3, k4⟩ := ih r1 (fun hm => hend (by simp [hm])) hok2
    refine ⟨p2, m1 ++ m2, by rw [← List.append_assoc]; exact k1, k2.trans r2, ?_, fun x hx => (List.mem_append.mp hx).elim (r5 x) (by rw [← r2]; exact k4 x)⟩
    simp only [Decoder.calls, ho]
    rw [List.map_append, List.filter_append, ← r3]
    rw [r2] at k3
    rw [← k3]
    cases o <;> simp [Option.filter, Except.toOption]

/-- A history of calls that return OK, of a decoder that waits for descriptors: `S` begins with what it is given. -/
theorem Waiting.calls {S P E : List UInt8} {x : Descriptors} {k : Nat} {d : Decoder B} (cs : List DecoderCall)
    (hS : S = P ++ (cs.flatMap (·.fed) ++ E))
    (hpart : ∀ P, P <+: S → P.length ≤ 4194304 → ∀ y, ((parseDescriptors false).runA ⟨bytesBits P, 0, true⟩).1 = .ok (some y) →
      y = x ∧ ((parseDescriptors false).runA ⟨bytesBits P, 0, true⟩).2.pos = 8 * k)
    (h : Waiting P d) (hend : .signalEnd ∈ cs → E = []) (hok : ∀ r ∈ (d.calls cs).1, ∃ o, r = .ok o) :
    (Waiting (P ++ cs.flatMap (·.fed)) (d.calls cs).2 ∧ (d.calls cs).1.filterMap (fun r => r.toOption.filter (!·.isEmpty)) = []) ∨
    ∃ p0, initAll d.settings x = .ok p0 ∧ ∃ p' more, Running p0 p' (bytesBits (S.drop k)) (bytesBits E) more (d.calls cs).2 ∧
      (d.calls cs).1.filterMap (fun r => r.toOption.filter (!·.isEmpty)) =
        (more.map (pcmOf d.settings.sampleType)).filter (!·.isEmpty) ∧
      ∀ x ∈ more, ∃ size, writeFrameToSpan x d.settings.sampleType size = .ok (pcmOf d.settings.sampleType x) := by
  induction cs generalizing P d with
  | nil => exact .inl ⟨by simpa [Decoder.calls] using h, rfl⟩
  | cons c cs ih =>
    obtain ⟨o, ho⟩ := hok (d.call c).1 (by simp [Decoder.calls])
    have hok2 : ∀ r ∈ ((d.call c).2.calls cs).1, ∃ o, r = .ok o := fun r hr => hok r (by simp [Decoder.calls, hr])
    have hc : d.call c = (.ok o, (d.call c).2) := Prod.ext ho rfl
    obtain ⟨rfl, hset, -, -, hcase⟩ := h.call hc
    have hS2 : S = (P ++ c.fed) ++ (cs.flatMap (·.fed) ++ E) := by
      rw [hS]; simp only [List.flatMap_cons, List.append_assoc]
    have hhead : ∀ l : List (Except Err (List UInt8)), (Except.ok [] :: l).filterMap (fun r => r.toOption.filter (!·.isEmpty)) =
        l.filterMap (fun r => r.toOption.filter (!·.isEmpty)) := fun l => by simp [Except.toOption, Option.filter]
    rcases hcase with hw | ⟨p, y, j, -, a1, a2, a3, a4, a5⟩
    · have := ih hS2 hw (fun hm => hend (by simp [hm])) hok2
      rw [hset] at this
      simp only [Decoder.calls, ho, hhead]
      rw [List.flatMap_cons, ← List.append_assoc]
      exact this
    · obtain ⟨rfl, hj⟩ := hpart (P ++ c.fed) ⟨_, hS2.symm⟩ a3 y a1
      have hjk : j = k := by omega
      subst hjk
      right
      refine ⟨p, a4, ?_⟩
      have hle : j ≤ (P ++ c.fed).length := by
        have := (parse_ends false (bytesBits (P ++ c.fed)) 0 true (Nat.zero_le _) (by rw [bytesBits_length]; omega)).done y a1
        rw [a2, bytesBits_length] at this
        omega
      have hdata : bytesBits ((P ++ c.fed).drop j) ++ (bytesBits (cs.flatMap (·.fed)) ++ bytesBits E) = bytesBits (S.drop j) := by
        rw [hS2, List.drop_append_of_le_length hle, bytesBits_append, bytesBits_append]
      have hrun := a5 (bytesBits (cs.flatMap (·.fed)) ++ bytesBits E)
      rw [hdata] at hrun
      obtain ⟨p2, m2, k1, k2, k3, k4⟩ := hrun.calls cs (fun hm => by rw [hend (by simp [hm])]; rfl) hok2
      refine ⟨p2, m2, k1, ?_⟩
      simp only [Decoder.calls, ho, hhead]
      rw [hset] at k3 k4
      exact ⟨k3, k4⟩

theorem Waiting.create {s : DecoderSettings} (ha : s.android = false) (pv : Bool) : Waiting [] (Decoder.create (B := B) s pv) :=
  ⟨rfl, RBuf.Fit.create pv, rfl, by simp [Decoder.create, RBuf.abs_create], rfl, ⟨ha, rfl⟩, .inl rfl⟩

/-- Signalling the end again and again comes to the end of the data. -/
theorem Running.drained {p0 p : Processor B} {T : Bits} {taken : List Rendered} {d : Decoder B}
    (h : Running p0 p T [] taken d)
    (hd : ∀ n, (∀ r ∈ (d.calls (List.replicate n .signalEnd)).1, ∃ o, r = .ok o) ∧
      (d.calls (List.replicate n .signalEnd)).2.isUnitAvailable = false) : Complete p0 T taken := by
  generalize hn : d.buffer.abs.rest.length = n
  induction n using Nat.strongRecOn generalizing p d with
  | ind n ih =>
    have hp0 := (hd 0).2
    simp only [List.replicate_zero, Decoder.calls, Decoder.isUnitAvailable, Bool.not_eq_false'] at hp0
    have hpe : d.pending = [] := by simpa using hp0
    obtain ⟨h1, h2⟩ := hd 1
    simp only [List.replicate_one, Decoder.calls, List.mem_singleton, forall_eq, Decoder.isUnitAvailable] at h1 h2
    obtain ⟨o, ho⟩ := h1
    simp only [Decoder.call] at ho h2
    match hs : d.signalEnd with
    | (.error e, d1) => rw [hs] at ho; simp at ho
    | (.ok (), d1) =>
      rw [hs] at h2
      simp only at h2
      have hnext : (d.call .signalEnd).2 = d1 := by simp only [Decoder.call, hs]
      unfold Decoder.signalEnd at hs
      have hend : Running p0 p T [] taken { d with ended := true } :=
        ⟨h.processor, h.context, h.fit, h.good, h.settings, fun _ => rfl, by
          obtain ⟨n, us, st1, ws, xs, t1, t2, t3⟩ := h.trace
          exact ⟨n, us, st1, ws, xs, t1, t2.imp_right fun a => ⟨rfl, a.2⟩, t3⟩⟩
      simp only [h.settings.2, h.processor, hpe, Option.isSome_some, Bool.not_false, List.isEmpty_nil, Bool.true_and, ↓reduceIte] at hs
      obtain ⟨p', r1, -, -, -, r5⟩ := hend.decodeOne hpe (fun _ => rfl) (by rw [← hs, h.settings.2, h.processor, hpe])
      rcases r5 with r5 | r5
      · simp only at r5
        refine ih d1.buffer.abs.rest.length (by omega) r1 (fun m => ?_) rfl
        have := hd (m + 1)
        simp only [List.replicate_succ, Decoder.calls, hnext, List.mem_cons, forall_eq_or_imp] at this
        exact ⟨this.1.2, this.2⟩
      · have := r5 rfl
        have hn : d1.pendings = [] := by
          simp only [Bool.not_eq_false'] at h2
          simp [Decoder.pendings, h2]
        rw [hn, List.append_nil] at this
        exact this

/-- What a decoder has given out is a beginning of all there is. -/
theorem Running.prefix {p0 p : Processor B} {T Q : Bits} {taken outs : List Rendered} {d : Decoder B}
    (h : Running p0 p T Q taken d) (hc : Complete p0 T outs) : taken ++ d.pendings <+: outs := by
  obtain ⟨n, us, st1, ws, xs, t1, t2, t3, t4⟩ := h.trace
  rcases t2 with ⟨-, rfl⟩ | ⟨he, hst, -, w, hw, rfl⟩
  · obtain ⟨m, vs, st2, r, ys, rs, c1, c2, c3, c4⟩ := hc
    obtain ⟨-, ws, rfl, -⟩ := steps_stuck c1 c2 t1
    rw [List.append_nil] at t3
    rw [List.append_assoc, renderAll_append, t3] at c3
    simp only at c3
    split at c3
    · simp at c3
    · simp only [Option.some.injEq, Prod.mk.injEq] at c3
      rw [← c3.1, sounding_append, t4] at c4
      exact ⟨_, c4⟩
  · have hQ := h.ended he
    subst hQ
    rw [List.append_nil] at t1
    have : Complete p0 T (taken ++ d.pendings) := ⟨n, us, st1, _, xs, p.renderer, t1, hst, by rw [hw]; exact t3, t4⟩
    rw [this.unique hc]

theorem Decoder.call_not_ended {d : Decoder B} {c : DecoderCall} (h : c ≠ .signalEnd) : (d.call c).2.ended = d.ended := by
  have set_up : ∀ d : Decoder B, d.setUp.2.ended = d.ended := by
    intro d
    unfold Decoder.setUp
    split
    · rfl
    · rfl
    · split <;> rfl
  cases c with
  | signalEnd => exact absurd rfl h
  | decode bytes =>
    have hd : (d.decode bytes).2.ended = d.ended := by
      unfold Decoder.decode
      split
      · rfl
      · split
        · rfl
        · split
          · have := fun b => set_up { d with buffer := b }
            split <;> rename_i hx <;> [have := hx ▸ this _; have := hx ▸ this _] <;> exact this
          · simp only
            split
            · rw [decodeOne_ended]
            · rfl
    simp only [Decoder.call]
    split <;> simp_all
  | getOutput size =>
    simp only [Decoder.call, Decoder.getOutput]
    split
    · rfl
    · have key : ∀ d1 : Decoder B, d1.ended = d.ended → ∀ eos w,
          (match d1.decodeOne eos with
            | (.error e, d) => (Except.error e, d)
            | (.ok (), d) => ((w : Except Err (List UInt8)), d)).2.ended = d.ended := fun d1 h1 eos w => by
        have := decodeOne_ended eos d1
        split <;> simp_all
      exact key _ (by split <;> rfl) _ _

theorem Decoder.calls_not_ended (cs : List DecoderCall) (d : Decoder B) (h : .signalEnd ∉ cs) : (d.calls cs).2.ended = d.ended := by
  induction cs generalizing d with
  | nil => rfl
  | cons c cs ih =>
    simp only [List.mem_cons, not_or] at h
    simp only [Decoder.calls]
    rw [ih _ h.2, Decoder.call_not_ended (fun hc => h.1 hc.symm)]

end Iamf
