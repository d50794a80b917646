import Verif.Cli.Processor
import Verif.Obu.Local
import Verif.Obu.ParamsProofs
import Verif.Props.Descriptors
/-
  `ProcessTemporalUnitObu` as a function of the data that is left: what was read before does not matter, nor does what comes
  behind the OBU.
-/
namespace Iamf
open Iamf.Props

/-! ### Data before -/

theorem sf_fillMetadata_nonneg : Sf ObuHeader.fillMetadata (fun m => 0 ≤ m.2) := by
  unfold ObuHeader.fillMetadata
  exact (Sf.u64 5).bind fun _ _ => Sf.bool.bind fun _ _ => Sf.bool.bind fun _ _ => Sf.bool.bind fun _ _ =>
    Sf.ulebSize.bind fun _ _ => Sf.ret (Int.natCast_nonneg _)

theorem sf_peek_nonneg : Sf ObuHeader.peek (fun m => 0 ≤ m.2) := by
  unfold ObuHeader.peek
  exact Sf.tell fun p => Sf.attempt sf_fillMetadata_nonneg (fun m h => Sf.seek (Sf.ret h)) (fun e he => Sf.seek (Sf.fail he))

theorem sf_peekParameterId : Sf peekParameterId (fun _ => True) := by
  unfold peekParameterId
  exact Sf.tell fun p => Sf.attempt Sf.uleb (fun m h => Sf.seek (Sf.ret h)) (fun e he => Sf.seek (Sf.fail he))

theorem sf_readBlock (c : ProcContext) (n : Int) : Sf (readBlock c n) (fun _ => True) := by
  unfold readBlock
  refine Sf.attempt sf_peekParameterId (fun id _ => ?_) (fun e he => Sf.fail rfl)
  simp only
  split
  · exact Sf.fail rfl
  · exact (sf_obuPayload n (ParameterBlock.sf _ n)).bind fun _ _ => Sf.ret trivial

private theorem shifted_finish {pre : Bits} {p q total : Int} (r : Except Err Unit × Option ProcOut × ProcState) (ht : 0 ≤ total)
    (hq : 0 ≤ q) (hp : p = pre.length + q) : Shifted pre (finishObu p total r) (finishObu q total r) := by
  unfold finishObu
  split
  · exact Shifted.ret _
  · exact Shifted.ite (Shifted.fail _) (Shifted.seek (Shifted.ignore ht (Shifted.ret _)) hq hp)

private theorem shifted_readBlock {pre : Bits} (c : ProcContext) (n : Int) : Shifted pre (readBlock c n) (readBlock c n) := by
  unfold readBlock
  refine Shifted.attempt Shifted.parameterId sf_peekParameterId (fun id _ => ?_) (fun e => Shifted.fail _)
  simp only
  split
  · exact Shifted.fail _
  · exact Shifted.bind (Shifted.payload n (Rd.Seq.parameterBlock _ n) (ParameterBlock.sf _ n)) (sf_obuPayload n (ParameterBlock.sf _ n))
      fun _ _ => Shifted.ret _

private theorem shifted_body {pre : Bits} (c : ProcContext) (st : ProcState) {p q total : Int} (h : ObuHeader) {n : Int}
    (ht : 0 ≤ total) (hn : 0 ≤ n) (hq : 0 ≤ q) (hp : p = pre.length + q) :
    Shifted pre (processBody c st p total h n) (processBody c st q total h n) := by
  unfold processBody
  refine Shifted.ite ?_ (Shifted.ite ?_ (Shifted.ite ?_ (Shifted.ite ?_ (Shifted.ite (Shifted.fail _) ?_))))
  · exact Shifted.attempt (Shifted.payload n (Rd.Seq.audioFrame h n) (AudioFrame.sf h n)) (sf_obuPayload n (AudioFrame.sf h n))
      (fun _ _ => shifted_finish _ ht hq hp) (fun _ => shifted_finish _ ht hq hp)
  · exact Shifted.attempt (shifted_readBlock c n) (sf_readBlock c n)
      (fun _ _ => shifted_finish _ ht hq hp) (fun _ => shifted_finish _ ht hq hp)
  · exact Shifted.attempt (Shifted.payload n (Rd.Seq.temporalDelimiter n) (Q := fun _ => True) (Sf.ret trivial))
      (sf_obuPayload n (Sf.ret (Q := fun _ => True) trivial))
      (fun _ _ => shifted_finish _ ht hq hp) (fun _ => shifted_finish _ ht hq hp)
  · exact Shifted.seek (Shifted.ret _) hq hp
  · exact Shifted.ignore hn (Shifted.ret _)

theorem shifted_processObu (pre : Bits) (c : ProcContext) (st : ProcState) : Shifted pre (processObu c st) (processObu c st) := by
  unfold processObu
  refine Shifted.attempt Shifted.peek sf_peek_nonneg (fun m hm => ?_) (fun e => Shifted.ite (Shifted.ret _) (Shifted.fail _))
  refine Shifted.avail fun n => Shifted.ite (Shifted.ret _) ?_
  refine Shifted.tell fun a => Shifted.bind (Shifted.seq Rd.Seq.header) sf_header fun hs hp => ?_
  exact shifted_body c st hs.1 hm hp.2 (Int.natCast_nonneg _) (by omega)

/-! ### One OBU -/

private theorem seek_ok (s : RS) (p : Nat) (hv : s.valid = true) (hp : p ≤ s.src.length) :
    s.seek (p : Int) = (.ok (), ⟨s.src, p, true⟩) := by
  unfold RS.seek
  simp only [hv, Bool.not_true, Bool.false_eq_true, ↓reduceIte, Int.toNat_natCast]
  rw [if_neg (by omega), if_neg (by omega)]

private theorem ignore_runA {α : Type} (s : RS) (n : Int) (k : Rd α) (hn : 0 ≤ n) (hp : s.pos + 8 * n ≤ s.src.length) :
    (rIgnoreBytes n k).runA s = k.runA ⟨s.src, s.pos + 8 * n.toNat, true⟩ := by
  unfold rIgnoreBytes
  simp only [Rd.runA]
  have := seek_ok { s with valid := true } (s.pos + 8 * n.toNat) rfl (by simp only; omega)
  rw [show (s.pos : Int) + n * 8 = ((s.pos + 8 * n.toNat : Nat) : Int) by omega, this]

/-- A payload inside the source is the same whatever comes behind. -/
private theorem payload_both {α : Type} {derived : Int → Rd α} {n : Int} (h : (derived n).Seq) (s : RS) (x : Bits)
    (hs : s.pos ≤ s.src.length) (hn : s.pos + 8 * n ≤ s.src.length) :
    ((rObuPayload derived n).runA (s.ext x)).1.toOption = ((rObuPayload derived n).runA s).1.toOption := by
  have hst := (Rd.Fwd.payload h).stable s x hs
  match hx : (rObuPayload derived n).runA s with
  | (.ok a, s') => rw [hx] at hst; simp only at hst; rw [hst]
  | (.error e, s') =>
    match hy : (rObuPayload derived n).runA (s.ext x) with
    | (.error e', s'') => rfl
    | (.ok a, s'') =>
      exfalso
      have h1 := (Rd.Fwd.payload h).beyond hs hx hy
      have h2 := (obuPayload_ok hy (by simp only [RS.ext, List.length_append]; omega)).1
      simp only [RS.ext] at h2
      omega

private theorem parameterId_runA (s : RS) (hs : s.pos ≤ s.src.length) :
    peekParameterId.runA s = ((rUleb.runA { s with valid := true }).1, { s with valid := true }) := by
  unfold peekParameterId
  simp only [Rd.runA]
  have hin := Rd.runA_inside rUleb { s with valid := true } hs
  have hv := Rd.runA_valid rUleb { s with valid := true } rfl
  have hsf := Sf.uleb { s with valid := true }
  match hx : rUleb.runA { s with valid := true } with
  | (.ok m, s') =>
    rw [hx] at hin hv
    simp only
    rw [seek_ok s' s.pos hv (by rw [hin.2]; exact hs), hin.2]
  | (.error e, s') =>
    rw [hx] at hin hv hsf
    simp only at hsf ⊢
    rw [if_neg (by simp [hsf])]
    rw [seek_ok s' s.pos hv (by rw [hin.2]; exact hs), hin.2]

/-- A parameter block inside the source is the same whatever comes behind. -/
private theorem readBlock_both (c : ProcContext) {n : Int} (s : RS) (x : Bits) (hs : s.pos ≤ s.src.length)
    (hn : s.pos + 8 * n ≤ s.src.length) :
    ((readBlock c n).runA (s.ext x)).1.toOption = ((readBlock c n).runA s).1.toOption := by
  have hsx : (s.ext x).pos ≤ (s.ext x).src.length := by simp only [RS.ext, List.length_append]; omega
  have hst := Rd.Seq.uleb.fwd.stable { s with valid := true } x hs
  have hnf : ∀ {e s'}, rUleb.runA { s with valid := true } = (.error e, s') → e.fatal = false := by
    intro e s' h
    have := Sf.uleb { s with valid := true }
    rw [h] at this
    exact this
  unfold readBlock
  simp only [Rd.runA, parameterId_runA s hs, parameterId_runA (s.ext x) hsx]
  have e : ({ s.ext x with valid := true } : RS) = ({ s with valid := true } : RS).ext x := rfl
  rw [e]
  match hx : rUleb.runA { s with valid := true } with
  | (.ok id, s') =>
    rw [hx] at hst
    simp only at hst
    rw [hst]
    simp only
    cases hl : c.params.lookup id with
    | none => rfl
    | some p =>
      simp only [Rd.runA_bind]
      have := payload_both (Rd.Seq.parameterBlock p.1 n) { s with valid := true } x hs hn
      match hy : (rObuPayload (ParameterBlock.read p.1) n).runA { s with valid := true },
        hz : (rObuPayload (ParameterBlock.read p.1) n).runA (({ s with valid := true } : RS).ext x) with
      | (.ok a, s1), (.ok b, s2) =>
        rw [hy, hz] at this
        simp only [Except.toOption, Option.some.injEq] at this
        subst this
        rfl
      | (.ok a, s1), (.error b, s2) => rw [hy, hz] at this; simp [Except.toOption] at this
      | (.error a, s1), (.ok b, s2) => rw [hy, hz] at this; simp [Except.toOption] at this
      | (.error a, s1), (.error b, s2) => rfl
  | (.error e1, s') =>
    simp only [hnf hx, Bool.false_eq_true, ↓reduceIte, Rd.runA]
    match hy : rUleb.runA (({ s with valid := true } : RS).ext x) with
    | (.error e2, s2) =>
      simp only
      have hf : e2.fatal = false := by
        have := Sf.uleb (({ s with valid := true } : RS).ext x)
        rw [hy] at this
        exact this
      simp only [hf, Bool.false_eq_true, ↓reduceIte]
    | (.ok id, s2) =>
      simp only
      cases hl : c.params.lookup id with
      | none => rfl
      | some p =>
        simp only [Rd.runA_bind]
        match hz : (rObuPayload (ParameterBlock.read p.1) n).runA (({ s with valid := true } : RS).ext x) with
        | (.error b, s3) => rfl
        | (.ok b, s3) =>
          exfalso
          have hb := payload_both (Rd.Seq.parameterBlock p.1 n) { s with valid := true } x hs hn
          rw [hz] at hb
          match hw : (rObuPayload (ParameterBlock.read p.1) n).runA { s with valid := true } with
          | (.error b, s4) => rw [hw] at hb; simp [Except.toOption] at hb
          | (.ok b, s4) =>
            unfold rObuPayload at hw
            simp only [Rd.runA] at hw
            obtain ⟨a, s5, h1, -⟩ := Rd.runA_bind_ok hw
            unfold ParameterBlock.read at h1
            obtain ⟨u, s6, h2, h3⟩ := Rd.runA_bind_ok h1
            obtain ⟨v, s7, h4, -⟩ := Rd.runA_bind_ok h3
            have : s6 = { s with valid := true } := by
              unfold Rd.check at h2
              cases hv : p.1.valid
              · simp [hv, Rd.runA] at h2
              · simp only [hv, Rd.runA, ↓reduceIte, Prod.mk.injEq] at h2; exact h2.2.symm
            rw [this, hx] at h4
            simp at h4

/-- The outcome of storing an OBU. -/
private def finishResult (r : Except Err Unit × Option ProcOut × ProcState) : Except Err (Bool × Option ProcOut × ProcState) :=
  match r with
  | (.ok (), out, st) => .ok (true, out, st)
  | (.error e, out, st) => if e.fatal then .error e else .ok (true, out, st)

/-- The outcome of an OBU, given what its payload is if it is read as an audio frame, a parameter block or a delimiter. -/
private def bodyResult (c : ProcContext) (st : ProcState) (h : ObuHeader) (f : Option (AudioFrame × List UInt8))
    (b : Option (ParamDef × ParameterBlock)) (d : Option (Unit × List UInt8)) : Except Err (Bool × Option ProcOut × ProcState) :=
  if isAudioFrameType h.obuType then
    match f with
    | none => .ok (true, none, st)
    | some r => finishResult (storeFrame c h r.1 st)
  else if h.obuType = ObuType.parameterBlock then
    match b with
    | none => .ok (true, none, st)
    | some r => finishResult (storeBlock h r.1 r.2 st)
  else if h.obuType = ObuType.temporalDelimiter then
    match d with
    | none => .ok (true, none, st)
    | some _ => .ok (true, some .delimiter, st)
  else if h.obuType = ObuType.sequenceHeader ∧ h.redundantCopy = false then .ok (false, none, st)
  else if (h.obuType = ObuType.codecConfig ∨ h.obuType = ObuType.audioElement ∨ h.obuType = ObuType.mixPresentation) ∧
      h.redundantCopy = false then .error .invalidArgument
  else .ok (true, none, st)

/-- Where an OBU that is not refused leaves the cursor. -/
private def after (src : Bits) (p : Nat) (total : Int) (x : Bool × Option ProcOut × ProcState) : RS :=
  ⟨src, if x.1 then p + 8 * total.toNat else p, true⟩

/-- The run has the given result, and if this is not an error the given end. -/
private def Gives (r : Except Err (Bool × Option ProcOut × ProcState) × RS) (e : Except Err (Bool × Option ProcOut × ProcState))
    (src : Bits) (p : Nat) (total : Int) : Prop :=
  r.1 = e ∧ ∀ x, r.1 = .ok x → r.2 = after src p total x

private theorem finish_runA (s : RS) (p : Nat) (total : Int) (r : Except Err Unit × Option ProcOut × ProcState)
    (hv : s.valid = true) (ht : 0 ≤ total) (hp : p + 8 * total ≤ s.src.length)
    (hpos : r.1 = .ok () → (s.pos : Int) = p + 8 * total) :
    Gives ((finishObu p total r).runA s) (finishResult r) s.src p total := by
  obtain ⟨r, out, st⟩ := r
  unfold finishObu finishResult
  cases r with
  | ok u =>
    refine ⟨rfl, fun x hx => ?_⟩
    simp only [Rd.runA, Except.ok.injEq] at hx
    subst hx
    have := hpos rfl
    simp only [Rd.runA, after, ↓reduceIte]
    have e : s.pos = p + 8 * total.toNat := by omega
    rw [← e, ← hv]
  | error e =>
    by_cases hf : e.fatal = true
    · simp only [hf, ↓reduceIte, Rd.runA]
      exact ⟨rfl, fun x hx => by simp at hx⟩
    · simp only [hf, Bool.false_eq_true, ↓reduceIte, Rd.runA]
      rw [seek_ok s p hv (by omega)]
      simp only
      rw [ignore_runA ⟨s.src, p, true⟩ total _ ht hp]
      refine ⟨rfl, fun x hx => ?_⟩
      simp only [Rd.runA, Except.ok.injEq] at hx
      subst hx
      simp [Rd.runA, after]

private theorem body_runA (c : ProcContext) (st : ProcState) (s : RS) (p : Nat) (total : Int) (h : ObuHeader) (n : Int)
    (hv : s.valid = true) (hs : s.pos ≤ s.src.length) (hn : 0 ≤ n) (ht : 0 ≤ total) (hpos : (s.pos : Int) + 8 * n = p + 8 * total)
    (hp : p + 8 * total ≤ s.src.length) :
    Gives ((processBody c st p total h n).runA s)
      (bodyResult c st h ((rObuPayload (AudioFrame.read h) n).runA s).1.toOption ((readBlock c n).runA s).1.toOption
        ((rObuPayload rTemporalDelimiter n).runA s).1.toOption) s.src p total := by
  unfold processBody bodyResult
  split
  · have hsf := sf_obuPayload n (AudioFrame.sf h n) s
    have hin := Rd.runA_inside (rObuPayload (AudioFrame.read h) n) s hs
    have hv' := Rd.runA_valid (rObuPayload (AudioFrame.read h) n) s hv
    simp only [Rd.runA]
    match hx : (rObuPayload (AudioFrame.read h) n).runA s with
    | (.ok a, s') =>
      rw [hx] at hin hv'
      have := (obuPayload_ok hx hs).1
      rw [← hin.2] at hp ⊢
      exact finish_runA s' p total _ hv' ht hp fun _ => by omega
    | (.error e, s') =>
      rw [hx] at hsf hin hv'
      simp only at hsf
      simp only [hsf, Bool.false_eq_true, ↓reduceIte]
      rw [← hin.2] at hp ⊢
      have := finish_runA s' p total (.error e, none, st) hv' ht hp (fun h => by simp at h)
      simp only [finishResult, hsf, Bool.false_eq_true, ↓reduceIte] at this
      exact this
  · split
    · have hsf := sf_readBlock c n s
      have hin := Rd.runA_inside (readBlock c n) s hs
      have hv' := Rd.runA_valid (readBlock c n) s hv
      simp only [Rd.runA]
      match hx : (readBlock c n).runA s with
      | (.ok a, s') =>
        rw [hx] at hin hv'
        have hpos' : (s'.pos : Int) = p + 8 * total := by
          unfold readBlock at hx
          simp only [Rd.runA, parameterId_runA s hs] at hx
          split at hx
          · rename_i id s2 hy
            simp only [Prod.mk.injEq] at hy
            obtain ⟨-, rfl⟩ := hy
            cases hl : c.params.lookup id with
            | none => rw [hl] at hx; simp [Rd.runA] at hx
            | some q =>
              rw [hl] at hx
              simp only at hx
              obtain ⟨b, s3, h1, h2⟩ := Rd.runA_bind_ok hx
              simp only [Rd.runA, Prod.mk.injEq] at h2
              obtain ⟨-, rfl⟩ := h2
              have := (obuPayload_ok h1 hs).1
              simp only at this
              omega
          · rename_i e s2 hy
            split at hx <;> simp [Rd.runA] at hx
        rw [← hin.2] at hp ⊢
        exact finish_runA s' p total _ hv' ht hp fun _ => hpos'
      | (.error e, s') =>
        rw [hx] at hsf hin hv'
        simp only at hsf
        simp only [hsf, Bool.false_eq_true, ↓reduceIte]
        rw [← hin.2] at hp ⊢
        have := finish_runA s' p total (.error e, none, st) hv' ht hp (fun h => by simp at h)
        simp only [finishResult, hsf, Bool.false_eq_true, ↓reduceIte] at this
        exact this
    · split
      · have hsf := sf_obuPayload (derived := rTemporalDelimiter) n (Sf.ret (Q := fun _ => True) trivial) s
        have hin := Rd.runA_inside (rObuPayload rTemporalDelimiter n) s hs
        have hv' := Rd.runA_valid (rObuPayload rTemporalDelimiter n) s hv
        simp only [Rd.runA]
        match hx : (rObuPayload rTemporalDelimiter n).runA s with
        | (.ok a, s') =>
          rw [hx] at hin hv'
          have := (obuPayload_ok hx hs).1
          rw [← hin.2] at hp ⊢
          exact finish_runA s' p total (.ok (), some .delimiter, st) hv' ht hp fun _ => by omega
        | (.error e, s') =>
          rw [hx] at hsf hin hv'
          simp only at hsf
          simp only [hsf, Bool.false_eq_true, ↓reduceIte]
          rw [← hin.2] at hp ⊢
          have := finish_runA s' p total (.error e, none, st) hv' ht hp (fun h => by simp at h)
          simp only [finishResult, hsf, Bool.false_eq_true, ↓reduceIte] at this
          exact this
      · split
        · simp only [Rd.runA, seek_ok s p hv (by omega)]
          refine ⟨rfl, fun x hx => ?_⟩
          simp only [Except.ok.injEq] at hx
          subst hx
          simp [after]
        · split
          · exact ⟨rfl, fun x hx => by simp [Rd.runA] at hx⟩
          · rw [ignore_runA s n _ hn (by omega)]
            refine ⟨rfl, fun x hx => ?_⟩
            simp only [Rd.runA, Except.ok.injEq] at hx
            subst hx
            simp only [Rd.runA, after, ↓reduceIte, RS.mk.injEq, and_true, true_and]
            omega

/-- An OBU that is wholly there has the same outcome whatever comes behind. -/
private theorem obu_there (c : ProcContext) (st : ProcState) {r : Bits} {m : ObuType × Int} {h : ObuHeader} {n : Int} {s1 : RS}
    (hb : r.length < 8 * 4294967295) (hm : (ObuHeader.fillMetadata.runA ⟨r, 0, true⟩).1 = .ok m)
    (ha : m.2 ≤ ((r.length / 8 : Nat) : Int)) (hh : ObuHeader.read.runA ⟨r, 0, true⟩ = (.ok (h, n), s1)) :
    1 ≤ m.2 ∧ ∃ res, ∀ F, Gives ((processObu c st).runA ⟨r ++ F, 0, true⟩) res (r ++ F) 0 m.2 := by
  obtain ⟨-, h1, h2, h3, h4, h5, h6⟩ := header_after_peek (Nat.zero_le _) hb hm hh
  refine ⟨h1, bodyResult c st h ((rObuPayload (AudioFrame.read h) n).runA s1).1.toOption ((readBlock c n).runA s1).1.toOption
        ((rObuPayload rTemporalDelimiter n).runA s1).1.toOption, fun F => ?_⟩
  have e1 : (⟨r ++ F, 0, true⟩ : RS) = (⟨r, 0, true⟩ : RS).ext F := rfl
  have hfill := stable_fillMetadata ⟨r, 0, true⟩ F (Nat.zero_le _)
  have hfill' : (ObuHeader.fillMetadata.runA ⟨r ++ F, 0, true⟩).1 = .ok m := by
    match hx : ObuHeader.fillMetadata.runA ⟨r, 0, true⟩ with
    | (.error e, s') => rw [hx] at hm; simp at hm
    | (.ok m', s') =>
      rw [hx] at hfill hm
      simp only at hfill hm
      rw [e1, hfill]; exact hm
  have hhead := stable_header ⟨r, 0, true⟩ F (Nat.zero_le _)
  rw [hh] at hhead
  simp only at hhead
  rw [← e1] at hhead
  unfold processObu
  simp only [Rd.runA, peek_runA ⟨r ++ F, 0, true⟩ (Nat.zero_le _)]
  match hx : (ObuHeader.fillMetadata.runA ⟨r ++ F, 0, true⟩).1 with
  | .error e => rw [hx] at hfill'; simp at hfill'
  | .ok m' =>
    rw [hx] at hfill'
    simp only [Except.ok.injEq] at hfill'
    subst hfill'
    simp only [Rd.runA]
    rw [if_neg (by simp only [List.length_append]; omega)]
    simp only [Rd.runA, Rd.runA_bind, hhead]
    have hs1 : s1.pos ≤ s1.src.length := by rw [h2]; exact h6
    have hn1 : s1.pos + 8 * n ≤ s1.src.length := by rw [h2]; omega
    have := body_runA c st (s1.ext F) 0 m'.2 h n h3 (by simp only [RS.ext, List.length_append]; omega) h4 (by omega)
      (by simp only [RS.ext]; omega) (by simp only [RS.ext, List.length_append, h2]; omega)
    rw [payload_both (Rd.Seq.audioFrame h n) s1 F hs1 hn1, readBlock_both c s1 F hs1 hn1,
      payload_both (Rd.Seq.temporalDelimiter n) s1 F hs1 hn1] at this
    have e2 : (s1.ext F).src = r ++ F := by simp only [RS.ext, h2]
    rw [e2] at this
    exact this

/-! ### As a function of the data that is left -/

/-- The outcome of `ProcessTemporalUnitObu` on the bits that are left, and what is left of them. -/
def obuAt (c : ProcContext) (st : ProcState) (r : Bits) : Except Err (Bool × Option ProcOut × ProcState) × Bits :=
  (((processObu c st).runA ⟨r, 0, true⟩).1, ((processObu c st).runA ⟨r, 0, true⟩).2.rest)

private theorem processObu_valid (c : ProcContext) (st : ProcState) (s : RS) (hs : s.pos ≤ s.src.length) :
    (processObu c st).runA s = (processObu c st).runA { s with valid := true } := by
  unfold processObu
  simp only [Rd.runA, peek_runA s hs, peek_runA { s with valid := true } hs]

theorem obu_runA (c : ProcContext) (st : ProcState) (s : RS) (hs : s.pos ≤ s.src.length) :
    (((processObu c st).runA s).1, ((processObu c st).runA s).2.rest) = obuAt c st s.rest := by
  have e : (⟨s.rest, 0, true⟩ : RS).shift (s.src.take s.pos) = { s with valid := true } := by
    simp only [RS.shift, RS.rest, List.take_append_drop, List.length_take, RS.mk.injEq, and_true, true_and]
    omega
  rw [processObu_valid c st s hs, ← e, shifted_processObu _ c st ⟨s.rest, 0, true⟩ (Nat.zero_le _)]
  have hr : ∀ (pre : Bits) (x : RS), (x.shift pre).rest = x.rest := fun pre x => by simp [RS.shift, RS.rest]
  simp only [hr, obuAt]

/-- Either the OBU is consumed, the same way whatever comes behind, or nothing is. -/
theorem obuAt_local {c : ProcContext} {st st' : ProcState} {r r' : Bits} {cont : Bool} {out : Option ProcOut}
    (hb : r.length < 8 * 4294967295) (h : obuAt c st r = (.ok (cont, out, st'), r')) :
    (cont = true ∧ (∃ u, 8 ≤ u.length ∧ r = u ++ r') ∧ ∀ F, obuAt c st (r ++ F) = (.ok (true, out, st'), r' ++ F)) ∨
      (cont = false ∧ out = none ∧ st' = st ∧ r' = r) := by
  match hm : (ObuHeader.fillMetadata.runA ⟨r, 0, true⟩).1 with
  | .error e =>
    unfold obuAt processObu at h
    simp only [Rd.runA, peek_runA ⟨r, 0, true⟩ (Nat.zero_le _), hm] at h
    right
    by_cases he : e = .resourceExhausted
    · subst he
      simp only [Err.fatal, Bool.false_eq_true, ↓reduceIte, Rd.runA, Prod.mk.injEq, Except.ok.injEq] at h
      obtain ⟨⟨rfl, rfl, rfl⟩, rfl⟩ := h
      exact ⟨rfl, rfl, rfl, rfl⟩
    · simp only [he, ↓reduceIte, Rd.runA] at h
      split at h <;> simp at h
  | .ok m =>
    by_cases ha : m.2 ≤ ((r.length / 8 : Nat) : Int)
    · match hh : ObuHeader.read.runA ⟨r, 0, true⟩ with
      | (.error e, s1) =>
        exfalso
        unfold obuAt processObu at h
        simp only [Rd.runA, peek_runA ⟨r, 0, true⟩ (Nat.zero_le _), hm] at h
        rw [if_neg (by simpa using ha)] at h
        simp only [Rd.runA, Rd.runA_bind, hh] at h
        simp at h
      | (.ok (hd, n), s1) =>
        obtain ⟨h1, res, hres⟩ := obu_there c st hb hm ha hh
        have h0 := hres []
        simp only [List.append_nil] at h0
        obtain ⟨g1, g2⟩ := h0
        simp only [obuAt, Prod.mk.injEq] at h
        obtain ⟨k1, k2⟩ := h
        have g3 := g2 _ k1
        rw [g3] at k2
        have hlen : 8 * m.2.toNat ≤ r.length := by omega
        cases cont with
        | true =>
          left
          simp only [after, ↓reduceIte, RS.rest, Nat.zero_add] at k2
          refine ⟨rfl, ⟨r.take (8 * m.2.toNat), by rw [List.length_take]; omega, by rw [← k2, List.take_append_drop]⟩, fun F => ?_⟩
          obtain ⟨f1, f2⟩ := hres F
          have f3 : ((processObu c st).runA ⟨r ++ F, 0, true⟩).1 = .ok (true, out, st') := by rw [f1, ← g1, k1]
          simp only [obuAt, f3, f2 _ f3, after, ↓reduceIte, RS.rest, Nat.zero_add, Prod.mk.injEq, true_and]
          rw [List.drop_append_of_le_length hlen, k2]
        | false =>
          right
          simp only [after, Bool.false_eq_true, ↓reduceIte, RS.rest, List.drop_zero] at k2
          -- what the outcome is
          have hb' := body_runA c st s1 0 m.2 hd n
          obtain ⟨-, -, h2, h3, h4, h5, h6⟩ := header_after_peek (Nat.zero_le _) hb hm hh
          have hs1 : s1.pos ≤ s1.src.length := by rw [h2]; exact h6
          have hb' := hb' h3 hs1 h4 (by omega) h5 (by rw [h2]; omega)
          have hrun : (processObu c st).runA ⟨r, 0, true⟩ = (processBody c st (0 : Nat) m.2 hd n).runA s1 := by
            unfold processObu
            simp only [Rd.runA, peek_runA ⟨r, 0, true⟩ (Nat.zero_le _), hm]
            rw [if_neg (by simpa using ha)]
            simp only [Rd.runA, Rd.runA_bind, hh]
          rw [hrun, hb'.1] at k1
          have : out = none ∧ st' = st := by
            unfold bodyResult at k1
            have fin : ∀ {x : Except Err Unit × Option ProcOut × ProcState}, finishResult x ≠ .ok (false, out, st') := by
              intro x hx
              unfold finishResult at hx
              split at hx
              · simp at hx
              · split at hx <;> simp at hx
            split at k1
            · split at k1
              · simp at k1
              · exact absurd k1 fin
            · split at k1
              · split at k1
                · simp at k1
                · exact absurd k1 fin
              · split at k1
                · split at k1 <;> simp at k1
                · split at k1
                  · simp only [Except.ok.injEq, Prod.mk.injEq, true_and] at k1
                    exact ⟨k1.1.symm, k1.2.symm⟩
                  · split at k1 <;> simp at k1
          exact ⟨rfl, this.1, this.2, k2.symm⟩
    · unfold obuAt processObu at h
      simp only [Rd.runA, peek_runA ⟨r, 0, true⟩ (Nat.zero_le _), hm] at h
      rw [if_pos (by simpa using ha)] at h
      simp only [Rd.runA, Prod.mk.injEq, Except.ok.injEq] at h
      obtain ⟨⟨rfl, rfl, rfl⟩, rfl⟩ := h
      exact .inr ⟨rfl, rfl, rfl, rfl⟩

/-- An OBU that is waited for and then consumed when more data is there: no more than 2 MB were there. -/
theorem obuAt_waits {c : ProcContext} {st st' : ProcState} {r Q r' : Bits} {out : Option ProcOut}
    (hb : (r ++ Q).length < 8 * 4294967295) (h : obuAt c st r = (.ok (false, none, st), r))
    (h2 : obuAt c st (r ++ Q) = (.ok (true, out, st'), r')) : r.length < 8 * 2097152 := by
  have hb0 : r.length < 8 * 4294967295 := by rw [List.length_append] at hb; omega
  have e1 : (⟨r ++ Q, 0, true⟩ : RS) = (⟨r, 0, true⟩ : RS).ext Q := rfl
  -- the header of all of the data
  obtain ⟨m2, hm2, hd, n, s1, hh⟩ : ∃ m2, (ObuHeader.fillMetadata.runA ⟨r ++ Q, 0, true⟩).1 = .ok m2 ∧
      ∃ hd n s1, ObuHeader.read.runA ⟨r ++ Q, 0, true⟩ = (.ok (hd, n), s1) := by
    unfold obuAt processObu at h2
    simp only [Rd.runA, peek_runA ⟨r ++ Q, 0, true⟩ (Nat.zero_le _)] at h2
    match hm : (ObuHeader.fillMetadata.runA ⟨r ++ Q, 0, true⟩).1 with
    | .error e =>
      rw [hm] at h2
      simp only at h2
      split at h2
      · simp [Rd.runA] at h2
      · split at h2 <;> simp [Rd.runA] at h2
    | .ok m =>
      rw [hm] at h2
      simp only at h2
      split at h2
      · simp [Rd.runA] at h2
      · simp only [Rd.runA, Rd.runA_bind] at h2
        match hh : ObuHeader.read.runA ⟨r ++ Q, 0, true⟩ with
        | (.error e, s1) => rw [hh] at h2; simp at h2
        | (.ok (hd, n), s1) => exact ⟨m, rfl, hd, n, s1, rfl⟩
  obtain ⟨sz, l, g1, g2, g3, -⟩ := header_read_ok hh (Nat.zero_le _) hb
  have hsz : (sz + UInt32.ofNat l + 1).toNat = 1 + l + sz.toNat := by
    rw [UInt32.toNat_add, UInt32.toNat_add, UInt32.toNat_ofNat']
    simp only [kEntireObuSizeMaxTwoMegabytes] at g3
    have : (1 : UInt32).toNat = 1 := rfl
    omega
  simp only [kEntireObuSizeMaxTwoMegabytes] at g3
  match hm : ObuHeader.fillMetadata.runA ⟨r, 0, true⟩ with
  | (.error e, s2) =>
    have := Rd.Seq.fillMetadata.fwd.beyond (Nat.zero_le _) hm (by rw [← e1]; exact g2)
    simp only at this
    omega
  | (.ok m, s2) =>
    have hst := stable_fillMetadata ⟨r, 0, true⟩ Q (Nat.zero_le _)
    rw [hm] at hst
    simp only at hst
    rw [← e1, g2] at hst
    simp only [Prod.mk.injEq, Except.ok.injEq] at hst
    have hm1 : (ObuHeader.fillMetadata.runA ⟨r, 0, true⟩).1 = .ok m := by rw [hm]
    have hmv : m.2 = ((1 + l + sz.toNat : Nat) : Int) := by rw [← hst.1, ← hsz]
    by_cases ha : m.2 ≤ ((r.length / 8 : Nat) : Int)
    · exfalso
      match hh1 : ObuHeader.read.runA ⟨r, 0, true⟩ with
      | (.error e, s3) =>
        unfold obuAt processObu at h
        simp only [Rd.runA, peek_runA ⟨r, 0, true⟩ (Nat.zero_le _), hm1] at h
        rw [if_neg (by simpa using ha)] at h
        simp only [Rd.runA, Rd.runA_bind, hh1] at h
        simp at h
      | (.ok (hd1, n1), s3) =>
        obtain ⟨-, res, hres⟩ := obu_there c st hb0 hm1 ha hh1
        have a1 := (hres []).1
        have a2 := (hres Q).1
        rw [List.append_nil] at a1
        simp only [obuAt, Prod.mk.injEq] at h h2
        rw [h.1] at a1
        rw [h2.1, ← a1] at a2
        simp at a2
    · omega

/-! ### The units of the state -/

private theorem updateIfNeeded_units (c : ProcContext) (st : ProcState) :
    (updateIfNeeded c st).2.current = st.current ∧ (updateIfNeeded c st).2.next = st.next := by
  unfold updateIfNeeded
  split
  · exact ⟨rfl, rfl⟩
  · exact ⟨rfl, rfl⟩
  · exact ⟨rfl, rfl⟩

private theorem generateFrame_units (e : ElementWithData) (h : ObuHeader) (f : AudioFrame) (st : ProcState) :
    (generateFrame e h f st).2.current = st.current ∧ (generateFrame e h f st).2.next = st.next := by
  unfold generateFrame
  split
  · exact ⟨rfl, rfl⟩
  · split
    · exact ⟨rfl, rfl⟩
    · split
      · exact ⟨rfl, rfl⟩
      · split
        · exact ⟨rfl, rfl⟩
        · split <;> exact ⟨rfl, rfl⟩

theorem storeFrame_units (c : ProcContext) (h : ObuHeader) (f : AudioFrame) (st : ProcState) :
    (storeFrame c h f st).2.2.current = st.current ∧ (storeFrame c h f st).2.2.next = st.next := by
  unfold storeFrame
  split
  · exact ⟨rfl, rfl⟩
  · rename_i e _
    have h1 := generateFrame_units e h f st
    split
    · rename_i x st' hx; rw [hx] at h1; exact h1
    · rename_i w st' hx
      rw [hx] at h1
      have h2 := updateIfNeeded_units c st'
      exact ⟨h2.1.trans h1.1, h2.2.trans h1.2⟩

theorem storeBlock_units (h : ObuHeader) (p : ParamDef) (b : ParameterBlock) (st : ProcState) :
    (storeBlock h p b st).2.2.current = st.current ∧ (storeBlock h p b st).2.2.next = st.next := by
  unfold storeBlock
  split
  · exact ⟨rfl, rfl⟩
  · exact ⟨rfl, rfl⟩
  · split <;> exact ⟨rfl, rfl⟩

private theorem finishResult_units {x : Except Err Unit × Option ProcOut × ProcState} {y : Bool × Option ProcOut × ProcState}
    (h : finishResult x = .ok y) : y.1 = true ∧ y.2.2 = x.2.2 := by
  unfold finishResult at h
  split at h
  · simp only [Except.ok.injEq] at h; subst h; exact ⟨rfl, rfl⟩
  · split at h
    · simp at h
    · simp only [Except.ok.injEq] at h; subst h; exact ⟨rfl, rfl⟩

private theorem bodyResult_units {c : ProcContext} {st : ProcState} {h : ObuHeader} {f : Option (AudioFrame × List UInt8)}
    {b : Option (ParamDef × ParameterBlock)} {d : Option (Unit × List UInt8)} {y : Bool × Option ProcOut × ProcState}
    (hy : bodyResult c st h f b d = .ok y) :
    y.2.2.current = st.current ∧ y.2.2.next = st.next ∧ (y.1 = false → ∀ st', bodyResult c st' h f b d = .ok (false, none, st')) := by
  unfold bodyResult at hy ⊢
  split at hy
  · split at hy
    · simp only [Except.ok.injEq] at hy; subst hy; exact ⟨rfl, rfl, by simp⟩
    · obtain ⟨h1, h2⟩ := finishResult_units hy
      rw [h2]
      exact ⟨(storeFrame_units ..).1, (storeFrame_units ..).2, by simp [h1]⟩
  · split at hy
    · split at hy
      · simp only [Except.ok.injEq] at hy; subst hy; exact ⟨rfl, rfl, by simp⟩
      · obtain ⟨h1, h2⟩ := finishResult_units hy
        rw [h2]
        exact ⟨(storeBlock_units ..).1, (storeBlock_units ..).2, by simp [h1]⟩
    · split at hy
      · split at hy
        · simp only [Except.ok.injEq] at hy; subst hy; exact ⟨rfl, rfl, by simp⟩
        · simp only [Except.ok.injEq] at hy; subst hy; exact ⟨rfl, rfl, by simp⟩
      · split at hy
        · simp only [Except.ok.injEq] at hy; subst hy
          refine ⟨rfl, rfl, fun _ st' => ?_⟩
          simp_all
        · split at hy
          · simp at hy
          · simp only [Except.ok.injEq] at hy; subst hy; exact ⟨rfl, rfl, by simp⟩

/-- What `obuAt` is, in the order of the code. -/
theorem obuAt_eq (c : ProcContext) (st : ProcState) (r : Bits) :
    obuAt c st r = match (ObuHeader.fillMetadata.runA ⟨r, 0, true⟩).1 with
      | .error e => if e = .resourceExhausted then (.ok (false, none, st), r) else (.error e, r)
      | .ok m => if ((r.length / 8 : Nat) : Int) < m.2 then (.ok (false, none, st), r)
        else match ObuHeader.read.runA ⟨r, 0, true⟩ with
          | (.error e, s1) => (.error e, s1.rest)
          | (.ok (h, n), s1) =>
            (((processBody c st (0 : Nat) m.2 h n).runA s1).1, ((processBody c st (0 : Nat) m.2 h n).runA s1).2.rest) := by
  unfold obuAt processObu
  simp only [Rd.runA, peek_runA ⟨r, 0, true⟩ (Nat.zero_le _)]
  have hsf := sf_fillMetadata_nonneg ⟨r, 0, true⟩
  match hm : ObuHeader.fillMetadata.runA ⟨r, 0, true⟩ with
  | (.error e, s1) =>
    rw [hm] at hsf
    simp only at hsf ⊢
    simp only [hsf, Bool.false_eq_true, ↓reduceIte]
    by_cases he : e = .resourceExhausted
    · subst he; rfl
    · simp only [he, ↓reduceIte, Rd.runA]; rfl
  | (.ok m, s1) =>
    simp only [Nat.sub_zero]
    by_cases ha : ((r.length / 8 : Nat) : Int) < m.2
    · simp only [ha, ↓reduceIte, Rd.runA]; rfl
    · simp only [ha, ↓reduceIte, Rd.runA, Rd.runA_bind]
      match hh : ObuHeader.read.runA ⟨r, 0, true⟩ with
      | (.error e, s2) => rfl
      | (.ok (h, n), s2) => rfl

private theorem body_of {c : ProcContext} {r : Bits} {m : ObuType × Int} {h : ObuHeader} {n : Int} {s1 : RS}
    (hb : r.length < 8 * 4294967295) (hm : (ObuHeader.fillMetadata.runA ⟨r, 0, true⟩).1 = .ok m)
    (ha : ¬ ((r.length / 8 : Nat) : Int) < m.2) (hh : ObuHeader.read.runA ⟨r, 0, true⟩ = (.ok (h, n), s1)) :
    ∃ f b d, ∀ st, Gives ((processBody c st (0 : Nat) m.2 h n).runA s1) (bodyResult c st h f b d) s1.src 0 m.2 ∧ s1.src = r := by
  obtain ⟨-, -, h2, h3, h4, h5, h6⟩ := header_after_peek (Nat.zero_le _) hb hm hh
  have hs1 : s1.pos ≤ s1.src.length := by rw [h2]; exact h6
  exact ⟨_, _, _, fun st => ⟨body_runA c st s1 0 m.2 h n h3 hs1 h4 (by omega) h5 (by rw [h2]; omega), h2⟩⟩

/-- An OBU that is not refused does not change the units, and if it stops the processing does so in every state. -/
theorem obuAt_units {c : ProcContext} {st st' : ProcState} {r r' : Bits} {cont : Bool} {out : Option ProcOut}
    (hb : r.length < 8 * 4294967295) (h : obuAt c st r = (.ok (cont, out, st'), r')) :
    st'.current = st.current ∧ st'.next = st.next ∧ (cont = false → ∀ st2, obuAt c st2 r = (.ok (false, none, st2), r)) := by
  rw [obuAt_eq] at h
  simp only [obuAt_eq c _ r]
  match hm : (ObuHeader.fillMetadata.runA ⟨r, 0, true⟩).1 with
  | .error e =>
    rw [hm] at h
    simp only at h ⊢
    by_cases he : e = .resourceExhausted
    · simp only [he, ↓reduceIte, Prod.mk.injEq, Except.ok.injEq] at h ⊢
      obtain ⟨⟨rfl, rfl, rfl⟩, rfl⟩ := h
      simp
    · simp [he] at h
  | .ok m =>
    rw [hm] at h
    simp only at h ⊢
    by_cases ha : ((r.length / 8 : Nat) : Int) < m.2
    · simp only [ha, ↓reduceIte, Prod.mk.injEq, Except.ok.injEq] at h ⊢
      obtain ⟨⟨rfl, rfl, rfl⟩, rfl⟩ := h
      simp
    · simp only [ha, ↓reduceIte] at h ⊢
      match hh : ObuHeader.read.runA ⟨r, 0, true⟩ with
      | (.error e, s2) => rw [hh] at h; simp at h
      | (.ok (hd, n), s2) =>
        rw [hh] at h
        simp only [Prod.mk.injEq] at h ⊢
        obtain ⟨f, b, d, hbody⟩ := body_of (c := c) hb hm ha hh
        obtain ⟨⟨g1, g2⟩, hsrc⟩ := hbody st
        rw [g1] at h
        obtain ⟨u1, u2, u3⟩ := bodyResult_units h.1
        refine ⟨u1, u2, fun hc st2 => ?_⟩
        obtain ⟨⟨k1, k2⟩, -⟩ := hbody st2
        have := u3 hc st2
        rw [k1, this]
        refine ⟨rfl, ?_⟩
        rw [k2 _ (k1.trans this), hsrc]
        simp [after, RS.rest]

/-- An OBU that is accepted when more data is there is not refused before. -/
theorem obuAt_before {c : ProcContext} {st : ProcState} {r F r' : Bits} {y : Bool × Option ProcOut × ProcState}
    (hb : (r ++ F).length < 8 * 4294967295) (h : obuAt c st (r ++ F) = (.ok y, r')) : ∃ z r1, obuAt c st r = (.ok z, r1) := by
  have hbr : r.length < 8 * 4294967295 := by rw [List.length_append] at hb; omega
  have e1 : (⟨r ++ F, 0, true⟩ : RS) = (⟨r, 0, true⟩ : RS).ext F := rfl
  match hm : ObuHeader.fillMetadata.runA ⟨r, 0, true⟩ with
  | (.error e, s1) =>
    by_cases he : e = .resourceExhausted
    · rw [obuAt_eq, hm]
      simp only [he, ↓reduceIte]
      exact ⟨_, _, rfl⟩
    · exfalso
      have := Rd.Seq.fillMetadata.fwd.refused F (Nat.zero_le _) hm he
      rw [obuAt_eq, e1, this] at h
      simp [he] at h
  | (.ok m, s1) =>
    by_cases ha : ((r.length / 8 : Nat) : Int) < m.2
    · rw [obuAt_eq, hm]
      simp only [ha, ↓reduceIte]
      exact ⟨_, _, rfl⟩
    · have hfill := stable_fillMetadata ⟨r, 0, true⟩ F (Nat.zero_le _)
      rw [hm] at hfill
      simp only at hfill
      have hfill' : (ObuHeader.fillMetadata.runA ⟨r ++ F, 0, true⟩).1 = .ok m := by rw [e1, hfill]
      have ha2 : ¬ ((((r ++ F).length / 8 : Nat) : Int) < m.2) := by
        rw [List.length_append]; omega
      match hh : ObuHeader.read.runA ⟨r, 0, true⟩ with
      | (.error e, s2) =>
        exfalso
        match hh2 : ObuHeader.read.runA ⟨r ++ F, 0, true⟩ with
        | (.error e2, s3) =>
          rw [obuAt_eq, hfill'] at h
          simp only [ha2, ↓reduceIte, hh2] at h
          simp at h
        | (.ok (hd, n), s3) =>
          have h1 := Rd.Seq.header.fwd.beyond (Nat.zero_le _) hh (by rw [← e1]; exact hh2)
          obtain ⟨-, k1, k2, k3, k4, k5, k6⟩ := header_after_peek (Nat.zero_le _) hb hfill' hh2
          simp only at h1 k5
          omega
      | (.ok (hd, n), s2) =>
        obtain ⟨-, res, hres⟩ := obu_there c st hbr (by rw [hm]) (by omega) hh
        have g0 := (hres []).1
        have gF := (hres F).1
        rw [List.append_nil] at g0
        simp only [obuAt, Prod.mk.injEq] at h
        rw [gF] at h
        exact ⟨y, _, Prod.ext (by simp only [obuAt, g0, h.1]) rfl⟩

end Iamf
