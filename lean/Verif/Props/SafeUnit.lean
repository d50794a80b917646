import Verif.Props.MixRender
import Verif.Props.Parameters
import Verif.Cli.DecoderTrace
/-
  For C52: the loop over the OBUs of temporal units ends, with a status or a unit, whatever the bytes are.
-/
namespace Iamf.Props
open Iamf

/-- A definition that parameter blocks are read with: its schedule was made, and a definition of a mix gain has a default gain. -/
def SafeDefinition (p : ParamDef) : Prop := p.Made ∧ (p.spec.type = 0 → ∃ g, p.spec = .mixGain g)

structure SafeContext (c : ProcContext) : Prop where
  codecs : ∀ id e, c.substreams.lookup id = some e → e.codec.isSome
  definitions : ∀ id p, c.params.lookup id = some p → SafeDefinition p.1

structure SafeState (st : ProcState) : Prop where
  quiet : Quiet st.params
  current : ∀ b ∈ st.current.blocks, BlockOk b
  later : ∀ b ∈ st.next.blocks, BlockOk b

private theorem mixing_quiet {pm : ParametersManager} (h : Quiet pm) (e : UInt32) :
    (∀ x, (pm.getDownMixing e).1 = .error x → x.fatal = false) ∧ (pm.getDownMixing e).2 = pm := by
  unfold ParametersManager.getDownMixing
  cases hd : pm.demix e with
  | none => exact ⟨fun x hx => (by cases hx), rfl⟩
  | some st =>
    simp only [h.1 e st hd]
    refine ⟨fun x hx => ?_, trivial⟩
    unfold dmixpModeToParams at hx
    split at hx
    · cases hx; rfl
    · dsimp only at hx
      split at hx
      · cases hx; rfl
      · cases hx

private theorem recon_quiet {pm : ParametersManager} (h : Quiet pm) (e : UInt32) (n : Int32) :
    ∃ r, pm.getReconGain e n = .ok r := by
  unfold ParametersManager.getReconGain
  cases hd : pm.recon e with
  | none => exact ⟨_, rfl⟩
  | some st => simp only [h.2 e st hd]; exact ⟨_, rfl⟩

private theorem update_quiet {pm : ParametersManager} (h : Quiet pm) (t : Int) :
    ∀ l, updateParameterStates t l pm = (.ok (), pm) := by
  intro l
  induction l with
  | nil => rfl
  | cons x l ih =>
    obtain ⟨id, e⟩ := x
    unfold updateParameterStates
    have h1 : pm.updateDemixing id t = (.ok (), pm) := by
      unfold ParametersManager.updateDemixing
      cases hd : pm.demix id with
      | none => rfl
      | some st => simp only [h.1 id st hd]
    have h2 : pm.updateReconGain id t = (.ok (), pm) := by
      unfold ParametersManager.updateReconGain
      cases hd : pm.recon id with
      | none => rfl
      | some st => simp only [h.2 id st hd]
    rw [h1]
    simp only
    rw [h2]
    exact ih

private theorem global_mild {g : TimingModule} {e : Err} (h : g.globalTimestamp = .error e) : e.fatal = false := by
  unfold TimingModule.globalTimestamp at h
  split at h
  · cases h; rfl
  · cases h

private theorem stamps_mild {id d : UInt32} {m : List (UInt32 × TimingData)} {e : Err} (h : (timestampsForId id d m).1.1 = .error e) :
    e.fatal = false := by
  unfold timestampsForId at h
  split at h
  · cases h; rfl
  · cases h

private theorem frame_safe {e : ElementWithData} (hc : e.codec.isSome) (h : ObuHeader) (f : AudioFrame) {st : ProcState}
    (hq : Quiet st.params) :
    (∀ x, (generateFrame e h f st).1 = .error x → x.fatal = false) ∧ (generateFrame e h f st).2.params = st.params := by
  unfold generateFrame
  split
  · exact ⟨fun x hx => (by cases hx; rfl), rfl⟩
  · cases hco : e.codec with
    | none => rw [hco] at hc; cases hc
    | some c =>
      simp only
      split
      · next x _ g hg =>
        refine ⟨fun y hy => ?_, rfl⟩
        cases hy
        unfold TimingModule.nextFrame at hg
        simp only [Prod.mk.injEq] at hg
        exact stamps_mild (congrArg Prod.fst hg.1)
      · obtain ⟨m1, m2⟩ := mixing_quiet hq e.obu.elementId
        split
        · next hx =>
          rw [hx] at m1 m2
          refine ⟨fun y hy => ?_, m2⟩
          cases hy
          exact m1 _ rfl
        · next pm hx =>
          rw [hx] at m2
          simp only at m2
          subst m2
          obtain ⟨r, hr⟩ := recon_quiet hq e.obu.elementId (Int32.ofNat e.data.layers.length)
          rw [hr]
          exact ⟨fun y hy => (by cases hy), rfl⟩

private theorem storeFrame_safe {c : ProcContext} (hc : SafeContext c) (h : ObuHeader) (f : AudioFrame) {st : ProcState}
    (hs : SafeState st) :
    (∀ x, (storeFrame c h f st).1 = .error x → x.fatal = false) ∧ SafeState (storeFrame c h f st).2.2 ∧
      ∀ b, (storeFrame c h f st).2.1 ≠ some (.block b) := by
  have hu := storeFrame_units c h f st
  have hp : (storeFrame c h f st).2.2.params = st.params ∧ (∀ x, (storeFrame c h f st).1 = .error x → x.fatal = false) ∧
      ∀ b, (storeFrame c h f st).2.1 ≠ some (.block b) := by
    unfold storeFrame
    split
    · exact ⟨rfl, fun x hx => (by cases hx; rfl), fun b => by simp⟩
    · next e he =>
      obtain ⟨h1, h2⟩ := frame_safe (hc.codecs _ _ he) h f hs.quiet
      split
      · next hx =>
        rw [hx] at h1 h2
        exact ⟨h2, fun y hy => by cases hy; exact h1 _ rfl, fun b => by simp⟩
      · next w st1 hx =>
        rw [hx] at h2
        simp only at h2
        have : (updateIfNeeded c st1).2.params = st1.params ∧ ∀ x, (updateIfNeeded c st1).1 = .error x → x.fatal = false := by
          unfold updateIfNeeded
          split
          · next hg => exact ⟨rfl, fun x hx => by cases hx; exact global_mild hg⟩
          · exact ⟨rfl, fun x hx => (by cases hx)⟩
          · rw [update_quiet (by rw [h2]; exact hs.quiet)]
            exact ⟨rfl, fun x hx => (by cases hx)⟩
        exact ⟨this.1.trans h2, this.2, fun b => by simp⟩
  exact ⟨hp.2.1, ⟨by rw [hp.1]; exact hs.quiet, by rw [hu.1]; exact hs.current, by rw [hu.2]; exact hs.later⟩, hp.2.2⟩

/-- What is known of a block that was read. -/
private def ReadWith (p : ParamDef) (b : ParameterBlock) : Prop := ∀ start stop h, BlockOk ⟨b, start, stop, h, p⟩

private theorem storeBlock_safe (h : ObuHeader) {p : ParamDef} {b : ParameterBlock} (hb : ReadWith p b) {st : ProcState} (hs : SafeState st) :
    (∀ x, (storeBlock h p b st).1 = .error x → x.fatal = false) ∧ SafeState (storeBlock h p b st).2.2 ∧
      ∀ b', (storeBlock h p b st).2.1 = some (.block b') → BlockOk b' := by
  have hu := storeBlock_units h p b st
  have hp : (storeBlock h p b st).2.2.params = st.params ∧ (∀ x, (storeBlock h p b st).1 = .error x → x.fatal = false) ∧
      ∀ b', (storeBlock h p b st).2.1 = some (.block b') → BlockOk b' := by
    unfold storeBlock
    split
    · next hg => exact ⟨rfl, fun x hx => by cases hx; exact global_mild hg, fun b' hb' => (by cases hb')⟩
    · exact ⟨rfl, fun x hx => (by cases hx; rfl), fun b' hb' => (by cases hb')⟩
    · split
      · next t _ e _ g hg =>
        refine ⟨rfl, fun x hx => ?_, fun b' hb' => (by cases hb')⟩
        cases hx
        unfold TimingModule.nextBlock at hg
        simp only [Prod.mk.injEq] at hg
        have := hg.1.1
        split at this
        · next hy => cases this; exact stamps_mild hy
        · split at this
          · cases this
          · cases this; rfl
      · exact ⟨rfl, fun x hx => (by cases hx), fun b' hb' => by cases hb'; exact hb _ _ _⟩
  exact ⟨hp.2.1, ⟨by rw [hp.1]; exact hs.quiet, by rw [hu.1]; exact hs.current, by rw [hu.2]; exact hs.later⟩, hp.2.2⟩

private theorem readBlock_safe {c : ProcContext} (hc : SafeContext c) (n : Int) : Sf (readBlock c n) fun r => ReadWith r.1 r.2 := by
  unfold readBlock
  refine Sf.attempt sf_peekParameterId (fun id _ => ?_) (fun e _ => Sf.fail rfl)
  simp only
  split
  · exact Sf.fail rfl
  · next p hp =>
    refine (sf_obuPayload n (ParameterBlock.sf p.1 n)).bind fun r hr => Sf.ret ?_
    obtain ⟨h1, h2⟩ := hc.definitions _ _ hp
    obtain ⟨-, -, data, d1, d2, d3, d4⟩ := hr
    intro start stop h
    cases hsch : p.1.base.schedule with
    | some s =>
      obtain ⟨e1, e2⟩ := d3 s hsch
      exact ⟨s, data, .inr ⟨e1, hsch⟩, h1 s hsch, e2, d1, d2, h2⟩
    | none =>
      obtain ⟨s, e1, e2, e3⟩ := d4 hsch
      exact ⟨s, data, .inl e1, e2, e3, d1, d2, h2⟩

/-- What one OBU gives. -/
private def SafeOut (r : Bool × Option ProcOut × ProcState) : Prop := SafeState r.2.2 ∧ ∀ b, r.2.1 = some (.block b) → BlockOk b

private theorem ignore_safe {α : Type} {n : Int} {k : Rd α} {Q : α → Prop} (h : Sf k Q) : Sf (rIgnoreBytes n k) Q := by
  unfold rIgnoreBytes
  exact Sf.tell fun p => Sf.seek h

private theorem finish_safe {pos total : Int} {x : Except Err Unit × Option ProcOut × ProcState} (h1 : ∀ e, x.1 = .error e → e.fatal = false)
    (h2 : SafeState x.2.2) (h3 : ∀ b, x.2.1 = some (.block b) → BlockOk b) : Sf (finishObu pos total x) SafeOut := by
  unfold finishObu
  split
  · exact Sf.ret ⟨h2, h3⟩
  · next e out st =>
    rw [h1 e rfl]
    simp only [Bool.false_eq_true, if_false]
    exact Sf.seek (ignore_safe (Sf.ret ⟨h2, h3⟩))

private theorem obu_safe {c : ProcContext} (hc : SafeContext c) {st : ProcState} (hs : SafeState st) : Sf (processObu c st) SafeOut := by
  have same : ∀ k : Bool, SafeOut (k, none, st) := fun k => ⟨hs, fun b hb => by cases hb⟩
  have err : ∀ (pos total : Int) (e : Err), e.fatal = false → Sf (finishObu pos total (.error e, none, st)) SafeOut := fun pos total e he =>
    finish_safe (fun x hx => by cases hx; exact he) hs fun b hb => by cases hb
  unfold processObu
  refine Sf.attempt sf_peek_nonneg (fun m _ => ?_) (fun e he => ?_)
  · refine Sf.avail fun n => Sf.ite (fun _ => Sf.ret (same _)) fun _ => Sf.tell fun pos => sf_header.bind fun hd _ => ?_
    unfold processBody
    refine Sf.ite (fun _ => ?_) fun _ => Sf.ite (fun _ => ?_) fun _ => Sf.ite (fun _ => ?_) fun _ => Sf.ite (fun _ => ?_) fun _ =>
      Sf.ite (fun _ => ?_) fun _ => ?_
    · refine Sf.attempt (sf_obuPayload _ (AudioFrame.sf hd.1 _)) (fun r _ => ?_) (fun e he => err _ _ _ he)
      obtain ⟨a, b, x⟩ := storeFrame_safe hc hd.1 r.1 hs
      exact finish_safe a b fun b' hb' => absurd hb' (x b')
    · refine Sf.attempt (readBlock_safe hc _) (fun r hr => ?_) (fun e he => err _ _ _ he)
      obtain ⟨a, b, x⟩ := storeBlock_safe hd.1 hr hs
      exact finish_safe a b x
    · refine Sf.attempt (sf_obuPayload _ (Sf.any (by unfold rTemporalDelimiter; sf_auto))) (fun r _ => ?_) (fun e he => err _ _ _ he)
      exact finish_safe (fun x hx => (by cases hx)) hs fun b hb => (by cases hb)
    · exact Sf.seek (Sf.ret (same _))
    · exact Sf.fail rfl
    · exact ignore_safe (Sf.ret (same _))
  · simp only
    split
    · exact Sf.ret (same _)
    · exact Sf.fail he

/-- A temporal unit that is handed on. -/
def SafeUnit (u : OutputUnit) : Prop := ∀ b ∈ u.blocks, BlockOk b

private theorem collect_safe {out : Option ProcOut} {st : ProcState} (hs : SafeState st) (ho : ∀ b, out = some (.block b) → BlockOk b) :
    SafeState (collectOut out st).1 := by
  have add : ∀ (t : Int) (f : UnitData → UnitData), (∀ u, (∀ b ∈ u.blocks, BlockOk b) → ∀ b ∈ (f u).blocks, BlockOk b) →
      SafeState (addData t f st) := by
    intro t f hf
    unfold addData
    have hcur : ∀ b ∈ (if st.current.timestamp.isNone then { st.current with timestamp := some t } else st.current).blocks, BlockOk b := by
      split
      · exact hs.current
      · exact hs.current
    dsimp only
    generalize (if st.current.timestamp.isNone then { st.current with timestamp := some t } else st.current) = cur at hcur
    split
    · exact ⟨hs.quiet, hf _ hcur, hs.later⟩
    · exact ⟨hs.quiet, hcur, hf _ hs.later⟩
  unfold collectOut
  split
  · exact hs
  · next f => exact add f.frame.start (fun u => { u with frames := u.frames ++ [f] }) fun u hu => hu
  · next b =>
    refine add b.start (fun u => { u with blocks := u.blocks ++ [b] }) fun u hu b' hb' => ?_
    rcases List.mem_append.mp hb' with h | h
    · exact hu b' h
    · simp only [List.mem_singleton] at h
      subst h
      exact ho _ rfl
  · exact ⟨hs.quiet, hs.current, hs.later⟩

private theorem loop_safe {c : ProcContext} (hc : SafeContext c) (eos : Bool) : ∀ (fuel : Nat) (st : ProcState) (s : RS), SafeState st →
    s.pos ≤ s.src.length → s.rest.length < 8 * 4294967295 → s.rest.length / 8 < fuel →
    ∃ r st' s', (processUnitLoop c eos fuel st).runA s = (.ok (r, st'), s') ∧ SafeState st' ∧ (∀ e, r = .error e → e.fatal = false) ∧
      ∀ u cont, r = .ok (some u, cont) → SafeUnit u := by
  intro fuel
  induction fuel with
  | zero => intro st s _ _ _ h; omega
  | succ fuel ih =>
    intro st s hst hs hb hf
    simp only [processUnitLoop, Rd.runA]
    have hobu := obu_runA c st s hs
    have hin := Rd.runA_inside (processObu c st) s hs
    have hsf := obu_safe hc hst s
    match hx : (processObu c st).runA s with
    | (.error e, s1) =>
      rw [hx] at hsf
      simp only at hsf
      simp only [hsf, Bool.false_eq_true, if_false, Rd.runA]
      exact ⟨_, _, _, rfl, hst, fun e' he' => by cases he'; exact hsf, fun u k h => (by cases h)⟩
    | (.ok (cont, out, st1), s1) =>
      rw [hx] at hobu hin hsf
      simp only at hobu hin hsf ⊢
      have hsafe := collect_safe hsf.1 hsf.2
      have hfinish : ∃ r st' s', (if ((collectOut out st1).1.current.frames.isEmpty && (collectOut out st1).1.current.blocks.isEmpty) = true
            then Rd.ret ((.ok (none, cont), (collectOut out st1).1) : Except Err (Option OutputUnit × Bool) × ProcState)
            else Rd.ret ((.ok (some ⟨(collectOut out st1).1.current.frames, (collectOut out st1).1.current.blocks,
              (collectOut out st1).1.current.timestamp.getD 0⟩, cont),
              { (collectOut out st1).1 with current := (collectOut out st1).1.next, next := .empty }) :
              Except Err (Option OutputUnit × Bool) × ProcState)).runA s1 = (.ok (r, st'), s') ∧ SafeState st' ∧
            (∀ e, r = .error e → e.fatal = false) ∧ ∀ u cont, r = .ok (some u, cont) → SafeUnit u := by
        split
        · exact ⟨_, _, _, rfl, hsafe, fun e he => (by cases he), fun u k h => (by cases h)⟩
        · exact ⟨_, _, _, rfl, ⟨hsafe.quiet, hsafe.later, fun b hb => (by cases hb)⟩, fun e he => (by cases he),
            fun u k h => by cases h; exact hsafe.current⟩
      by_cases h1 : ((!cont && eos) || (collectOut out st1).1.next.timestamp.isSome || (collectOut out st1).2) = true
      · rw [if_pos h1]; exact hfinish
      · rw [if_neg h1]
        cases cont with
        | false => exact ⟨_, _, _, rfl, hsafe, fun e he => (by cases he), fun u k h => (by cases h)⟩
        | true =>
          simp only [if_true]
          rcases obuAt_local hb hobu.symm with ⟨-, ⟨w, hw, hr⟩, -⟩ | ⟨h0, -⟩
          · have hlen := congrArg List.length hr
            rw [List.length_append] at hlen
            exact ih _ _ hsafe hin.1 (by omega) (by omega)
          · cases h0

/-- `ProcessTemporalUnit` always ends, with a status or a unit, and leaves everything as it should be. -/
theorem processUnit_safe {c : ProcContext} (hc : SafeContext c) (eos : Bool) {st : ProcState} (hst : SafeState st) {b : RBuf} (hf : b.Fit) :
    ∃ r st' b', (processUnit c eos st).run b = (.ok (r, st'), b') ∧ b'.Fit ∧ SafeState st' ∧ (∀ e, r = .error e → e.fatal = false) ∧
      ∀ u cont, r = .ok (some u, cont) → SafeUnit u := by
  obtain ⟨q1, -, q3, -⟩ := (processUnit c eos st).run_refines b hf.wf
  have hfit := hf.run (processUnit c eos st)
  have key : ∃ r st' s', (processUnit c eos st).runA b.abs = (.ok (r, st'), s') ∧ SafeState st' ∧ (∀ e, r = .error e → e.fatal = false) ∧
      ∀ u cont, r = .ok (some u, cont) → SafeUnit u := by
    unfold processUnit
    simp only [Rd.runA]
    refine loop_safe hc eos _ st b.abs hst hf.pos hf.rest ?_
    simp only [Int.toNat_natCast, RS.rest, List.length_drop]
    omega
  obtain ⟨r, st', s', k1, k2, k3, k4⟩ := key
  match hx : (processUnit c eos st).run b with
  | (res, b') =>
    rw [hx, k1] at q1
    rw [hx] at hfit
    simp only at q1
    subst q1
    exact ⟨r, st', b', rfl, hfit, k2, k3, k4⟩

end Iamf.Props
