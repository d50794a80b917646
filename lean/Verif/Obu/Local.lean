import Verif.Obu.Logic
import Verif.Obu.Params
import Verif.Obu.Simple
import Verif.Cli.Descriptors
/-
  Readers that only read forward, and what data elsewhere in the source means to them: data behind what they read
  (`Fwd.local_`), and data before it (`Shifted`).
-/
namespace Iamf

/-! ### Sequential readers -/

/-- A program that only reads literals. -/
def Rd.Seq {α : Type} : Rd α → Prop
  | .ret _ => True
  | .fail _ => True
  | .lit _ _ k => ∀ v, (k v).Seq
  | .tell _ => False
  | .seek _ _ => False
  | .avail _ => False
  | .attempt _ _ => False

namespace Rd.Seq

theorem bind {α β : Type} {p : Rd α} {f : α → Rd β} (h : p.Seq) (hf : ∀ a, (f a).Seq) : (p.bind f).Seq := by
  induction p with
  | ret a => exact hf a
  | fail e => trivial
  | lit m n k ih => exact fun v => ih v (h v) hf
  | tell k => exact h.elim
  | seek p k => exact h.elim
  | avail k => exact h.elim
  | attempt m k => exact h.elim

theorem ite {α : Type} {c : Prop} [Decidable c] {p q : Rd α} (h1 : p.Seq) (h2 : q.Seq) : (if c then p else q).Seq := by
  split
  · exact h1
  · exact h2

theorem check {c : Bool} {e : Err} : (Rd.check c e).Seq := by
  cases c <;> trivial

theorem status {st : Except Err Unit} : (Rd.status st).Seq := by
  match st with
  | .ok () => trivial
  | .error e => trivial

theorem bytes (n : Nat) : (rBytes n).Seq := by
  induction n with
  | zero => trivial
  | succ n ih => exact bind (fun _ => trivial) fun _ => ih.bind fun _ => trivial

theorem rep {α : Type} {p : Rd α} (h : p.Seq) (n : Nat) : (rRep p n).Seq := by
  induction n with
  | zero => trivial
  | succ n ih => exact h.bind fun _ => ih.bind fun _ => trivial

theorem accum {f : Nat → Nat → Nat → Nat} {mx fuel i acc : Nat} : (accumLoop f mx fuel i acc).Seq := by
  induction fuel generalizing i acc with
  | zero => trivial
  | succ fuel ih =>
    intro v
    simp only
    split
    · trivial
    · split
      · trivial
      · split
        · trivial
        · exact ih

theorem ulebSize : rUlebSize.Seq := accum
theorem uleb : rUleb.Seq := ulebSize.bind fun _ => trivial
theorem sized : rSized.Seq := uleb.bind fun _ => check.bind fun _ => bytes _

theorem fillMetadata : ObuHeader.fillMetadata.Seq := by
  unfold ObuHeader.fillMetadata
  exact bind (fun _ => trivial) fun _ => bind (fun _ => trivial) fun _ => bind (fun _ => trivial) fun _ =>
    bind (fun _ => trivial) fun _ => ulebSize.bind fun _ => trivial

theorem header : ObuHeader.read.Seq := by
  unfold ObuHeader.read
  refine bind (fun _ => trivial) fun _ => bind (fun _ => trivial) fun _ => bind (fun _ => trivial) fun _ =>
    bind (fun _ => trivial) fun _ => ulebSize.bind fun _ => status.bind fun _ => ?_
  refine bind (ite (ulebSize.bind fun _ => ulebSize.bind fun _ => trivial) trivial) fun _ => ?_
  refine bind (ite ulebSize trivial) fun _ => check.bind fun _ => ?_
  refine bind (ite ((bytes _).bind fun _ => trivial) trivial) fun _ => check.bind fun _ => trivial

theorem audioFrame (h : ObuHeader) (n : Int) : (AudioFrame.read h n).Seq := by
  unfold AudioFrame.read
  exact bind (ite ulebSize trivial) fun _ => check.bind fun _ => (bytes _).bind fun _ => trivial

theorem temporalDelimiter (n : Int) : (rTemporalDelimiter n).Seq := trivial

theorem reconGains (flag : UInt32) (n : Nat) (mask : UInt32) : (rReconGains flag n mask).Seq := by
  induction n generalizing mask with
  | zero => trivial
  | succ n ih => exact bind (ite (fun _ => trivial) trivial) fun _ => (ih _).bind fun _ => trivial

theorem reconGainInfo (l : List Bool) : (rReconGainInfo l).Seq := by
  induction l with
  | nil => trivial
  | cons b l ih =>
    cases b
    · exact ih.bind fun _ => trivial
    · exact uleb.bind fun _ => (reconGains _ _ _).bind fun _ => ih.bind fun _ => trivial

theorem mixGain : MixGainData.read.Seq := by
  unfold MixGainData.read
  refine uleb.bind fun _ => ite ?_ (ite ?_ (ite ?_ trivial))
  · exact bind (fun _ => trivial) fun _ => trivial
  · exact bind (fun _ => trivial) fun _ => bind (fun _ => trivial) fun _ => trivial
  · exact bind (fun _ => trivial) fun _ => bind (fun _ => trivial) fun _ => bind (fun _ => trivial) fun _ =>
      bind (fun _ => trivial) fun _ => trivial

theorem demixing : DemixingInfo.read.Seq := by
  unfold DemixingInfo.read
  exact bind (fun _ => trivial) fun _ => bind (fun _ => trivial) fun _ => check.bind fun _ => trivial

theorem paramData (p : ParamSpecific) : (rParamData p).Seq := by
  unfold rParamData
  split
  · exact mixGain.bind fun _ => trivial
  · exact demixing.bind fun _ => trivial
  · exact (reconGainInfo _).bind fun _ => trivial
  · exact sized.bind fun _ => trivial
  · trivial

theorem schedule {β : Type} {p : Rd β} (h : p.Seq) : (SubblockSchedule.parse p).Seq := by
  unfold SubblockSchedule.parse
  refine uleb.bind fun _ => uleb.bind fun _ => ite ?_ ?_
  · split
    · trivial
    · exact (rep h _).bind fun _ => trivial
  · refine uleb.bind fun _ => check.bind fun _ => check.bind fun _ => check.bind fun _ => ?_
    refine Rd.Seq.bind (rep (Rd.Seq.bind uleb fun _ => Rd.Seq.bind h fun _ => ?_) _) fun _ => ?_
    · trivial
    split
    · trivial
    · exact check.bind fun _ => trivial

theorem parameterBlock (p : ParamDef) (n : Int) : (ParameterBlock.read p n).Seq := by
  unfold ParameterBlock.read
  refine check.bind fun _ => uleb.bind fun _ => check.bind fun _ => ?_
  split
  · exact (rep (paramData _) _).bind fun _ => trivial
  · exact (schedule (paramData _)).bind fun _ => trivial

end Rd.Seq

/-! ### Data behind -/

/-- A program that only reads literals and asks for the position. -/
def Rd.Fwd {α : Type} : Rd α → Prop
  | .ret _ => True
  | .fail _ => True
  | .lit _ _ k => ∀ v, (k v).Fwd
  | .tell k => ∀ v, (k v).Fwd
  | .seek _ _ => False
  | .avail _ => False
  | .attempt _ _ => False

theorem Rd.Seq.fwd {α : Type} {p : Rd α} (h : p.Seq) : p.Fwd := by
  induction p with
  | ret a => trivial
  | fail e => trivial
  | lit m n k ih => exact fun v => ih v (h v)
  | tell k => exact h.elim
  | seek p k => exact h.elim
  | avail k => exact h.elim
  | attempt m k => exact h.elim

namespace Rd.Fwd

theorem bind {α β : Type} {p : Rd α} {f : α → Rd β} (h : p.Fwd) (hf : ∀ a, (f a).Fwd) : (p.bind f).Fwd := by
  induction p with
  | ret a => exact hf a
  | fail e => trivial
  | lit m n k ih => exact fun v => ih v (h v) hf
  | tell k ih => exact fun v => ih v (h v) hf
  | seek p k => exact h.elim
  | avail k => exact h.elim
  | attempt m k => exact h.elim

theorem payload {α : Type} {derived : Int → Rd α} {n : Int} (h : (derived n).Seq) : (rObuPayload derived n).Fwd := by
  intro start
  refine bind h.fwd fun a => fun fin => ?_
  simp only
  split
  · trivial
  · split
    · split
      · trivial
      · exact bind (Rd.Seq.bytes _).fwd fun _ => trivial
    · trivial

theorem stable {α : Type} {p : Rd α} (h : p.Fwd) : Stable p := by
  induction p with
  | ret a => exact Stable.ret a
  | fail e => exact Stable.fail e
  | lit m n k ih => exact Stable.lit fun v => ih v (h v)
  | tell k ih => exact Stable.tell fun v => ih v (h v)
  | seek p k => exact h.elim
  | avail k => exact h.elim
  | attempt m k => exact h.elim

theorem mono {α : Type} {p : Rd α} (h : p.Fwd) (s : RS) : s.pos ≤ (p.runA s).2.pos := by
  induction p generalizing s with
  | ret a => exact Nat.le_refl _
  | fail e => exact Nat.le_refl _
  | lit m n k ih =>
    simp only [Rd.runA, RS.read]
    split
    · rename_i v s' hx
      refine Nat.le_trans ?_ (ih v (h v) s')
      split at hx
      · simp at hx
      · split at hx
        · simp at hx
        · split at hx
          · simp at hx
          · simp only [Prod.mk.injEq, Except.ok.injEq] at hx
            rw [← hx.2]; simp
    · rename_i e s' hx
      split at hx
      · simp only [Prod.mk.injEq] at hx; rw [← hx.2]; exact Nat.le_refl _
      · split at hx
        · simp only [Prod.mk.injEq] at hx; rw [← hx.2]; exact Nat.le_refl _
        · split at hx
          · simp only [Prod.mk.injEq] at hx; rw [← hx.2]; exact Nat.le_refl _
          · simp at hx
  | tell k ih => exact ih _ (h _) { s with valid := true }
  | seek p k => exact h.elim
  | avail k => exact h.elim
  | attempt m k => exact h.elim

/-- A reader that fails, but succeeds once more data is there, reads some of the data that was added. -/
theorem beyond {α : Type} {p : Rd α} (h : p.Fwd) {s s1 s2 : RS} {x : Bits} {e : Err} {a : α} (hs : s.pos ≤ s.src.length)
    (h1 : p.runA s = (.error e, s1)) (h2 : p.runA (s.ext x) = (.ok a, s2)) : s.src.length < s2.pos := by
  induction p generalizing s with
  | ret a => simp [Rd.runA] at h1
  | fail e => simp [Rd.runA] at h2
  | lit m n k ih =>
    simp only [Rd.runA, RS.read] at h1 h2
    by_cases c1 : n > m
    · simp [c1] at h2
    · by_cases c2 : n < 0
      · simp [c1, c2] at h2
      · by_cases c3 : s.pos + n.toNat > s.src.length
        · by_cases c4 : (s.ext x).pos + n.toNat > (s.ext x).src.length
          · simp [c1, c2, c4] at h2
          · simp only [c1, c2, c4, ↓reduceIte] at h2
            have := (h (bitsNat (List.take n.toNat (s.ext x).rest))).mono { s.ext x with pos := (s.ext x).pos + n.toNat, valid := true }
            rw [h2] at this
            simp only [RS.ext] at this
            omega
        · have c4 : ¬ ((s.ext x).pos + n.toNat > (s.ext x).src.length) := by
            simp only [RS.ext, List.length_append]; omega
          have c5 : (s.ext x).rest.take n.toNat = s.rest.take n.toNat := by
            simp only [RS.rest, RS.ext]
            rw [List.drop_append_of_le_length hs, List.take_append_of_le_length]
            simp only [List.length_drop]; omega
          simp only [c1, c2, c3, c4, c5, ↓reduceIte] at h1 h2
          exact ih _ (h _) (s := { s with pos := s.pos + n.toNat, valid := true }) (by simp only; omega) h1 h2
  | tell k ih => exact ih _ (h _) (s := { s with valid := true }) hs h1 h2
  | seek p k => exact h.elim
  | avail k => exact h.elim
  | attempt m k => exact h.elim

/-- An error other than a lack of data stays when more data is there. -/
theorem refused {α : Type} {p : Rd α} (h : p.Fwd) {s s1 : RS} (x : Bits) {e : Err} (hs : s.pos ≤ s.src.length)
    (h1 : p.runA s = (.error e, s1)) (he : e ≠ .resourceExhausted) : (p.runA (s.ext x)).1 = .error e := by
  induction p generalizing s with
  | ret a => simp [Rd.runA] at h1
  | fail e' =>
    simp only [Rd.runA, Prod.mk.injEq, Except.error.injEq] at h1
    simp [Rd.runA, h1.1]
  | lit m n k ih =>
    simp only [Rd.runA, RS.read] at h1 ⊢
    by_cases c1 : n > m
    · simp only [c1, ↓reduceIte, Prod.mk.injEq, Except.error.injEq] at h1 ⊢
      exact h1.1
    · by_cases c2 : n < 0
      · simp only [c1, c2, ↓reduceIte, Prod.mk.injEq, Except.error.injEq] at h1 ⊢
        exact h1.1
      · by_cases c3 : s.pos + n.toNat > s.src.length
        · simp only [c1, c2, c3, ↓reduceIte, Prod.mk.injEq, Except.error.injEq] at h1
          exact absurd h1.1.symm he
        · have c4 : ¬ ((s.ext x).pos + n.toNat > (s.ext x).src.length) := by
            simp only [RS.ext, List.length_append]; omega
          have c5 : (s.ext x).rest.take n.toNat = s.rest.take n.toNat := by
            simp only [RS.rest, RS.ext]
            rw [List.drop_append_of_le_length hs, List.take_append_of_le_length]
            simp only [List.length_drop]; omega
          simp only [c1, c2, c3, c4, c5, ↓reduceIte] at h1 ⊢
          exact ih _ (h _) (s := { s with pos := s.pos + n.toNat, valid := true }) (by simp only; omega) h1
  | tell k ih => exact ih _ (h _) (s := { s with valid := true }) hs h1
  | seek p k => exact h.elim
  | avail k => exact h.elim
  | attempt m k => exact h.elim

end Rd.Fwd

/-! ### Data before -/

/-- The same cursor in a source with more data before it. -/
def RS.shift (pre : Bits) (s : RS) : RS := ⟨pre ++ s.src, pre.length + s.pos, s.valid⟩

/-- `p` does with data before the source what `q` does without. -/
def Shifted {α : Type} (pre : Bits) (p q : Rd α) : Prop :=
  ∀ s, s.pos ≤ s.src.length → p.runA (s.shift pre) = ((q.runA s).1, (q.runA s).2.shift pre)

namespace Shifted
variable {pre : Bits}

theorem ret {α : Type} (a : α) : Shifted pre (.ret a) (.ret a) := fun _ _ => rfl
theorem fail {α : Type} (e : Err) : Shifted pre (.fail e : Rd α) (.fail e) := fun _ _ => rfl

theorem lit {α : Type} {m : Nat} {n : Int} {k k' : Nat → Rd α} (h : ∀ v, Shifted pre (k v) (k' v)) :
    Shifted pre (.lit m n k) (.lit m n k') := by
  intro s hs
  have hlen : ((s.shift pre).pos + n.toNat > (s.shift pre).src.length) ↔ (s.pos + n.toNat > s.src.length) := by
    simp only [RS.shift, List.length_append]; omega
  have hrest : (s.shift pre).rest = s.rest := by simp [RS.rest, RS.shift]
  simp only [Rd.runA, RS.read, hlen, hrest]
  by_cases c1 : n > m
  · simp only [c1, ↓reduceIte]
  · by_cases c2 : n < 0
    · simp only [c1, c2, ↓reduceIte]
    · by_cases c3 : s.pos + n.toNat > s.src.length
      · simp only [c1, c2, c3, ↓reduceIte]; rfl
      · simp only [c1, c2, c3, ↓reduceIte]
        have := h (bitsNat (s.rest.take n.toNat)) { s with pos := s.pos + n.toNat, valid := true } (by simp only; omega)
        rw [← this]
        simp only [RS.shift, Nat.add_assoc]

theorem seq {α : Type} {p : Rd α} (h : p.Seq) : Shifted pre p p := by
  induction p with
  | ret a => exact Shifted.ret a
  | fail e => exact Shifted.fail e
  | lit m n k ih => exact Shifted.lit fun v => ih v (h v)
  | tell k => exact h.elim
  | seek p k => exact h.elim
  | avail k => exact h.elim
  | attempt m k => exact h.elim

theorem tell {α : Type} {k k' : Int → Rd α} (h : ∀ a : Nat, Shifted pre (k ((pre.length + a : Nat) : Int)) (k' a)) :
    Shifted pre (.tell k) (.tell k') := fun s hs => h s.pos { s with valid := true } hs

theorem seek {α : Type} {p q : Int} {k k' : Rd α} (h : Shifted pre k k') (hq : 0 ≤ q) (hp : p = pre.length + q) :
    Shifted pre (.seek p k) (.seek q k') := by
  intro s hs
  simp only [Rd.runA, RS.seek]
  by_cases c1 : (!s.valid) = true
  · have c1' : (!(s.shift pre).valid) = true := c1
    simp only [c1, c1', ↓reduceIte]
  · have c1' : ¬ (!(s.shift pre).valid) = true := c1
    have c2 : ¬ p < 0 := by omega
    have c2' : ¬ q < 0 := by omega
    have c3 : (p > ((s.shift pre).src.length : Int)) ↔ (q > (s.src.length : Int)) := by
      simp only [RS.shift, List.length_append]; omega
    by_cases c4 : q > (s.src.length : Int)
    · simp only [c1, c1', c2, c2', c3, c4, ↓reduceIte]; rfl
    · simp only [c1, c1', c2, c2', c3, c4, ↓reduceIte]
      have := h { s with pos := q.toNat } (by simp only; omega)
      simp only [Bool.false_eq_true, ↓reduceIte]
      rw [← this]
      simp only [RS.shift]
      congr 2
      omega

theorem avail {α : Type} {k k' : Int → Rd α} (h : ∀ n : Nat, Shifted pre (k n) (k' n)) : Shifted pre (.avail k) (.avail k') := by
  intro s hs
  simp only [Rd.runA]
  have e : (s.shift pre).src.length - (s.shift pre).pos = s.src.length - s.pos := by
    simp only [RS.shift, List.length_append]; omega
  rw [e]
  exact h _ s hs

theorem attempt {α β : Type} {m m' : Rd β} {k k' : Except Err β → Rd α} {Q : β → Prop} (hm : Shifted pre m m') (hq : Sf m' Q)
    (ho : ∀ a, Q a → Shifted pre (k (.ok a)) (k' (.ok a))) (he : ∀ e, Shifted pre (k (.error e)) (k' (.error e))) :
    Shifted pre (.attempt m k) (.attempt m' k') := by
  intro s hs
  simp only [Rd.runA, hm s hs]
  have hin := Rd.runA_inside m' s hs
  have hpost := hq s
  match hx : m'.runA s with
  | (.ok a, s') => rw [hx] at hin hpost; exact ho a hpost s' hin.1
  | (.error e, s') =>
    rw [hx] at hin hpost
    simp only at hpost
    simp only [hpost]
    exact he e s' hin.1

theorem bind {α β : Type} {p p' : Rd α} {f f' : α → Rd β} {Q : α → Prop} (hp : Shifted pre p p') (hq : Sf p' Q)
    (hf : ∀ a, Q a → Shifted pre (f a) (f' a)) : Shifted pre (p.bind f) (p'.bind f') := by
  intro s hs
  rw [Rd.runA_bind, Rd.runA_bind, hp s hs]
  have hin := Rd.runA_inside p' s hs
  have hpost := hq s
  match hx : p'.runA s with
  | (.ok a, s') => rw [hx] at hin hpost; exact hf a hpost s' hin.1
  | (.error e, s') => rfl

theorem ite {α : Type} {c : Prop} [Decidable c] {p p' q q' : Rd α} (h1 : Shifted pre p p') (h2 : Shifted pre q q') :
    Shifted pre (if c then p else q) (if c then p' else q') := by
  split
  · exact h1
  · exact h2

theorem ignore {α : Type} {n : Int} {k k' : Rd α} (hn : 0 ≤ n) (h : Shifted pre k k') :
    Shifted pre (rIgnoreBytes n k) (rIgnoreBytes n k') :=
  tell fun a => seek h (by omega) (by omega)

theorem peek : Shifted pre ObuHeader.peek ObuHeader.peek := by
  refine tell fun a => attempt (seq Rd.Seq.fillMetadata) sf_fillMetadata (fun m _ => ?_) (fun e => ?_)
  · exact seek (Shifted.ret _) (by omega) (by omega)
  · exact seek (Shifted.fail _) (by omega) (by omega)

theorem parameterId : Shifted pre peekParameterId peekParameterId := by
  refine tell fun a => attempt (seq Rd.Seq.uleb) Sf.uleb (fun m _ => ?_) (fun e => ?_)
  · exact seek (Shifted.ret _) (by omega) (by omega)
  · exact seek (Shifted.fail _) (by omega) (by omega)

theorem payload {α : Type} {derived : Int → Rd α} {Q : α → Prop} (n : Int) (h : (derived n).Seq) (hq : Sf (derived n) Q) :
    Shifted pre (rObuPayload derived n) (rObuPayload derived n) := by
  unfold rObuPayload
  refine tell fun a => bind (seq h) hq fun v _ => tell fun b => ?_
  simp only
  have e1 : (((pre.length + a : Nat) : Int) + n * 8 = ((pre.length + b : Nat) : Int)) ↔ ((a : Int) + n * 8 = b) := by omega
  have e2 : (((pre.length + a : Nat) : Int) + n * 8 > ((pre.length + b : Nat) : Int)) ↔ ((a : Int) + n * 8 > b) := by omega
  have e3 : (((pre.length + a : Nat) : Int) + n * 8 - ((pre.length + b : Nat) : Int)) = ((a : Int) + n * 8 - b) := by omega
  simp only [e1, e2, e3]
  refine ite (Shifted.ret _) (ite (ite (Shifted.fail _) ?_) (Shifted.fail _))
  exact seq ((Rd.Seq.bytes _).bind fun _ => trivial)

end Shifted

end Iamf
