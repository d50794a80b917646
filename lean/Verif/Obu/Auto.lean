import Verif.Obu.Logic
/-
  Small tactics for `Sf _ (fun _ => True)` and `Stable _` goals.  `sf_leaf` / `stable_leaf` are extended
  with one rule per reader.
-/
namespace Iamf

theorem Sf.bindT {α β : Type} {p : Rd α} {f : α → Rd β} {R : β → Prop}
    (h1 : Sf p (fun _ => True)) (h2 : ∀ a, Sf (f a) R) : Sf (p.bind f) R := h1.bind fun a _ => h2 a
theorem Sf.retT {α : Type} (a : α) : Sf (.ret a) (fun _ => True) := Sf.ret trivial
theorem Sf.repT {α : Type} {p : Rd α} (h : Sf p (fun _ => True)) (n : Nat) : Sf (rRep p n) (fun _ => True) :=
  (Sf.rep h n).any
theorem Sf.attemptT {α β : Type} {m : Rd β} {k : Except Err β → Rd α} {Q : α → Prop} (hm : Sf m (fun _ => True))
    (hk : ∀ a, Sf (k (.ok a)) Q) (he : ∀ e, e.fatal = false → Sf (k (.error e)) Q) : Sf (.attempt m k) Q :=
  Sf.attempt hm (fun a _ => hk a) he
theorem Sf.checkT {c : Bool} {e : Err} (h : e.fatal = false) : Sf (Rd.check c e) (fun _ => True) := (Sf.check h).any
theorem Sf.statusT {st : Except Err Unit} (h : ∀ e, st = .error e → e.fatal = false) :
    Sf (Rd.status st) (fun _ => True) := (Sf.status h).any

syntax "sf_leaf" : tactic
syntax "stable_leaf" : tactic
macro_rules | `(tactic| sf_leaf) => `(tactic| fail)
macro_rules | `(tactic| stable_leaf) => `(tactic| fail)
macro_rules | `(tactic| sf_leaf) => `(tactic| exact Sf.any (Sf.u8 _))
macro_rules | `(tactic| sf_leaf) => `(tactic| exact Sf.any (Sf.u16 _))
macro_rules | `(tactic| sf_leaf) => `(tactic| exact Sf.any (Sf.u32 _))
macro_rules | `(tactic| sf_leaf) => `(tactic| exact Sf.any (Sf.u64 _))
macro_rules | `(tactic| sf_leaf) => `(tactic| exact Sf.any (Sf.bytes _))
macro_rules | `(tactic| sf_leaf) => `(tactic| exact Sf.any Sf.ulebSize)
macro_rules | `(tactic| sf_leaf) => `(tactic| exact Sf.any Sf.uleb)
macro_rules | `(tactic| sf_leaf) => `(tactic| exact Sf.any Sf.bool)
macro_rules | `(tactic| sf_leaf) => `(tactic| exact Sf.any Sf.string)
macro_rules | `(tactic| sf_leaf) => `(tactic| exact Sf.any Sf.s16)
macro_rules | `(tactic| sf_leaf) => `(tactic| exact Sf.any Sf.s9)
macro_rules | `(tactic| sf_leaf) => `(tactic| exact Sf.any Sf.s8)
macro_rules | `(tactic| sf_leaf) => `(tactic| exact Sf.any (Sf.iso _))
macro_rules | `(tactic| sf_leaf) => `(tactic| exact Sf.retT _)
macro_rules | `(tactic| sf_leaf) => `(tactic| exact Sf.fail rfl)
macro_rules | `(tactic| sf_leaf) => `(tactic| exact Sf.checkT rfl)
macro_rules | `(tactic| stable_leaf) => `(tactic| exact Stable.u8 _)
macro_rules | `(tactic| stable_leaf) => `(tactic| exact Stable.u16 _)
macro_rules | `(tactic| stable_leaf) => `(tactic| exact Stable.u32 _)
macro_rules | `(tactic| stable_leaf) => `(tactic| exact Stable.u64 _)
macro_rules | `(tactic| stable_leaf) => `(tactic| exact Stable.bytes _)
macro_rules | `(tactic| stable_leaf) => `(tactic| exact Stable.ulebSize)
macro_rules | `(tactic| stable_leaf) => `(tactic| exact Stable.uleb)
macro_rules | `(tactic| stable_leaf) => `(tactic| exact Stable.bool)
macro_rules | `(tactic| stable_leaf) => `(tactic| exact Stable.string)
macro_rules | `(tactic| stable_leaf) => `(tactic| exact Stable.s16)
macro_rules | `(tactic| stable_leaf) => `(tactic| exact Stable.s9)
macro_rules | `(tactic| stable_leaf) => `(tactic| exact Stable.s8)
macro_rules | `(tactic| stable_leaf) => `(tactic| exact Stable.iso _)
macro_rules | `(tactic| stable_leaf) => `(tactic| exact Stable.ret _)
macro_rules | `(tactic| stable_leaf) => `(tactic| exact Stable.fail _)
macro_rules | `(tactic| stable_leaf) => `(tactic| exact Stable.check)
macro_rules | `(tactic| stable_leaf) => `(tactic| exact Stable.status)

macro "sf_step" : tactic => `(tactic| with_reducible first
  | sf_leaf
  | (refine Sf.bindT ?_ ?_)
  | (refine Sf.repT ?_ _)
  | (refine Sf.tell ?_)
  | (refine Sf.seek ?_)
  | (intro _)
  | (split))
macro "stable_step" : tactic => `(tactic| with_reducible first
  | stable_leaf
  | (refine Stable.bind ?_ ?_)
  | (refine Stable.rep ?_ _)
  | (refine Stable.tell ?_)
  | (refine Stable.seek ?_)
  | (intro _)
  | (split))
/-- Prove `Sf p (fun _ => True)` for a straight-line reader. -/
macro "sf_auto" : tactic => `(tactic| ((try simp only [Rd.bind_eq, Rd.pure_eq]); repeat' sf_step))
/-- Prove `Stable p` for a straight-line reader. -/
macro "stable_auto" : tactic => `(tactic| ((try simp only [Rd.bind_eq, Rd.pure_eq]); repeat' stable_step))

end Iamf
