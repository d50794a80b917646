import Verif.Obu.ParamsProofs
/-
  Round trips of programs whose output fits into an OBU (2 MiB).  Readers reject longer extension fields,
  so for these fields only the bounded round trip holds.
-/
namespace Iamf

/-- `RT`, restricted to outputs of at most 2 MiB. -/
def RTB {α : Type} (g : LebGen) (w : Wr Unit) (r : Rd α) (a : α) : Prop :=
  ∀ bs, w.eval g = (.ok (), bs) → bs.length ≤ 8 * 2097152 → Reads r bs a

theorem RT.b {α : Type} {g : LebGen} {w : Wr Unit} {r : Rd α} {a : α} (h : RT g w r a) : RTB g w r a :=
  fun bs hb _ => h bs hb

theorem RTB.payload {α : Type} {g : LebGen} {w : Wr Unit} {d : Int → Rd α} {footer : List UInt8} {a : α}
    (h : ∀ n, RTB g w (d n) a) : RTPayload g w d footer a := fun bs hb _ hl => h _ bs hb hl

theorem RTB.ret {α : Type} (g : LebGen) (a : α) : RTB g (Wr.ret ()) (Rd.ret a) a := (RT.ret g a).b

theorem RTB.seq {α β : Type} {g : LebGen} {w1 w2 : Wr Unit} {r1 : Rd α} {f : α → Rd β} {a : α} {b : β}
    (h1 : RTB g w1 r1 a) (h2 : RTB g w2 (f a) b) : RTB g (w1.bind fun _ => w2) (r1.bind f) b := by
  intro bs hb hl
  rw [Wr.eval_bind_ok] at hb
  obtain ⟨_, b1, b2, e1, e2, rfl⟩ := hb
  rw [List.length_append] at hl
  exact (h1 b1 e1 (by omega)).bind (h2 b2 e2 (by omega))

theorem RTB.map {α β : Type} {g : LebGen} {w : Wr Unit} {r : Rd α} {a : α} {f : α → Rd β} {b : β}
    (h : RTB g w r a) (hf : f a = Rd.ret b) : RTB g w (r.bind f) b := by
  intro bs hb hl
  have := (h bs hb hl).bind (f := f) (b2 := []) (b := b) (by rw [hf]; exact Reads.ret b)
  rw [List.append_nil] at this
  exact this

/-- Append a reader that consumes nothing. -/
theorem RTB.seqR {α β : Type} {g : LebGen} {w : Wr Unit} {r : Rd α} {f : α → Rd β} {a : α} {b : β}
    (h : RTB g w r a) (hf : Reads (f a) [] b) : RTB g w (r.bind f) b := by
  intro bs hb hl
  have := (h bs hb hl).bind (f := f) hf
  rw [List.append_nil] at this
  exact this

theorem RTB.checkW {α : Type} {g : LebGen} {w : Wr Unit} {r : Rd α} {a : α} {c : Bool} {e : Err}
    (h : c = true → RTB g w r a) : RTB g ((Wr.check c e).bind fun _ => w) r a := by
  intro bs hb hl
  obtain ⟨hc, hb⟩ := Wr.check_bind_ok hb
  exact h hc bs hb hl

theorem RTB.checkR {β : Type} {g : LebGen} {w : Wr Unit} {f : Unit → Rd β} {b : β} {c : Bool} {e : Err}
    (hc : c = true) (h : RTB g w (f ()) b) : RTB g w ((Rd.check c e).bind f) b := by
  subst hc; exact h

theorem RTB.statusW {α : Type} {g : LebGen} {w : Wr Unit} {r : Rd α} {a : α} {st : Except Err Unit}
    (h : st = .ok () → RTB g w r a) : RTB g ((Wr.status st).bind fun _ => w) r a := by
  intro bs hb hl
  obtain ⟨hc, hb⟩ := Wr.status_bind_ok hb
  exact h hc bs hb hl

theorem RTB.statusR {β : Type} {g : LebGen} {w : Wr Unit} {f : Unit → Rd β} {b : β} {st : Except Err Unit}
    (hc : st = .ok ()) (h : RTB g w (f ()) b) : RTB g w ((Rd.status st).bind f) b := by
  subst hc; exact h

theorem RTB.fail {α : Type} {g : LebGen} {e : Err} {r : Rd α} {a : α} : RTB g (Wr.fail e) r a := by
  intro bs hb; simp at hb

theorem RTB.failBind {α : Type} {g : LebGen} {e : Err} {w : Wr Unit} {r : Rd α} {a : α} :
    RTB g ((Wr.fail e : Wr Unit).bind fun _ => w) r a := by
  intro bs hb; simp [Wr.bind] at hb

theorem RTB.rep {α : Type} (g : LebGen) (w : α → Wr Unit) (r : Rd α) (l : List α)
    (h : ∀ a ∈ l, RTB g (w a) r a) : RTB g (wAll w l) (rRep r l.length) l := by
  induction l with
  | nil => exact RTB.ret g []
  | cons a as ih =>
    exact (h a (by simp)).seq ((ih fun x hx => h x (by simp [hx])).map rfl)

/-- Like `RTB.rep`, with a normalisation of each element. -/
theorem RTB.repN {α β : Type} (g : LebGen) (w : α → Wr Unit) (r : Rd β) (nf : α → β) (l : List α)
    (h : ∀ a ∈ l, RTB g (w a) r (nf a)) : RTB g (wAll w l) (rRep r l.length) (l.map nf) := by
  induction l with
  | nil => exact RTB.ret g []
  | cons a as ih =>
    exact (h a (by simp)).seq ((ih fun x hx => h x (by simp [hx])).map rfl)

theorem RTB.sized (g : LebGen) (l : List UInt8) : RTB g (wSized l) rSized l := by
  intro bs hb hl
  have hb' := hb
  unfold wSized at hb
  simp only [Wr.bind_eq] at hb
  rw [Wr.eval_bind_ok] at hb
  obtain ⟨_, b1, b2, e1, e2, rfl⟩ := hb
  have := wBytes_ok e2
  subst this
  rw [List.length_append, bytesBits_length] at hl
  exact rt_sized g l (by omega) _ hb'

syntax "rtb_leaf" : tactic
macro "rtb_use" t:term : tactic => `(tactic| first
  | with_reducible refine RTB.seq $t ?_
  | (with_reducible refine RTB.map $t ?_; with_reducible rfl)
  | with_reducible exact $t)
syntax "rtb_more" : tactic
macro_rules | `(tactic| rtb_more) => `(tactic| fail)
macro "rtb_step" : tactic => `(tactic| first
  | with_reducible exact RTB.ret _ _
  | rtb_use (RT.b (rt_Uleb _ _)) | rtb_use (RT.b (rt_U8_8 _ _)) | rtb_use (RT.b (rt_S16 _ _)) | rtb_use (RT.b (rt_S8 _ _))
  | rtb_use (RT.b (rt_Bool _ _)) | rtb_use (RT.b (rt_String _ _))
  | rtb_use (RT.b (rt_U8_7 _ _)) | rtb_use (RT.b (rt_U8_6 _ _)) | rtb_use (RT.b (rt_U8_5 _ _))
  | rtb_use (RT.b (rt_U8_4 _ _)) | rtb_use (RT.b (rt_U8_3 _ _)) | rtb_use (RT.b (rt_U8_2 _ _))
  | rtb_use (RT.b (rt_U8_1 _ _)) | rtb_use (RT.b (rt_U16_16 _ _)) | rtb_use (RT.b (rt_U32_32 _ _))
  | rtb_use (RTB.sized _ _) | rtb_use (RT.b (rt_Bytes _ _)) | rtb_more)
/-- Prove `RTB` for straight-line code, as far as it goes. -/
macro "rtb_auto" : tactic => `(tactic| ((try simp only [Wr.bind_eq, Wr.pure_eq, Rd.bind_eq, Rd.pure_eq]); repeat rtb_step))

end Iamf
