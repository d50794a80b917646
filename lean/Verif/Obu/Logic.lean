import Verif.Obu.Inv
/-
  Two program logics for readers on arbitrary input:
  * `Sf p Q`: `p` never aborts, has undefined behaviour or diverges; whatever it returns satisfies `Q`.
  * `Stable p`: appending data can only turn a "need more data" failure into something else.
-/
namespace Iamf

/-- A position obtained from `Tell` stays usable. -/
theorem Rd.runA_valid {α : Type} (p : Rd α) (x : RS) (h : x.valid = true) : (p.runA x).2.valid = true := by
  induction p generalizing x with
  | ret a => exact h
  | fail e => exact h
  | lit m n k ih =>
    simp only [Rd.runA]
    have : (x.read n m).2.valid = true := by
      unfold RS.read; split
      · exact h
      · split
        · exact h
        · split <;> rfl
    match hx : x.read n m with
    | (.ok v, x') => rw [hx] at this; exact ih v x' this
    | (.error e, x') => rw [hx] at this; exact this
  | tell k ih => exact ih _ _ rfl
  | seek q k ih =>
    simp only [Rd.runA]
    have : (x.seek q).2.valid = true := by
      unfold RS.seek; split
      · exact h
      · split
        · exact h
        · split <;> exact h
    match hx : x.seek q with
    | (.ok v, x') => rw [hx] at this; exact ih x' this
    | (.error e, x') => rw [hx] at this; exact this
  | avail k ih => exact ih _ _ h
  | attempt m k ihm ih =>
    simp only [Rd.runA]
    have := ihm x h
    match hx : m.runA x with
    | (.ok v, x') => rw [hx] at this; exact ih _ x' this
    | (.error e, x') =>
      rw [hx] at this
      simp only
      split
      · exact this
      · exact ih _ x' this

/-! ### Safety with a postcondition -/

/-- `p` never ends fatally, and a returned value satisfies `Q`. -/
def Sf {α : Type} (p : Rd α) (Q : α → Prop) : Prop :=
  ∀ s, match (p.runA s).1 with
    | .ok a => Q a
    | .error e => e.fatal = false

namespace Sf

theorem ret {α : Type} {a : α} {Q : α → Prop} (h : Q a) : Sf (.ret a) Q := fun _ => h
theorem fail {α : Type} {e : Err} {Q : α → Prop} (h : e.fatal = false) : Sf (.fail e) Q := fun _ => h

theorem bind {α β : Type} {p : Rd α} {f : α → Rd β} {Q : α → Prop} {R : β → Prop}
    (h1 : Sf p Q) (h2 : ∀ a, Q a → Sf (f a) R) : Sf (p.bind f) R := by
  intro s
  rw [Rd.runA_bind]
  have := h1 s
  match hx : p.runA s with
  | (.ok a, s') => rw [hx] at this; exact h2 a this s'
  | (.error e, s') => rw [hx] at this; exact this

theorem weaken {α : Type} {p : Rd α} {Q R : α → Prop} (h : Sf p Q) (hi : ∀ a, Q a → R a) : Sf p R := by
  intro s
  have := h s
  match hx : p.runA s with
  | (.ok a, s') => rw [hx] at this; exact hi a this
  | (.error e, s') => rw [hx] at this; exact this

theorem lit {α : Type} {m : Nat} {n : Nat} {k : Nat → Rd α} {Q : α → Prop} (h : ∀ v, v < 2 ^ n → Sf (k v) Q) :
    Sf (.lit m n k) Q := by
  intro s
  simp only [Rd.runA]
  match hx : s.read n m with
  | (.ok v, s') =>
    have : v < 2 ^ n := by
      unfold RS.read at hx
      split at hx
      · simp at hx
      · split at hx
        · simp at hx
        · split at hx
          · simp at hx
          · simp only [Int.toNat_natCast, Prod.mk.injEq, Except.ok.injEq] at hx
            rw [← hx.1]
            refine Nat.lt_of_lt_of_le (bitsNat_lt _) (Nat.pow_le_pow_right (by omega) ?_)
            simp only [List.length_take]; omega
    exact h v this s'
  | (.error e, s') =>
    simp only
    unfold RS.read at hx
    split at hx
    · simp only [Prod.mk.injEq, Except.error.injEq] at hx; rw [← hx.1]; rfl
    · split at hx
      · simp only [Prod.mk.injEq, Except.error.injEq] at hx; rw [← hx.1]; rfl
      · split at hx
        · simp only [Prod.mk.injEq, Except.error.injEq] at hx; rw [← hx.1]; rfl
        · simp at hx

theorem tell {α : Type} {k : Int → Rd α} {Q : α → Prop} (h : ∀ p, Sf (k p) Q) : Sf (.tell k) Q :=
  fun s => h s.pos { s with valid := true }

theorem avail {α : Type} {k : Int → Rd α} {Q : α → Prop} (h : ∀ p, Sf (k p) Q) : Sf (.avail k) Q :=
  fun s => h _ s

theorem seek {α : Type} {p : Int} {k : Rd α} {Q : α → Prop} (h : Sf k Q) : Sf (.seek p k) Q := by
  intro s
  simp only [Rd.runA]
  match hx : s.seek p with
  | (.ok (), s') => exact h s'
  | (.error e, s') =>
    simp only
    unfold RS.seek at hx
    split at hx
    · simp only [Prod.mk.injEq, Except.error.injEq] at hx; rw [← hx.1]; rfl
    · split at hx
      · simp only [Prod.mk.injEq, Except.error.injEq] at hx; rw [← hx.1]; rfl
      · split at hx
        · simp only [Prod.mk.injEq, Except.error.injEq] at hx; rw [← hx.1]; rfl
        · simp at hx

theorem attempt {α β : Type} {m : Rd β} {k : Except Err β → Rd α} {P : β → Prop} {Q : α → Prop} (hm : Sf m P)
    (hk : ∀ a, P a → Sf (k (.ok a)) Q) (he : ∀ e, e.fatal = false → Sf (k (.error e)) Q) : Sf (.attempt m k) Q := by
  intro s
  simp only [Rd.runA]
  have := hm s
  match hx : m.runA s with
  | (.ok a, s') => rw [hx] at this; exact hk a this s'
  | (.error e, s') =>
    rw [hx] at this
    simp only at this ⊢
    rw [if_neg (by simp [this])]
    exact he e this s'

theorem check {c : Bool} {e : Err} (h : e.fatal = false) : Sf (Rd.check c e) (fun _ => c = true) := by
  cases c
  · exact Sf.fail h
  · exact Sf.ret rfl

theorem status {st : Except Err Unit} (h : ∀ e, st = .error e → e.fatal = false) :
    Sf (Rd.status st) (fun _ => st = .ok ()) := by
  match st with
  | .ok () => exact Sf.ret rfl
  | .error e => exact Sf.fail (h e rfl)

theorem ite {α : Type} {c : Prop} [Decidable c] {p q : Rd α} {Q : α → Prop} (h1 : c → Sf p Q) (h2 : ¬ c → Sf q Q) :
    Sf (if c then p else q) Q := by
  by_cases h : c
  · simp only [h, ↓reduceIte]; exact h1 h
  · simp only [h, ↓reduceIte]; exact h2 h

theorem u64 (n : Nat) : Sf (rU64 n) (fun v => v.toNat < 2 ^ n) := by
  refine Sf.lit (n := n) fun v hv => Sf.ret ?_
  rw [UInt64.toNat_ofNat']
  exact Nat.lt_of_le_of_lt (Nat.mod_le _ _) hv
theorem u32 (n : Nat) : Sf (rU32 n) (fun v => v.toNat < 2 ^ n) := by
  refine Sf.lit (n := n) fun v hv => Sf.ret ?_
  rw [UInt32.toNat_ofNat']
  exact Nat.lt_of_le_of_lt (Nat.mod_le _ _) hv
theorem u16 (n : Nat) : Sf (rU16 n) (fun v => v.toNat < 2 ^ n) := by
  refine Sf.lit (n := n) fun v hv => Sf.ret ?_
  rw [UInt16.toNat_ofNat']
  exact Nat.lt_of_le_of_lt (Nat.mod_le _ _) hv
theorem u8 (n : Nat) : Sf (rU8 n) (fun v => v.toNat < 2 ^ n) := by
  refine Sf.lit (n := n) fun v hv => Sf.ret ?_
  rw [UInt8.toNat_ofNat']
  exact Nat.lt_of_le_of_lt (Nat.mod_le _ _) hv
theorem s16 : Sf rS16 (fun _ => True) := Sf.lit (n := 16) fun _ _ => Sf.ret trivial
theorem s8 : Sf rS8 (fun _ => True) := Sf.lit (n := 8) fun _ _ => Sf.ret trivial
theorem s9 : Sf rS9 (fun _ => True) := by
  refine Sf.lit (n := 9) fun v _ => ?_
  split <;> exact Sf.ret trivial
theorem bool : Sf rBool (fun _ => True) := Sf.lit (n := 1) fun _ _ => Sf.ret trivial

theorem bytes (n : Nat) : Sf (rBytes n) (fun l => l.length = n) := by
  induction n with
  | zero => exact Sf.ret rfl
  | succ n ih =>
    exact (Sf.u8 8).bind fun b _ => ih.bind fun bs h => Sf.ret (by simp [h])

theorem rep {α : Type} {p : Rd α} {Q : α → Prop} (h : Sf p Q) (n : Nat) :
    Sf (rRep p n) (fun l => l.length = n ∧ ∀ a ∈ l, Q a) := by
  induction n with
  | zero => exact Sf.ret ⟨rfl, by simp⟩
  | succ n ih =>
    refine h.bind fun a ha => ih.bind fun as has => Sf.ret ⟨by simp [has.1], ?_⟩
    intro x hx
    simp only [List.mem_cons] at hx
    rcases hx with rfl | hx
    · exact ha
    · exact has.2 x hx

theorem accum {f : Nat → Nat → Nat → Nat} {mx fuel i acc : Nat} :
    Sf (accumLoop f mx fuel i acc) (fun p => p.2 ≤ i + fuel) := by
  induction fuel generalizing i acc with
  | zero => exact Sf.ret (Nat.le_refl _)
  | succ fuel ih =>
    refine Sf.lit (n := 8) fun v _ => ?_
    simp only
    split
    · exact Sf.fail rfl
    · split
      · exact Sf.fail rfl
      · split
        · exact Sf.ret (by simp only; omega)
        · exact ih.weaken (fun p hp => by omega)

theorem ulebSize : Sf rUlebSize (fun p => p.2 ≤ 8) := Sf.accum.weaken (fun p h => by simpa [kMaxLeb128Size] using h)
theorem uleb : Sf rUleb (fun _ => True) := Sf.ulebSize.bind fun _ _ => Sf.ret trivial
theorem iso (mx : UInt32) : Sf (rIso mx) (fun _ => True) := Sf.accum.bind fun _ _ => Sf.ret trivial

theorem stringLoop (n : Nat) : Sf (rStringLoop n) (fun _ => True) := by
  induction n with
  | zero => exact Sf.fail rfl
  | succ n ih =>
    refine (Sf.u8 8).bind fun b _ => ?_
    split
    · exact Sf.ret trivial
    · exact ih.bind fun _ _ => Sf.ret trivial
theorem string : Sf rString (fun _ => True) := Sf.stringLoop _

theorem any {α : Type} {p : Rd α} {Q : α → Prop} (h : Sf p Q) : Sf p (fun _ => True) := h.weaken fun _ _ => trivial

end Sf

/-! ### Stability under appending data -/

/-- The same cursor over a longer source. -/
def RS.ext (s : RS) (x : Bits) : RS := { s with src := s.src ++ x }

/-- Appending data to the source changes nothing, except that a `ResourceExhausted` failure may go away. -/
def Stable {α : Type} (p : Rd α) : Prop :=
  ∀ (s : RS) (x : Bits), s.pos ≤ s.src.length →
    match p.runA s with
    | (.ok a, s') => p.runA (s.ext x) = (.ok a, s'.ext x)
    | (.error e, s') => e = .resourceExhausted ∨ p.runA (s.ext x) = (.error e, s'.ext x)

namespace Stable

theorem ret {α : Type} (a : α) : Stable (.ret a) := fun _ _ _ => rfl
theorem fail {α : Type} (e : Err) : Stable (.fail e : Rd α) := fun _ _ _ => .inr rfl

theorem bind {α β : Type} {p : Rd α} {f : α → Rd β} (h1 : Stable p) (h2 : ∀ a, Stable (f a)) :
    Stable (p.bind f) := by
  intro s x hs
  rw [Rd.runA_bind, Rd.runA_bind]
  have hp := h1 s x hs
  have hin := Rd.runA_inside p s hs
  match hx : p.runA s with
  | (.ok a, s') =>
    rw [hx] at hp hin
    simp only at hp
    rw [hp]
    exact h2 a s' x hin.1
  | (.error e, s') =>
    rw [hx] at hp
    simp only at hp ⊢
    rcases hp with h | h
    · exact .inl h
    · rw [h]; exact .inr rfl

theorem lit {α : Type} {m : Nat} {n : Int} {k : Nat → Rd α} (h : ∀ v, Stable (k v)) : Stable (.lit m n k) := by
  intro s x hs
  simp only [Rd.runA, RS.read]
  by_cases h1 : n > m
  · simp only [h1, ↓reduceIte]; exact .inr trivial
  · by_cases h2 : n < 0
    · simp only [h1, h2, ↓reduceIte]; exact .inr trivial
    · by_cases h3 : s.pos + n.toNat > s.src.length
      · simp only [h1, h2, h3, ↓reduceIte]; exact .inl trivial
      · have h4 : ¬ ((s.ext x).pos + n.toNat > (s.ext x).src.length) := by
          simp only [RS.ext, List.length_append]; omega
        have h5 : (s.ext x).rest.take n.toNat = s.rest.take n.toNat := by
          simp only [RS.rest, RS.ext]
          rw [List.drop_append_of_le_length hs, List.take_append_of_le_length]
          simp only [List.length_drop]; omega
        simp only [h1, h2, h3, h4, h5, ↓reduceIte]
        exact h _ _ x (by simp only; omega)

theorem tell {α : Type} {k : Int → Rd α} (h : ∀ p, Stable (k p)) : Stable (.tell k) :=
  fun s x hs => h s.pos { s with valid := true } x hs

theorem seek {α : Type} {p : Int} {k : Rd α} (h : Stable k) : Stable (.seek p k) := by
  intro s x hs
  simp only [Rd.runA, RS.seek]
  by_cases h1 : (!s.valid) = true
  · have h1' : (!(s.ext x).valid) = true := h1
    simp only [h1, h1', ↓reduceIte]; exact .inr trivial
  · have h1' : ¬ (!(s.ext x).valid) = true := h1
    by_cases h2 : p < 0
    · simp only [h1, h1', h2, ↓reduceIte]; exact .inr rfl
    · by_cases h3 : p > s.src.length
      · simp only [h1, h2, h3, ↓reduceIte]; exact .inl rfl
      · have h4 : ¬ (p > ((s.ext x).src.length : Int)) := by
          simp only [RS.ext, List.length_append]; omega
        simp only [h1, h1', h2, h3, h4, ↓reduceIte]
        exact h _ x (by simp only; omega)

/-- An intercepted status must not turn "need more data" into something else. -/
theorem attempt {α β : Type} {m : Rd β} {k : Except Err β → Rd α} (hm : Stable m) (hk : ∀ r, Stable (k r))
    (hre : ∀ s s', m.runA s = (.error .resourceExhausted, s') → s.pos ≤ s.src.length →
      ∃ s'', (k (.error .resourceExhausted)).runA s' = (.error .resourceExhausted, s'')) :
    Stable (.attempt m k) := by
  intro s x hs
  simp only [Rd.runA]
  have hp := hm s x hs
  have hin := Rd.runA_inside m s hs
  match hx : m.runA s with
  | (.ok a, s') =>
    rw [hx] at hp hin
    simp only at hp
    rw [hp]
    exact hk _ s' x hin.1
  | (.error e, s') =>
    rw [hx] at hp hin
    simp only at hp ⊢
    by_cases he : e = .resourceExhausted
    · subst he
      obtain ⟨s'', h'⟩ := hre s s' hx hs
      have hf : ¬ (Err.resourceExhausted.fatal = true) := by decide
      simp only [hf]
      rw [if_neg (by simp)]
      simp only [h']
      exact .inl trivial
    · rcases hp with h | h
      · exact absurd h he
      · rw [h]
        simp only
        by_cases hf : e.fatal = true
        · simp only [hf, ↓reduceIte]; exact .inr trivial
        · simp only [hf]
          exact hk _ s' x hin.1

theorem check {c : Bool} {e : Err} : Stable (Rd.check c e) := by
  cases c
  · exact Stable.fail e
  · exact Stable.ret ()

theorem status {st : Except Err Unit} : Stable (Rd.status st) := by
  match st with
  | .ok () => exact Stable.ret ()
  | .error e => exact Stable.fail e

theorem ite {α : Type} {c : Prop} [Decidable c] {p q : Rd α} (h1 : c → Stable p) (h2 : ¬ c → Stable q) :
    Stable (if c then p else q) := by
  by_cases h : c
  · simp only [h, ↓reduceIte]; exact h1 h
  · simp only [h, ↓reduceIte]; exact h2 h

theorem u64 (n : Int) : Stable (rU64 n) := Stable.lit fun _ => Stable.ret _
theorem u32 (n : Int) : Stable (rU32 n) := Stable.lit fun _ => Stable.ret _
theorem u16 (n : Int) : Stable (rU16 n) := Stable.lit fun _ => Stable.ret _
theorem u8 (n : Int) : Stable (rU8 n) := Stable.lit fun _ => Stable.ret _
theorem s16 : Stable rS16 := Stable.lit fun _ => Stable.ret _
theorem s8 : Stable rS8 := Stable.lit fun _ => Stable.ret _
theorem s9 : Stable rS9 := Stable.lit fun v => by split <;> exact Stable.ret _
theorem bool : Stable rBool := Stable.lit fun _ => Stable.ret _

theorem bytes (n : Nat) : Stable (rBytes n) := by
  induction n with
  | zero => exact Stable.ret _
  | succ n ih => exact (Stable.u8 8).bind fun b => ih.bind fun _ => Stable.ret _

theorem rep {α : Type} {p : Rd α} (h : Stable p) (n : Nat) : Stable (rRep p n) := by
  induction n with
  | zero => exact Stable.ret _
  | succ n ih => exact h.bind fun a => ih.bind fun _ => Stable.ret _

theorem accum {f : Nat → Nat → Nat → Nat} {mx fuel i acc : Nat} : Stable (accumLoop f mx fuel i acc) := by
  induction fuel generalizing i acc with
  | zero => exact Stable.ret _
  | succ fuel ih =>
    refine Stable.lit fun v => ?_
    simp only
    split
    · exact Stable.fail _
    · split
      · exact Stable.fail _
      · split
        · exact Stable.ret _
        · exact ih

theorem ulebSize : Stable rUlebSize := Stable.accum
theorem uleb : Stable rUleb := Stable.ulebSize.bind fun _ => Stable.ret _
theorem iso (mx : UInt32) : Stable (rIso mx) := Stable.accum.bind fun _ => Stable.ret _

theorem stringLoop (n : Nat) : Stable (rStringLoop n) := by
  induction n with
  | zero => exact Stable.fail _
  | succ n ih =>
    refine (Stable.u8 8).bind fun b => ?_
    split
    · exact Stable.ret _
    · exact ih.bind fun _ => Stable.ret _
theorem string : Stable rString := Stable.stringLoop _

end Stable

/-! ### Headers and framing -/

theorem validateUnderTwoMb_safe {v : UInt32} {n : Nat} (h : n ≤ 8) (e : Err)
    (he : validateUnderTwoMb v n = .error e) : e.fatal = false := by
  unfold validateUnderTwoMb kMaxLeb128Size at he
  rw [if_neg (by omega)] at he
  split at he
  · simp only [Except.error.injEq] at he; rw [← he]; rfl
  · simp at he

theorem sf_fillMetadata : Sf ObuHeader.fillMetadata (fun _ => True) := by
  unfold ObuHeader.fillMetadata
  exact (Sf.u64 5).bind fun _ _ => Sf.bool.bind fun _ _ => Sf.bool.bind fun _ _ => Sf.bool.bind fun _ _ =>
    Sf.ulebSize.bind fun _ _ => Sf.ret trivial

theorem sf_header : Sf ObuHeader.read (fun r => r.1.valid = true ∧ 0 ≤ r.2) := by
  unfold ObuHeader.read
  refine (Sf.u64 5).bind fun t _ => Sf.bool.bind fun rc _ => Sf.bool.bind fun ts _ => Sf.bool.bind fun ef _ => ?_
  refine Sf.ulebSize.bind fun sz hsz => ?_
  refine (Sf.status fun e he => validateUnderTwoMb_safe hsz e he).bind fun _ _ => ?_
  refine Sf.bind (Q := fun _ => True) (Sf.ite (fun _ => ?_) (fun _ => Sf.ret trivial)) fun trims _ => ?_
  · exact Sf.ulebSize.bind fun _ _ => Sf.ulebSize.bind fun _ _ => Sf.ret trivial
  refine Sf.bind (Q := fun _ => True) (Sf.ite (fun _ => Sf.ulebSize.any) (fun _ => Sf.ret trivial)) fun es _ => ?_
  refine (Sf.check rfl).bind fun _ hp => ?_
  refine Sf.bind (Q := fun _ => True) (Sf.ite (fun _ => ?_) (fun _ => Sf.ret trivial)) fun x _ => ?_
  · exact (Sf.bytes _).bind fun _ _ => Sf.ret trivial
  refine (Sf.check rfl).bind fun _ hv => Sf.ret ⟨hv, ?_⟩
  simp only [Bool.not_eq_true', decide_eq_false_iff_not] at hp
  simp only; omega

theorem sf_obuPayload {α : Type} {derived : Int → Rd α} {Q : α → Prop} (n : Int) (h : Sf (derived n) Q) :
    Sf (rObuPayload derived n) (fun r => Q r.1) := by
  unfold rObuPayload
  refine Sf.tell fun start => h.bind fun a ha => Sf.tell fun fin => ?_
  simp only
  split
  · exact Sf.ret ha
  · split
    · split
      · exact Sf.fail rfl
      · exact (Sf.bytes _).bind fun _ _ => Sf.ret ha
    · exact Sf.fail rfl

theorem sf_obu {α : Type} {derived : ObuHeader → Int → Rd α} {Q : α → Prop}
    (h : ∀ hd n, 0 ≤ n → Sf (derived hd n) Q) : Sf (rObu derived) (fun r => r.1.valid = true ∧ Q r.2.1) := by
  unfold rObu
  exact sf_header.bind fun hs hp => (sf_obuPayload hs.2 (h hs.1 hs.2 hp.2)).bind fun _ ha => Sf.ret ⟨hp.1, ha⟩

/-- As `sf_obu`, with a postcondition that may mention the header. -/
theorem sf_obuH {α : Type} {derived : ObuHeader → Int → Rd α} {Q : ObuHeader → α → Prop}
    (h : ∀ hd n, 0 ≤ n → Sf (derived hd n) (Q hd)) : Sf (rObu derived) (fun r => Q r.1 r.2.1) := by
  unfold rObu
  exact sf_header.bind fun hs hp => (sf_obuPayload hs.2 (h hs.1 hs.2 hp.2)).bind fun _ ha => Sf.ret ha

theorem stable_fillMetadata : Stable ObuHeader.fillMetadata := by
  unfold ObuHeader.fillMetadata
  exact (Stable.u64 5).bind fun _ => Stable.bool.bind fun _ => Stable.bool.bind fun _ => Stable.bool.bind fun _ =>
    Stable.ulebSize.bind fun _ => Stable.ret _

theorem stable_header : Stable ObuHeader.read := by
  unfold ObuHeader.read
  refine (Stable.u64 5).bind fun t => Stable.bool.bind fun rc => Stable.bool.bind fun ts => Stable.bool.bind fun ef => ?_
  refine Stable.ulebSize.bind fun sz => Stable.status.bind fun _ => ?_
  refine Stable.bind (Stable.ite (fun _ => ?_) (fun _ => Stable.ret _)) fun trims => ?_
  · exact Stable.ulebSize.bind fun _ => Stable.ulebSize.bind fun _ => Stable.ret _
  refine Stable.bind (Stable.ite (fun _ => Stable.ulebSize) (fun _ => Stable.ret _)) fun es => ?_
  refine Stable.check.bind fun _ => ?_
  refine Stable.bind (Stable.ite (fun _ => ?_) (fun _ => Stable.ret _)) fun x => ?_
  · exact (Stable.bytes _).bind fun _ => Stable.ret _
  exact Stable.check.bind fun _ => Stable.ret _

theorem stable_obuPayload {α : Type} {derived : Int → Rd α} (n : Int) (h : Stable (derived n)) :
    Stable (rObuPayload derived n) := by
  unfold rObuPayload
  refine Stable.tell fun start => h.bind fun a => Stable.tell fun fin => ?_
  simp only
  split
  · exact Stable.ret _
  · split
    · split
      · exact Stable.fail _
      · exact (Stable.bytes _).bind fun _ => Stable.ret _
    · exact Stable.fail _

theorem stable_obu {α : Type} {derived : ObuHeader → Int → Rd α} (h : ∀ hd n, Stable (derived hd n)) :
    Stable (rObu derived) := by
  unfold rObu
  exact stable_header.bind fun hs => (stable_obuPayload hs.2 (h hs.1 hs.2)).bind fun _ => Stable.ret _

/-- Peeking never moves the cursor. -/
theorem peek_runA (s : RS) (hs : s.pos ≤ s.src.length) :
    ObuHeader.peek.runA s = ((ObuHeader.fillMetadata.runA { s with valid := true }).1, { s with valid := true }) := by
  unfold ObuHeader.peek
  simp only [Rd.runA]
  have hin := Rd.runA_inside ObuHeader.fillMetadata { s with valid := true } hs
  have hv := Rd.runA_valid ObuHeader.fillMetadata { s with valid := true } rfl
  have hsf := sf_fillMetadata { s with valid := true }
  have hseek : ∀ s' : RS, s'.src = s.src → s'.valid = true → s'.seek s.pos = (.ok (), { s with valid := true }) := by
    intro s' e1 e2
    unfold RS.seek
    simp only [e2, Bool.not_true, Bool.false_eq_true, ↓reduceIte, Int.toNat_natCast]
    rw [if_neg (by omega), if_neg (by rw [e1]; omega)]
    have : s' = ⟨s'.src, s'.pos, s'.valid⟩ := rfl
    rw [this, e1]
  match hx : ObuHeader.fillMetadata.runA { s with valid := true } with
  | (.ok m, s') =>
    rw [hx] at hin hv
    simp only [hseek s' hin.2 hv, Rd.runA]
  | (.error e, s') =>
    rw [hx] at hin hv hsf
    simp only at hsf ⊢
    rw [if_neg (by simp [hsf])]
    simp only [hseek s' hin.2 hv, Rd.runA]

theorem sf_peek : Sf ObuHeader.peek (fun _ => True) := by
  unfold ObuHeader.peek
  refine Sf.tell fun p => Sf.attempt sf_fillMetadata (fun m _ => Sf.seek (Sf.ret trivial))
    (fun e he => Sf.seek (Sf.fail he))

theorem stable_peek : Stable ObuHeader.peek := by
  intro s x hs
  rw [peek_runA s hs, peek_runA (s.ext x) (by simp only [RS.ext, List.length_append]; omega)]
  have := stable_fillMetadata { s with valid := true } x hs
  match hx : ObuHeader.fillMetadata.runA { s with valid := true } with
  | (.ok m, s') =>
    rw [hx] at this
    simp only at this ⊢
    have e : ({ s.ext x with valid := true } : RS) = ({ s with valid := true } : RS).ext x := rfl
    rw [e, this]
  | (.error e, s') =>
    rw [hx] at this
    simp only at this ⊢
    rcases this with h | h
    · exact .inl h
    · right
      have e : ({ s.ext x with valid := true } : RS) = ({ s with valid := true } : RS).ext x := rfl
      rw [e, h]

end Iamf
