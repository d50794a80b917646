/-
  Base vocabulary shared by the whole model: outcomes, bit strings and byte strings.
-/
namespace Iamf

/-- Outcomes other than `absl::OkStatus()`.  The first group are the `absl::StatusCode`s used by the
code base (`absl::Status` messages are not modelled).  The last three are *not* statuses: they stand
for a failed `ABSL_CHECK`/uncaught C++ exception (`abort`), undefined behaviour (`ub`) and an infinite
loop (`diverge`), and are therefore kept apart from every recoverable status. -/
inductive Err where
  | invalidArgument
  | resourceExhausted
  | failedPrecondition
  | unimplemented
  | unknown
  | internal
  | notFound
  | outOfRange
  | alreadyExists
  | abort
  | ub
  | diverge
  deriving DecidableEq, Repr, Inhabited

/-- `true` for the outcomes that no C++ caller can observe as a status. -/
instance {ε α : Type} [DecidableEq ε] [DecidableEq α] : DecidableEq (Except ε α)
  | .ok a, .ok b => if h : a = b then isTrue (by rw [h]) else isFalse (by intro e; cases e; exact h rfl)
  | .error a, .error b => if h : a = b then isTrue (by rw [h]) else isFalse (by intro e; cases e; exact h rfl)
  | .ok _, .error _ => isFalse (by intro e; cases e)
  | .error _, .ok _ => isFalse (by intro e; cases e)

/-- `abort`, `ub` and `diverge` are not `absl::Status` values. -/
def Err.fatal : Err → Bool
  | .abort => true
  | .ub => true
  | .diverge => true
  | _ => false

/-- Bit strings, most significant bit first (the order in which IAMF bitstreams are read/written). -/
abbrev Bits := List Bool

/-- The `n` low bits of `v`, most significant first. -/
def natBits : Nat → Nat → Bits
  | 0, _ => []
  | n + 1, v => v.testBit n :: natBits n v

/-- The number denoted by a bit string, most significant bit first. -/
def bitsNat (bs : Bits) : Nat := bs.foldl (fun a b => 2 * a + b.toNat) 0

/-- The eight bits of a byte. -/
def byteBits (b : UInt8) : Bits := natBits 8 b.toNat

/-- The bits of a byte string. -/
def bytesBits (l : List UInt8) : Bits := l.flatMap byteBits

@[simp] theorem natBits_zero (v : Nat) : natBits 0 v = [] := rfl

@[simp] theorem natBits_length (n v : Nat) : (natBits n v).length = n := by
  induction n with
  | zero => rfl
  | succ n ih => simp [natBits, ih]

theorem bitsNat_foldl (bs : Bits) (a : Nat) :
    bs.foldl (fun a b => 2 * a + b.toNat) a = a * 2 ^ bs.length + bitsNat bs := by
  induction bs generalizing a with
  | nil => simp [bitsNat]
  | cons b bs ih =>
    simp only [List.foldl_cons, List.length_cons, bitsNat]
    rw [ih, ih (2 * 0 + b.toNat), Nat.pow_succ]
    simp only [Nat.add_mul, Nat.mul_zero, Nat.zero_add]
    have : 2 * a * 2 ^ bs.length = a * (2 ^ bs.length * 2) := by
      rw [Nat.mul_comm (2 ^ bs.length) 2, ← Nat.mul_assoc, Nat.mul_comm 2 a]
    omega

@[simp] theorem bitsNat_nil : bitsNat [] = 0 := rfl

theorem bitsNat_cons (b : Bool) (bs : Bits) :
    bitsNat (b :: bs) = b.toNat * 2 ^ bs.length + bitsNat bs := by
  conv => lhs; unfold bitsNat
  rw [List.foldl_cons, bitsNat_foldl]
  simp

theorem bitsNat_append (a b : Bits) :
    bitsNat (a ++ b) = bitsNat a * 2 ^ b.length + bitsNat b := by
  conv => lhs; unfold bitsNat
  rw [List.foldl_append, bitsNat_foldl]
  rfl

theorem bitsNat_lt (bs : Bits) : bitsNat bs < 2 ^ bs.length := by
  induction bs with
  | nil => simp
  | cons b bs ih =>
    rw [bitsNat_cons, List.length_cons, Nat.pow_succ]
    cases b <;> simp <;> omega

theorem bitsNat_natBits (n v : Nat) : bitsNat (natBits n v) = v % 2 ^ n := by
  induction n with
  | zero => simp [Nat.mod_one]
  | succ n ih =>
    rw [natBits, bitsNat_cons, ih, natBits_length, Nat.mod_pow_succ, Nat.testBit_eq_decide_div_mod_eq]
    have h : v / 2 ^ n % 2 = 0 ∨ v / 2 ^ n % 2 = 1 := by omega
    rcases h with h | h <;> simp [h] <;> omega

theorem natBits_bitsNat_of_lt {n v : Nat} (h : v < 2 ^ n) : bitsNat (natBits n v) = v := by
  rw [bitsNat_natBits, Nat.mod_eq_of_lt h]

theorem natBits_mod (n v : Nat) : ∀ m, n ≤ m → natBits n (v % 2 ^ m) = natBits n v := by
  induction n with
  | zero => intros; rfl
  | succ n ih =>
    intro m hm
    simp only [natBits]
    rw [ih m (by omega), Nat.testBit_mod_two_pow]
    have : n < m := by omega
    simp [this]

theorem natBits_bitsNat (bs : Bits) : natBits bs.length (bitsNat bs) = bs := by
  induction bs with
  | nil => rfl
  | cons b bs ih =>
    rw [List.length_cons, natBits, bitsNat_cons]
    congr 1
    · have hl := bitsNat_lt bs
      rw [Nat.testBit_eq_decide_div_mod_eq, Nat.mul_comm, Nat.mul_add_div (by exact Nat.two_pow_pos _),
        Nat.div_eq_of_lt hl]
      cases b <;> simp
    · rw [← natBits_mod bs.length _ bs.length (Nat.le_refl _)]
      rw [Nat.mul_comm, Nat.mul_add_mod, Nat.mod_eq_of_lt (bitsNat_lt bs), ih]

theorem natBits_bitsNat' {n : Nat} (bs : Bits) (h : bs.length = n) : natBits n (bitsNat bs) = bs := by
  subst h; exact natBits_bitsNat bs

/-- Splitting a fixed-width encoding. -/
theorem natBits_add (m n v : Nat) : natBits (m + n) v = natBits m (v / 2 ^ n) ++ natBits n v := by
  induction m with
  | zero => simp
  | succ m ih =>
    have : m + 1 + n = (m + n) + 1 := by omega
    rw [this, natBits, natBits, ih, List.cons_append, Nat.testBit_div_two_pow]

@[simp] theorem byteBits_length (b : UInt8) : (byteBits b).length = 8 := natBits_length _ _

@[simp] theorem bytesBits_nil : bytesBits [] = [] := rfl

@[simp] theorem bytesBits_cons (b : UInt8) (l : List UInt8) :
    bytesBits (b :: l) = byteBits b ++ bytesBits l := rfl

@[simp] theorem bytesBits_append (a b : List UInt8) :
    bytesBits (a ++ b) = bytesBits a ++ bytesBits b := by
  simp [bytesBits]

@[simp] theorem bytesBits_length (l : List UInt8) : (bytesBits l).length = 8 * l.length := by
  induction l with
  | nil => rfl
  | cons b l ih => simp [ih]; omega

theorem byteBits_inj {a b : UInt8} (h : byteBits a = byteBits b) : a = b := by
  have := congrArg bitsNat h
  unfold byteBits at this
  rw [natBits_bitsNat_of_lt a.toNat_lt, natBits_bitsNat_of_lt b.toNat_lt] at this
  exact UInt8.toNat_inj.mp this

theorem bytesBits_inj {a b : List UInt8} (h : bytesBits a = bytesBits b) : a = b := by
  induction a generalizing b with
  | nil =>
    cases b with
    | nil => rfl
    | cons y ys =>
      have := congrArg List.length h
      simp at this
      omega
  | cons x xs ih =>
    cases b with
    | nil =>
      have := congrArg List.length h
      simp at this
    | cons y ys =>
      simp only [bytesBits_cons] at h
      have h' := List.append_inj h (by simp)
      rw [byteBits_inj h'.1, ih h'.2]

theorem bytesBits_drop (l : List UInt8) (k : Nat) : (bytesBits l).drop (8 * k) = bytesBits (l.drop k) := by
  induction l generalizing k with
  | nil => simp
  | cons b l ih =>
    cases k with
    | zero => simp
    | succ k =>
      rw [bytesBits_cons, List.drop_append]
      have h1 : (byteBits b).drop (8 * (k + 1)) = [] := by
        apply List.drop_eq_nil_of_le; simp; omega
      rw [h1, byteBits_length, List.nil_append, List.drop_succ_cons, ← ih]
      congr 1

theorem bytesBits_take (l : List UInt8) (k : Nat) : (bytesBits l).take (8 * k) = bytesBits (l.take k) := by
  have h := List.take_append_drop (8 * k) (bytesBits l)
  rw [bytesBits_drop] at h
  have h2 : bytesBits l = bytesBits (l.take k) ++ bytesBits (l.drop k) := by
    rw [← bytesBits_append, List.take_append_drop]
  rw [h2] at h
  by_cases hk : k ≤ l.length
  · refine (List.append_inj (h.trans rfl) ?_).1 ▸ ?_
    · simp; omega
    · rw [← h2]
  · have e1 : l.take k = l := List.take_of_length_le (by omega)
    rw [e1]
    apply List.take_of_length_le
    simp; omega

/-- The byte with the given eight bits. -/
def bitsByte (bs : Bits) : UInt8 := UInt8.ofNat (bitsNat bs)

theorem byteBits_bitsByte (bs : Bits) (h : bs.length = 8) : byteBits (bitsByte bs) = bs := by
  unfold byteBits bitsByte
  have hl := bitsNat_lt bs
  rw [h] at hl
  rw [UInt8.toNat_ofNat_of_lt' (by simpa using hl)]
  exact natBits_bitsNat' bs h

end Iamf
