import Verif.Base
/-
  Model of `iamf/common/leb_generator.{h,cc}`.
-/
namespace Iamf

/-- `kMaxLeb128Size` (iamf/obu/types.h). -/
def kMaxLeb128Size : Nat := 8

/-- `LebGenerator` (leb_generator.h; constructor leb_generator.cc:125-126): the mode and, for
`kFixedSize`, the `int8_t` size. -/
inductive LebGen where
  | minimum
  | fixed (size : Int8)
  deriving DecidableEq, Repr

/-- `GenerationMode` as passed to `LebGenerator::Create`. -/
inductive GenerationMode where
  | kMinimum
  | kFixedSize
  deriving DecidableEq, Repr

/-- `LebGenerator::Create` (leb_generator.cc:128-145); `none` is `nullptr`.  The `default:` branch
(an out-of-range enum value) is not modelled. -/
def LebGen.create (mode : GenerationMode) (fixedSize : Int8) : Option LebGen :=
  match mode with
  | .kMinimum => some .minimum
  | .kFixedSize =>
    if 1 ≤ fixedSize.toInt ∧ fixedSize.toInt ≤ (kMaxLeb128Size : Int) then some (.fixed fixedSize) else none

/-- The `for` loop of `Leb128ToUint8Vector` (leb_generator.cc:79-104).  The first argument is the number
of remaining iterations; the result is the buffer and whether `status` became OK. -/
def lebLoop (isSigned negative minSize : Bool) :
    Nat → UInt32 → List UInt8 → Bool → List UInt8 × Bool
  | 0, _, acc, ok => (acc, ok)
  | n + 1, t, acc, ok =>
    let b : UInt8 := 0x80 ||| (t &&& 0x7f).toUInt8
    let t := t >>> 7
    let t := if negative then t ||| 0xfe000000 else t
    let endValue : UInt32 := if isSigned && (b &&& 0x40) != 0 then 0xffffffff else 0
    if t == endValue then
      if minSize then (acc ++ [b], true)
      else lebLoop isSigned negative minSize n t (acc ++ [b]) true
    else lebLoop isSigned negative minSize n t (acc ++ [b]) ok

/-- `buffer.back() &= 0x7f` (leb_generator.cc:107); on an empty vector this would be undefined
behaviour, which the size check on line 63 excludes. -/
def clearLastMsb : List UInt8 → List UInt8
  | [] => []
  | [b] => [b &&& 0x7f]
  | b :: c :: l => b :: clearLastMsb (c :: l)

/-- `Leb128ToUint8Vector` (leb_generator.cc:60-119).  `val` is `temp_val`'s initial value, i.e. the
value already converted to `uint32_t` (lines 73-76). -/
def leb128ToUint8Vector (isSigned negative : Bool) (val : UInt32) (codedSize : Int) (minSize : Bool) :
    Except Err (List UInt8) :=
  if codedSize < 1 ∨ (kMaxLeb128Size : Int) < codedSize then .error .invalidArgument
  else
    let (buf, ok) := lebLoop isSigned negative minSize codedSize.toNat val [] false
    if ok then .ok (clearLastMsb buf)
    else if minSize then .error .unknown
    else .error .invalidArgument

/-- `LebGenerator::Uleb128ToUint8Vector` (leb_generator.cc:147-159). -/
def LebGen.uleb (g : LebGen) (v : UInt32) : Except Err (List UInt8) :=
  match g with
  | .minimum => leb128ToUint8Vector false false v kMaxLeb128Size true
  | .fixed s => leb128ToUint8Vector false false v s.toInt false

/-- `LebGenerator::Sleb128ToUint8Vector` (leb_generator.cc:161-173).  The conversion of the `int32_t`
input to `uint32_t` (line 73) is the two's complement bit pattern. -/
def LebGen.sleb (g : LebGen) (v : Int32) : Except Err (List UInt8) :=
  match g with
  | .minimum => leb128ToUint8Vector true (v.toInt < 0) v.toUInt32 kMaxLeb128Size true
  | .fixed s => leb128ToUint8Vector true (v.toInt < 0) v.toUInt32 s.toInt false

/-! ### Specification of LEB128 -/

/-- Value of a byte string as an unsigned LEB128: base 128, little endian, low seven bits of each
byte. -/
def ulebVal : List UInt8 → Nat
  | [] => 0
  | b :: bs => b.toNat % 128 + 128 * ulebVal bs

/-- A byte string is one complete LEB128: every byte but the last has its top bit set. -/
def IsLeb : List UInt8 → Prop
  | [] => False
  | [b] => b.toNat < 128
  | b :: c :: l => 128 ≤ b.toNat ∧ IsLeb (c :: l)

/-- Value of a byte string as a signed LEB128: like unsigned, then the sign bit (bit 6 of the last
byte) has negative weight. -/
def slebVal (l : List UInt8) : Int :=
  if (l.getLast?.getD 0).toNat % 128 < 64 then (ulebVal l : Int) else (ulebVal l : Int) - (128 ^ l.length : Nat)

/-- Reference fixed-length encoder. -/
def ulebFixed : Nat → Nat → List UInt8
  | 0, _ => []
  | 1, v => [UInt8.ofNat (v % 128)]
  | n + 2, v => UInt8.ofNat (128 + v % 128) :: ulebFixed (n + 1) (v / 128)

/-- Number of base-128 digits of `v` (at least one). -/
def ulebLen (v : Nat) : Nat := if v < 128 then 1 else 1 + ulebLen (v / 128)
termination_by v
decreasing_by omega

theorem ulebLen_pos (v : Nat) : 1 ≤ ulebLen v := by
  unfold ulebLen; split <;> omega

theorem ulebLen_spec (v k : Nat) (hk : 1 ≤ k) : ulebLen v ≤ k ↔ v < 128 ^ k := by
  induction k generalizing v with
  | zero => omega
  | succ k ih =>
    unfold ulebLen
    split
    next h =>
      have h1 : 128 ^ (k + 1) = 128 ^ k * 128 := Nat.pow_succ ..
      have h2 : 0 < 128 ^ k := Nat.pow_pos (by omega)
      constructor <;> intro <;> omega
    next h =>
      cases k with
      | zero =>
        have := ulebLen_pos (v / 128)
        constructor <;> intro <;> omega
      | succ k =>
        have := ih (v / 128) (by omega)
        have h1 : 128 ^ (k + 1 + 1) = 128 ^ (k + 1) * 128 := Nat.pow_succ ..
        constructor
        · intro h3
          have h4 := this.mp (by omega)
          omega
        · intro h3
          have h4 := this.mpr (by omega)
          omega

theorem ulebFixed_length (n v : Nat) : (ulebFixed n v).length = n := by
  fun_induction ulebFixed n v <;> simp_all

theorem ulebFixed_val (n v : Nat) (hn : 1 ≤ n) (h : v < 128 ^ n) : ulebVal (ulebFixed n v) = v := by
  fun_induction ulebFixed n v with
  | case1 => omega
  | case2 v =>
    simp only [ulebVal, UInt8.toNat_ofNat']
    omega
  | case3 v n ih =>
    have h1 : 128 ^ (n + 2) = 128 ^ (n + 1) * 128 := Nat.pow_succ ..
    have := ih (by omega) (by omega)
    simp only [ulebVal, UInt8.toNat_ofNat', this]
    omega

theorem ulebFixed_isLeb (n v : Nat) (hn : 1 ≤ n) : IsLeb (ulebFixed n v) := by
  fun_induction ulebFixed n v with
  | case1 => omega
  | case2 v =>
    simp only [IsLeb, UInt8.toNat_ofNat']
    omega
  | case3 n v ih =>
    have := ih (by omega)
    match hx : ulebFixed (n + 1) (v / 128) with
    | [] =>
      have := congrArg List.length hx
      rw [ulebFixed_length] at this
      simp at this
    | x :: xs =>
      rw [hx] at this
      refine ⟨?_, this⟩
      simp only [UInt8.toNat_ofNat']
      omega

/-- A complete LEB128 of `n` bytes with value `v` is the reference one: encodings are determined by
their length and value. -/
theorem isLeb_eq_fixed (l : List UInt8) (h : IsLeb l) : l = ulebFixed l.length (ulebVal l) := by
  fun_induction IsLeb l with
  | case1 => exact h.elim
  | case2 b =>
    simp only [List.length_singleton, ulebFixed, ulebVal]
    congr 1
    apply UInt8.toNat_inj.mp
    have := b.toNat_lt
    simp only [UInt8.toNat_ofNat']
    omega
  | case3 b c l ih =>
    have h2 := ih h.2
    simp only [List.length_cons, ulebFixed] at h2 ⊢
    have e : ulebVal (b :: c :: l) / 128 = ulebVal (c :: l) := by
      simp only [ulebVal]; omega
    rw [e, ← h2]
    congr 1
    apply UInt8.toNat_inj.mp
    have := b.toNat_lt
    simp only [UInt8.toNat_ofNat', ulebVal]
    have := h.1
    omega

theorem ulebVal_lt (l : List UInt8) : ulebVal l < 128 ^ l.length := by
  induction l with
  | nil => simp [ulebVal]
  | cons b l ih =>
    simp only [ulebVal, List.length_cons, Nat.pow_succ]
    omega

/-- Any complete LEB128 of value `v` has at least `ulebLen v` bytes. -/
theorem isLeb_length_ge (l : List UInt8) (h : IsLeb l) : ulebLen (ulebVal l) ≤ l.length := by
  have hl : 1 ≤ l.length := by cases l with
    | nil => exact h.elim
    | cons => simp
  rw [ulebLen_spec _ _ hl]
  exact ulebVal_lt l

/-! ### The generator computes the reference encoding -/

theorem byte_or (t : UInt32) :
    ((0x80 : UInt8) ||| (t &&& 0x7f).toUInt8) = UInt8.ofNat (128 + t.toNat % 128) := by
  apply UInt8.toNat_inj.mp
  have h1 : (t &&& 0x7f).toNat = t.toNat % 128 := by
    rw [UInt32.toNat_and]
    exact Nat.and_two_pow_sub_one_eq_mod t.toNat 7
  rw [UInt8.toNat_or, UInt32.toNat_toUInt8, h1]
  have e : (0x80 : UInt8).toNat = 2 ^ 7 * 1 := rfl
  rw [e, ← Nat.two_pow_add_eq_or_of_lt (by omega)]
  simp only [UInt8.toNat_ofNat']
  omega

theorem byte_clear (v : Nat) :
    (UInt8.ofNat (128 + v % 128)) &&& 0x7f = UInt8.ofNat (v % 128) := by
  apply UInt8.toNat_inj.mp
  rw [UInt8.toNat_and]
  simp only [UInt8.toNat_ofNat']
  have : (0x7f : UInt8).toNat = 2 ^ 7 - 1 := rfl
  rw [this, Nat.and_two_pow_sub_one_eq_mod]
  omega

theorem shr7 (t : UInt32) : (t >>> 7).toNat = t.toNat / 128 := by
  rw [UInt32.toNat_shiftRight]
  simp [Nat.shiftRight_eq_div_pow]

/-- All `n` digits of `v` with the continuation bit set. -/
def ulebCont : Nat → Nat → List UInt8
  | 0, _ => []
  | n + 1, v => UInt8.ofNat (128 + v % 128) :: ulebCont n (v / 128)

theorem clearLast_ulebCont (n v : Nat) : clearLastMsb (ulebCont n v) = ulebFixed n v := by
  induction n generalizing v with
  | zero => rfl
  | succ n ih =>
    cases n with
    | zero => simp only [ulebCont, ulebFixed, clearLastMsb, byte_clear]
    | succ n =>
      have := ih (v / 128)
      simp only [ulebCont, ulebFixed, clearLastMsb] at this ⊢
      rw [this]

theorem lebLoop_fixed_unsigned (n : Nat) (t : UInt32) (acc : List UInt8) (ok : Bool) :
    lebLoop false false false n t acc ok =
      (acc ++ ulebCont n t.toNat, ok || decide (1 ≤ n ∧ t.toNat < 128 ^ n)) := by
  induction n generalizing t acc ok with
  | zero => simp [lebLoop, ulebCont]
  | succ n ih =>
    simp only [lebLoop, byte_or, Bool.false_and, Bool.false_eq_true, ↓reduceIte, ih,
      shr7, ulebCont]
    have h1 : 128 ^ (n + 1) = 128 ^ n * 128 := Nat.pow_succ ..
    have hz : (t >>> 7 == 0) = decide (t.toNat < 128) := by
      have e : (t >>> 7 = 0) ↔ t.toNat < 128 := by
        rw [← UInt32.toNat_inj, shr7]
        simp only [UInt32.toNat_zero]
        omega
      by_cases hh : t >>> 7 = 0
      · have := e.mp hh
        simp [hh, this]
      · have : ¬ t.toNat < 128 := fun h => hh (e.mpr h)
        simp [hh, this]
    simp only [hz, decide_eq_true_eq]
    have hp : 0 < 128 ^ n := Nat.pow_pos (by omega)
    split
    next h =>
      have : t.toNat < 128 ^ (n + 1) := by omega
      simp [this]
    next h =>
      rw [List.append_assoc, List.singleton_append]
      congr 2
      congr 1
      cases n with
      | zero => simp; omega
      | succ n => simp; omega

theorem lebLoop_min_unsigned (n : Nat) (t : UInt32) (acc : List UInt8) (ok : Bool)
    (h : t.toNat < 128 ^ n) (hn : 1 ≤ n) :
    lebLoop false false true n t acc ok = (acc ++ ulebCont (ulebLen t.toNat) t.toNat, true) := by
  induction n generalizing t acc ok with
  | zero => omega
  | succ n ih =>
    simp only [lebLoop, byte_or, Bool.false_and, Bool.false_eq_true, ↓reduceIte]
    have h1 : 128 ^ (n + 1) = 128 ^ n * 128 := Nat.pow_succ ..
    by_cases hs : t.toNat < 128
    · have e : t >>> 7 = 0 := by
        rw [← UInt32.toNat_inj, shr7]; simp only [UInt32.toNat_zero]; omega
      simp only [e, BEq.rfl, ↓reduceIte]
      have : ulebLen t.toNat = 1 := by unfold ulebLen; simp [hs]
      simp [this, ulebCont]
    · have e : (t >>> 7 == 0) = false := by
        rw [beq_eq_false_iff_ne]
        intro hc
        have := congrArg UInt32.toNat hc
        rw [shr7] at this
        simp only [UInt32.toNat_zero] at this
        omega
      simp only [e, Bool.false_eq_true, ↓reduceIte]
      have hn' : 1 ≤ n := by
        cases n with
        | zero => omega
        | succ => omega
      rw [ih _ _ _ (by rw [shr7]; omega) hn', shr7]
      have : ulebLen t.toNat = ulebLen (t.toNat / 128) + 1 := by
        conv => lhs; unfold ulebLen
        simp [hs]; omega
      rw [this, ulebCont]
      simp

/-- Number of bytes this generator uses for `v`. -/
def LebGen.len (g : LebGen) (v : UInt32) : Nat :=
  match g with
  | .minimum => ulebLen v.toNat
  | .fixed s => s.toInt.toNat

/-- The generator accepts `v`. -/
def LebGen.fits (g : LebGen) (v : UInt32) : Prop :=
  match g with
  | .minimum => True
  | .fixed s => 1 ≤ s.toInt ∧ s.toInt ≤ 8 ∧ v.toNat < 128 ^ s.toInt.toNat

instance (g : LebGen) (v : UInt32) : Decidable (g.fits v) := by
  unfold LebGen.fits; split <;> infer_instance

/-- The bytes emitted for a value that fits. -/
def LebGen.enc (g : LebGen) (v : UInt32) : List UInt8 := ulebFixed (g.len v) v.toNat

theorem ulebLen_le_five (v : UInt32) : ulebLen v.toNat ≤ 5 := by
  rw [ulebLen_spec _ _ (by omega)]
  have := v.toNat_lt
  omega

theorem LebGen.uleb_ok (g : LebGen) (v : UInt32) (h : g.fits v) : g.uleb v = .ok (g.enc v) := by
  cases g with
  | minimum =>
    simp only [LebGen.uleb, leb128ToUint8Vector, LebGen.enc, LebGen.len]
    rw [lebLoop_min_unsigned _ _ _ _ _ (by decide)]
    · simp [kMaxLeb128Size, clearLast_ulebCont]
    · have := v.toNat_lt
      simp [kMaxLeb128Size]; omega
  | fixed s =>
    simp only [LebGen.uleb, leb128ToUint8Vector, LebGen.enc, LebGen.len, LebGen.fits] at *
    rw [lebLoop_fixed_unsigned]
    have h1 : ¬ (s.toInt < 1 ∨ ((kMaxLeb128Size : Nat) : Int) < s.toInt) := by
      simp [kMaxLeb128Size]; omega
    have h2 : 1 ≤ s.toInt.toNat := by omega
    simp only [h1, h.2.2, h2, clearLast_ulebCont, and_self, decide_true, Bool.or_true, ↓reduceIte, List.nil_append]

theorem LebGen.uleb_err (g : LebGen) (v : UInt32) (h : ¬ g.fits v) :
    g.uleb v = .error .invalidArgument := by
  cases g with
  | minimum => simp [LebGen.fits] at h
  | fixed s =>
    simp only [LebGen.uleb, leb128ToUint8Vector, LebGen.fits] at *
    split
    · rfl
    next hs =>
      rw [lebLoop_fixed_unsigned]
      simp only [kMaxLeb128Size] at hs
      have : ¬ (v.toNat < 128 ^ s.toInt.toNat) := by
        intro hc; apply h; omega
      simp only [this, and_false, decide_false, Bool.or_false, Bool.false_eq_true, ↓reduceIte]

theorem LebGen.fits_bounds (g : LebGen) (v : UInt32) (h : g.fits v) :
    1 ≤ g.len v ∧ g.len v ≤ 8 ∧ v.toNat < 128 ^ g.len v := by
  cases g with
  | minimum =>
    have h5 := ulebLen_le_five v
    have h1 := ulebLen_pos v.toNat
    exact ⟨h1, by simp only [LebGen.len]; omega, (ulebLen_spec _ _ h1).mp (Nat.le_refl _)⟩
  | fixed s =>
    simp only [LebGen.fits, LebGen.len] at *
    omega

@[simp] theorem LebGen.enc_length (g : LebGen) (v : UInt32) : (g.enc v).length = g.len v :=
  ulebFixed_length _ _

theorem LebGen.enc_val (g : LebGen) (v : UInt32) (h : g.fits v) : ulebVal (g.enc v) = v.toNat :=
  ulebFixed_val _ _ (g.fits_bounds v h).1 (g.fits_bounds v h).2.2

theorem LebGen.enc_isLeb (g : LebGen) (v : UInt32) (h : g.fits v) : IsLeb (g.enc v) :=
  ulebFixed_isLeb _ _ (g.fits_bounds v h).1

end Iamf
