import Verif.Leb
import Verif.Prim
/-
  C31: signed LEB128 generation (`LebGenerator::Sleb128ToUint8Vector`).
-/
namespace Iamf.Props

/-- `v` can be written with `n` seven bit groups in two's complement. -/
def SlebFits (n : Nat) (v : Int) : Prop := -(64 * 128 ^ (n - 1) : Nat) ≤ v ∧ v < (64 * 128 ^ (n - 1) : Nat)

instance (n : Nat) (v : Int) : Decidable (SlebFits n v) := by unfold SlebFits; infer_instance

theorem SlebFits.one (x : Int) : SlebFits 1 x ↔ -64 ≤ x ∧ x < 64 := by simp [SlebFits]

theorem SlebFits.succ (n : Nat) (x : Int) (h : 1 ≤ n) : SlebFits (n + 1) x ↔ SlebFits n (x / 128) := by
  obtain ⟨m, rfl⟩ : ∃ m, n = m + 1 := ⟨n - 1, by omega⟩
  simp only [SlebFits, Nat.add_sub_cancel, Nat.pow_succ]
  omega

theorem SlebFits.mono (n : Nat) (x : Int) (h : 1 ≤ n) (hf : SlebFits n x) : SlebFits (n + 1) x := by
  obtain ⟨m, rfl⟩ : ∃ m, n = m + 1 := ⟨n - 1, by omega⟩
  simp only [SlebFits, Nat.add_sub_cancel, Nat.pow_succ] at *
  omega

/-- `n` groups of `x`, least significant first, all with the continuation bit. -/
def slebCont : Nat → Int → List UInt8
  | 0, _ => []
  | n + 1, x => UInt8.ofNat (128 + (x % 128).toNat) :: slebCont n (x / 128)

theorem slebCont_eq (n : Nat) (x : Int) : slebCont n x = ulebCont n (x % (128 ^ n : Nat)).toNat := by
  induction n generalizing x with
  | zero => rfl
  | succ n ih =>
    rw [slebCont, ulebCont, ih]
    have hp : 0 < 128 ^ n := Nat.pow_pos (by omega)
    have e : (x % (128 ^ (n + 1) : Nat)) = x % 128 + 128 * (x / 128 % (128 ^ n : Nat)) := by
      rw [Nat.pow_succ, Nat.mul_comm, Int.natCast_mul]
      have q1 := Int.mul_ediv_add_emod x 128
      have q2 := Int.mul_ediv_add_emod (x / 128) (128 ^ n : Nat)
      have l1 := Int.emod_nonneg x (b := 128) (by omega)
      have l2 := Int.emod_lt_of_pos x (b := 128) (by omega)
      have l3 := Int.emod_nonneg (x / 128) (b := (128 ^ n : Nat)) (by omega)
      have l4 := Int.emod_lt_of_pos (x / 128) (b := (128 ^ n : Nat)) (by omega)
      generalize ((128 ^ n : Nat) : Int) = m at *
      have e : x = (x % 128 + 128 * (x / 128 % m)) + 128 * m * (x / 128 / m) := by
        rw [Int.mul_assoc]; omega
      conv => lhs; rw [e]
      rw [show ((128 : Nat) : Int) = 128 from rfl, Int.add_mul_emod_self_left]
      exact Int.emod_eq_of_lt (by omega) (by omega)
    have h1 := Int.emod_nonneg x (b := 128) (by omega)
    have h2 := Int.emod_lt_of_pos x (b := 128) (by omega)
    have h3 := Int.emod_nonneg (x / 128) (b := (128 ^ n : Nat)) (by omega)
    rw [e]
    have e1 : (x % 128 + 128 * (x / 128 % (128 ^ n : Nat))).toNat % 128 = (x % 128).toNat := by omega
    have e2 : (x % 128 + 128 * (x / 128 % (128 ^ n : Nat))).toNat / 128 = (x / 128 % (128 ^ n : Nat)).toNat := by omega
    rw [e1, e2]

/-- `t` is the 32 bit two's complement pattern of `x`. -/
def Rep (t : UInt32) (x : Int) : Prop := -2 ^ 31 ≤ x ∧ x < 2 ^ 31 ∧ (t.toNat : Int) = x % 2 ^ 32

theorem Rep.byte {t : UInt32} {x : Int} (h : Rep t x) : t.toNat % 128 = (x % 128).toNat := by
  unfold Rep at h; omega

theorem or_high (n : Nat) (h : n < 2 ^ 25) : n ||| 0xfe000000 = n + 0xfe000000 := by
  have := Nat.two_pow_add_eq_or_of_lt h 127
  rw [Nat.or_comm, show (0xfe000000 : Nat) = 2 ^ 25 * 127 from rfl, ← this]; omega

theorem Rep.step {t : UInt32} {x : Int} (h : Rep t x) :
    Rep (if decide (x < 0) then t >>> 7 ||| 0xfe000000 else t >>> 7) (x / 128) := by
  have ht := t.toNat_lt
  obtain ⟨a, b, c⟩ := h
  refine ⟨by omega, by omega, ?_⟩
  by_cases hx : x < 0
  · simp only [hx, decide_true, if_true]
    rw [UInt32.toNat_or, shr7, show (0xfe000000 : UInt32).toNat = 0xfe000000 from rfl, or_high _ (by omega)]
    omega
  · simp only [hx, decide_false, Bool.false_eq_true, if_false]
    rw [shr7]
    omega

theorem sign_bit (m : Nat) (h : m < 128) : ((UInt8.ofNat (128 + m)) &&& 0x40 != 0) = decide (64 ≤ m) := by
  have : ∀ k < 128, ((UInt8.ofNat (128 + k)) &&& 0x40 != 0) = decide (64 ≤ k) := by decide +kernel
  exact this m h

theorem Rep.stop {t : UInt32} {x : Int} (h : Rep t x) :
    ((if decide (x < 0) then t >>> 7 ||| 0xfe000000 else t >>> 7) ==
      (if true && (UInt8.ofNat (128 + t.toNat % 128) &&& 0x40) != 0 then (0xffffffff : UInt32) else 0)) = decide (SlebFits 1 x) := by
  have hs := h.step
  obtain ⟨a, b, c⟩ := hs
  have hb := h.byte
  obtain ⟨p, q, r⟩ := h
  have h1 := Int.emod_nonneg x (b := 128) (by omega)
  have h2 := Int.emod_lt_of_pos x (b := 128) (by omega)
  rw [Bool.true_and, sign_bit _ (Nat.mod_lt _ (by omega)), decide_eq_decide.mpr (SlebFits.one x)]
  have key : ∀ u : UInt32, (u.toNat : Int) = x / 128 % 2 ^ 32 →
      (u == (if decide (64 ≤ t.toNat % 128) = true then (0xffffffff : UInt32) else 0)) = decide (-64 ≤ x ∧ x < 64) := by
    intro u c
    rw [hb]
    have := u.toNat_lt
    by_cases hh : 64 ≤ (x % 128).toNat
    · simp only [hh, decide_true, if_true]
      rw [Bool.eq_iff_iff, beq_iff_eq, decide_eq_true_eq, ← UInt32.toNat_inj, show (0xffffffff : UInt32).toNat = 4294967295 from rfl]
      omega
    · simp only [hh, decide_false, Bool.false_eq_true, if_false]
      rw [Bool.eq_iff_iff, beq_iff_eq, decide_eq_true_eq, ← UInt32.toNat_inj, show (0 : UInt32).toNat = 0 from rfl]
      omega
  exact key _ c

theorem neg_div (x : Int) : decide (x / 128 < 0) = decide (x < 0) := by
  rw [decide_eq_decide]; omega

theorem lebLoop_fixed_signed (n : Nat) (t : UInt32) (x : Int) (acc : List UInt8) (ok : Bool) (h : Rep t x) :
    lebLoop true (decide (x < 0)) false n t acc ok =
      (acc ++ slebCont n x, ok || decide (1 ≤ n ∧ SlebFits n x)) := by
  induction n generalizing t x acc ok with
  | zero => simp [lebLoop, slebCont]
  | succ n ih =>
    have hs := h.stop
    have hi := fun acc ok => ih _ _ acc ok h.step
    rw [neg_div] at hi
    unfold lebLoop
    simp only [byte_or]
    rw [hs]
    simp only [Bool.false_eq_true, if_false]
    rw [hi, hi, slebCont, ← h.byte, List.append_assoc, List.singleton_append]
    by_cases h1 : SlebFits 1 x
    · rw [if_pos (by simpa using h1)]
      congr 1
      have : SlebFits (n + 1) x := by
        clear hi ih hs
        induction n with
        | zero => exact h1
        | succ n ihn => exact SlebFits.mono _ _ (by omega) ihn
      simp [this]
    · rw [if_neg (by simpa using h1)]
      congr 2
      cases n with
      | zero => simp [h1]
      | succ n => simp [SlebFits.succ]

theorem lebLoop_min_signed (n : Nat) (t : UInt32) (x : Int) (acc : List UInt8) (ok : Bool) (h : Rep t x)
    (hn : 1 ≤ n) (hf : SlebFits n x) :
    ∃ k, 1 ≤ k ∧ k ≤ n ∧ SlebFits k x ∧ (∀ j, 1 ≤ j → SlebFits j x → k ≤ j) ∧
      lebLoop true (decide (x < 0)) true n t acc ok = (acc ++ slebCont k x, true) := by
  induction n generalizing t x acc ok with
  | zero => omega
  | succ n ih =>
    have hs := h.stop
    unfold lebLoop
    simp only [byte_or]
    rw [hs]
    by_cases h1 : SlebFits 1 x
    · refine ⟨1, by omega, by omega, h1, fun j hj _ => hj, ?_⟩
      rw [if_pos (by simpa using h1), if_pos trivial, slebCont, slebCont, h.byte]
    · rw [if_neg (by simpa using h1)]
      have hn' : 1 ≤ n := by
        cases n with
        | zero => exact absurd hf h1
        | succ => omega
      obtain ⟨k, a, b, c, d, e⟩ := ih _ _ (acc ++ [UInt8.ofNat (128 + t.toNat % 128)]) ok h.step hn' ((SlebFits.succ n x hn').mp hf)
      rw [neg_div] at e
      refine ⟨k + 1, by omega, by omega, (SlebFits.succ k x a).mpr c, ?_, ?_⟩
      · intro j hj hx
        obtain ⟨i, rfl⟩ : ∃ i, j = i + 1 := ⟨j - 1, by omega⟩
        cases i with
        | zero => exact absurd hx h1
        | succ i => have := d (i + 1) (by omega) ((SlebFits.succ _ _ (by omega)).mp hx); omega
      · rw [e, slebCont, ← h.byte, List.append_assoc, List.singleton_append]

theorem ulebFixed_last (n v : Nat) (h : v < 128 ^ (n + 1)) :
    ((ulebFixed (n + 1) v).getLast?.getD 0).toNat = v / 128 ^ n := by
  induction n generalizing v with
  | zero =>
    simp only [ulebFixed, List.getLast?_singleton, Option.getD_some, Nat.pow_zero, Nat.div_one, UInt8.toNat_ofNat']
    omega
  | succ n ih =>
    have hp : 128 ^ (n + 2) = 128 ^ (n + 1) * 128 := Nat.pow_succ ..
    rw [ulebFixed, show ∀ (a : UInt8) (l : List UInt8), l ≠ [] → (a :: l).getLast? = l.getLast? from ?_, ih _ (by omega),
      Nat.div_div_eq_div_mul, Nat.pow_succ, Nat.mul_comm]
    · intro hc
      have := congrArg List.length hc
      rw [ulebFixed_length] at this
      simp at this
    · intro a l hl
      cases l with
      | nil => exact absurd rfl hl
      | cons b l => rw [List.getLast?_cons_cons]

/-- The encoding of `x` in `n` groups has value `x`. -/
theorem slebVal_enc (n : Nat) (x : Int) (hn : 1 ≤ n) (hf : SlebFits n x) :
    slebVal (clearLastMsb (slebCont n x)) = x ∧ IsLeb (clearLastMsb (slebCont n x)) ∧ (clearLastMsb (slebCont n x)).length = n := by
  rw [slebCont_eq, clearLast_ulebCont]
  have hp : 0 < 128 ^ n := Nat.pow_pos (by omega)
  have h1 := Int.emod_nonneg x (b := (128 ^ n : Nat)) (by omega)
  have h2 := Int.emod_lt_of_pos x (b := (128 ^ n : Nat)) (by omega)
  refine ⟨?_, ulebFixed_isLeb _ _ hn, ulebFixed_length _ _⟩
  have hlt : (x % (128 ^ n : Nat)).toNat < 128 ^ n := by omega
  unfold slebVal
  rw [ulebFixed_val _ _ hn hlt, ulebFixed_length]
  obtain ⟨m, rfl⟩ : ∃ m, n = m + 1 := ⟨n - 1, by omega⟩
  rw [ulebFixed_last _ _ hlt]
  simp only [SlebFits, Nat.add_sub_cancel] at hf
  have hq : 0 < 128 ^ m := Nat.pow_pos (by omega)
  have e : 128 ^ (m + 1) = 128 ^ m * 128 := Nat.pow_succ ..
  have hd : (x % (128 ^ (m + 1) : Nat)).toNat / 128 ^ m < 128 := by
    rw [Nat.div_lt_iff_lt_mul hq]; omega
  rw [Nat.mod_eq_of_lt hd]
  have hb : (x % (128 ^ (m + 1) : Nat)).toNat / 128 ^ m < 64 ↔ (x % (128 ^ (m + 1) : Nat)).toNat < 64 * 128 ^ m :=
    Nat.div_lt_iff_lt_mul hq
  by_cases hx : 0 ≤ x
  · have e2 : x % (128 ^ (m + 1) : Nat) = x := Int.emod_eq_of_lt hx (by omega)
    rw [e2] at hb ⊢
    rw [if_pos (hb.mpr (by omega))]; omega
  · have e2 : x % (128 ^ (m + 1) : Nat) = x + (128 ^ (m + 1) : Nat) := by
      rw [← Int.add_emod_right]
      exact Int.emod_eq_of_lt (by omega) (by omega)
    rw [e2] at hb ⊢
    rw [if_neg (fun h => by have := hb.mp h; omega)]; omega

/-- The values of complete LEB128 strings of `n` bytes. -/
theorem slebVal_fits (l : List UInt8) (h : IsLeb l) : 1 ≤ l.length ∧ SlebFits l.length (slebVal l) := by
  have hl : 1 ≤ l.length := by
    cases l with
    | nil => exact h.elim
    | cons => simp
  refine ⟨hl, ?_⟩
  have hlt := ulebVal_lt l
  have e := isLeb_eq_fixed l h
  obtain ⟨m, hm⟩ : ∃ m, l.length = m + 1 := ⟨l.length - 1, by omega⟩
  unfold slebVal
  rw [hm] at e hlt ⊢
  have hlast : (l.getLast?.getD 0).toNat = ulebVal l / 128 ^ m := by
    conv => lhs; rw [e]
    exact ulebFixed_last _ _ hlt
  rw [hlast]
  simp only [SlebFits, Nat.add_sub_cancel]
  have hq : 0 < 128 ^ m := Nat.pow_pos (by omega)
  have e : 128 ^ (m + 1) = 128 ^ m * 128 := Nat.pow_succ ..
  have hd : ulebVal l / 128 ^ m < 128 := by
    rw [Nat.div_lt_iff_lt_mul hq]; omega
  rw [Nat.mod_eq_of_lt hd]
  have hb : ulebVal l / 128 ^ m < 64 ↔ ulebVal l < 64 * 128 ^ m := Nat.div_lt_iff_lt_mul hq
  split
  next h => have := hb.mp h; omega
  next h => have : ¬ ulebVal l < 64 * 128 ^ m := fun c => h (hb.mpr c); omega

theorem rep_int32 (v : Int32) : Rep v.toUInt32 v.toInt := by
  refine ⟨Int32.le_toInt v, Int32.toInt_lt v, ?_⟩
  have h : v.toInt = (v.toUInt32.toNat : Int).bmod (2 ^ 32) := BitVec.toInt_eq_toNat_bmod v.toBitVec
  have := v.toUInt32.toNat_lt
  rw [h]
  simp only [Int.bmod]
  omega

theorem fits8 (v : Int32) : SlebFits 8 v.toInt := by
  have := Int32.le_toInt v
  have := Int32.toInt_lt v
  simp only [SlebFits]
  omega

/-- **C31.** For every generator the factory can produce and every signed 32-bit value: the generator returns a
complete LEB128 byte string whose signed value is the input; in minimum mode no such string is shorter (and it
never fails); in fixed-size mode it has exactly the requested size, and fails with `InvalidArgument` exactly when
no LEB128 string of that size has that signed value. -/
theorem C31_sleb128_generation (mode : GenerationMode) (size : Int8) (g : LebGen)
    (hg : LebGen.create mode size = some g) (v : Int32) :
    (∀ l, g.sleb v = .ok l → IsLeb l ∧ slebVal l = v.toInt ∧ l.length ≤ kMaxLeb128Size ∧
      (mode = .kMinimum → ∀ l', IsLeb l' → slebVal l' = v.toInt → l.length ≤ l'.length) ∧
      (mode = .kFixedSize → (l.length : Int) = size.toInt)) ∧
    (∀ e, g.sleb v = .error e → e = .invalidArgument) ∧
    ((∃ e, g.sleb v = .error e) ↔
      mode = .kFixedSize ∧ ¬ ∃ l', IsLeb l' ∧ (l'.length : Int) = size.toInt ∧ slebVal l' = v.toInt) := by
  have hr := rep_int32 v
  cases mode with
  | kMinimum =>
    simp only [LebGen.create, Option.some.injEq] at hg
    subst hg
    obtain ⟨k, a, b, c, d, e⟩ := lebLoop_min_signed 8 v.toUInt32 v.toInt [] false hr (by omega) (fits8 v)
    have hok : LebGen.minimum.sleb v = .ok (clearLastMsb (slebCont k v.toInt)) := by
      simp only [LebGen.sleb, leb128ToUint8Vector]
      have e' : lebLoop true (decide (v.toInt < 0)) true (((kMaxLeb128Size : Nat) : Int)).toNat v.toUInt32 [] false = _ := e
      rw [e', if_neg (by decide)]
      rfl
    obtain ⟨p, q, r⟩ := slebVal_enc k v.toInt a c
    rw [hok]
    refine ⟨?_, by simp, by simp⟩
    intro l hl
    simp only [Except.ok.injEq] at hl
    subst hl
    refine ⟨q, p, by rw [r]; exact b, fun _ l' h1 h2 => ?_, by simp⟩
    rw [r]
    have := slebVal_fits l' h1
    rw [h2] at this
    exact d _ this.1 this.2
  | kFixedSize =>
    simp only [LebGen.create] at hg
    by_cases h : 1 ≤ size.toInt ∧ size.toInt ≤ ((kMaxLeb128Size : Nat) : Int)
    case neg => rw [if_neg h] at hg; cases hg
    rw [if_pos h, Option.some.injEq] at hg
    subst hg
    have hk : ((kMaxLeb128Size : Nat) : Int) = 8 := rfl
    have hloop := lebLoop_fixed_signed size.toInt.toNat v.toUInt32 v.toInt [] false hr
    have h1 : 1 ≤ size.toInt.toNat := by omega
    have hnn : ((size.toInt.toNat : Nat) : Int) = size.toInt := Int.toNat_of_nonneg (by omega)
    have h8 : size.toInt.toNat ≤ 8 := by omega
    have hv : (LebGen.fixed size).sleb v =
        if SlebFits size.toInt.toNat v.toInt then .ok (clearLastMsb (slebCont size.toInt.toNat v.toInt)) else .error .invalidArgument := by
      simp only [LebGen.sleb, leb128ToUint8Vector]
      rw [if_neg (by omega), hloop]
      by_cases hs : SlebFits size.toInt.toNat v.toInt
      · rw [if_pos hs]; simp only [h1, hs, and_self, decide_true, Bool.or_true, if_true, List.nil_append]
      · rw [if_neg hs]; simp only [hs, and_false, decide_false, Bool.or_false, Bool.false_eq_true, if_false]
    have hx : (∃ l', IsLeb l' ∧ (l'.length : Int) = size.toInt ∧ slebVal l' = v.toInt) ↔ SlebFits size.toInt.toNat v.toInt := by
      constructor
      · rintro ⟨l', p, q, r⟩
        have := (slebVal_fits l' p).2
        rw [r] at this
        rw [← q]; exact this
      · intro hf
        obtain ⟨p, q, r⟩ := slebVal_enc _ _ h1 hf
        exact ⟨_, q, by rw [r]; omega, p⟩
    rw [hx, hv]
    by_cases hf : SlebFits size.toInt.toNat v.toInt
    · rw [if_pos hf]
      obtain ⟨p, q, r⟩ := slebVal_enc _ _ h1 hf
      refine ⟨?_, by simp, ⟨fun ⟨e, h⟩ => by simp at h, fun h => absurd hf h.2⟩⟩
      intro l hl
      simp only [Except.ok.injEq] at hl
      subst hl
      exact ⟨q, p, by rw [r]; exact h8, by simp, fun _ => by rw [r]; exact hnn⟩
    · rw [if_neg hf]
      exact ⟨by simp, by simp, ⟨fun _ => ⟨rfl, hf⟩, fun _ => ⟨_, rfl⟩⟩⟩

example : LebGen.minimum.sleb (-129) = .ok [0xff, 0x7e] := by decide +kernel
example : LebGen.minimum.sleb 64 = .ok [0xc0, 0x00] := by decide +kernel
example : (LebGen.fixed 1).sleb (-65) = .error .invalidArgument := by decide +kernel
example : slebVal [0xff, 0x7e] = -129 ∧ slebVal [0xc0, 0x00] = 64 := by decide +kernel

end Iamf.Props
