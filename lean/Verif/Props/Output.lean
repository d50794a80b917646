import Verif.Cli.Output
import Mathlib.Algebra.Order.Field.Rat
import Mathlib.Tactic.Linarith
import Mathlib.Data.Rat.Floor
/-
  C32: samples as bytes.
-/
namespace Iamf.Props
open Iamf

/-! ### Specification -/

/-- The number that bytes stand for, least significant byte first. -/
def leNat : List UInt8 → Nat
  | [] => 0
  | b :: bs => b.toNat + 256 * leNat bs

/-- The same in two's complement. -/
def leInt (bs : List UInt8) : Int := if 2 * leNat bs < 256 ^ bs.length then leNat bs else leNat bs - 256 ^ bs.length

/-! ### Samples -/

private theorem int32_bits (v : Int32) : (v.toUInt32.toNat : Int) = if 0 ≤ v.toInt then v.toInt else v.toInt + 4294967296 := by
  have h1 : v.toInt = (v.toUInt32.toNat : Int) - if v.toUInt32.toNat < 2147483648 then 0 else 4294967296 := by
    have : v.toInt = v.toBitVec.toInt := rfl
    rw [this, BitVec.toInt_eq_toNat_cond]
    have e : v.toUInt32.toNat = v.toBitVec.toNat := rfl
    rw [e]
    split <;> split <;> omega
  have h2 := v.toUInt32.toNat_lt
  split at h1 <;> split <;> omega

private theorem byte_of (s : UInt32) (k : Nat) (hk : k < 32) :
    ((s >>> UInt32.ofNat k) &&& 0xff).toUInt8.toNat = s.toNat / 2 ^ k % 256 := by
  simp only [UInt32.toNat_toUInt8, UInt32.toNat_and, UInt32.toNat_shiftRight, UInt32.reduceToNat]
  have e : (UInt32.ofNat k).toNat % 32 = k := by
    simp only [UInt32.toNat_ofNat']
    omega
  rw [e, Nat.shiftRight_eq_div_pow, show (255 : Nat) = 2 ^ 8 - 1 from rfl, Nat.and_two_pow_sub_one_eq_mod]
  omega

/-- **C32 (one sample).** A sample of 8, 16, 24 or 32 bits is written as that many bits: the most significant ones of the 32,
as a number in two's complement; in reverse order if big-endian is asked for.  Other sizes are refused. -/
theorem C32_one_sample (v : Int32) (size : UInt8) (be : Bool) :
    (size = 8 ∨ size = 16 ∨ size = 24 ∨ size = 32 → ∃ bytes,
      writePcmSample v.toUInt32 size be = .ok (if be then bytes.reverse else bytes) ∧ bytes.length = size.toNat / 8 ∧
      leInt bytes = v.toInt / 2 ^ (32 - size.toNat)) ∧
    (size ≠ 0 ∧ size ≠ 8 ∧ size ≠ 16 ∧ size ≠ 24 ∧ size ≠ 32 → writePcmSample v.toUInt32 size be = .error .invalidArgument) := by
  have hv := int32_bits v
  have hlt := v.toUInt32.toNat_lt
  have hlo := v.le_toInt
  have hhi := v.toInt_lt
  simp only [Int.reducePow, Int.reduceNeg, Int.reduceSub] at hlo hhi
  have hb := fun k hk => byte_of v.toUInt32 k hk
  constructor
  · rintro (rfl | rfl | rfl | rfl)
    · refine ⟨[((v.toUInt32 >>> UInt32.ofNat 24) &&& 0xff).toUInt8], by cases be <;> rfl, by simp, ?_⟩
      simp only [leInt, leNat, List.length_cons, List.length_nil, hb 24 (by decide)]
      rw [show (2 : Int) ^ (32 - UInt8.toNat 8) = 16777216 from by decide]
      simp only [Nat.reduceAdd, Nat.reducePow, Int.reducePow, Nat.zero_add, Nat.mul_zero, Nat.add_zero]
      split at hv <;> split <;> omega
    · refine ⟨[((v.toUInt32 >>> UInt32.ofNat 16) &&& 0xff).toUInt8, ((v.toUInt32 >>> UInt32.ofNat 24) &&& 0xff).toUInt8],
        by cases be <;> rfl, by simp, ?_⟩
      simp only [leInt, leNat, List.length_cons, List.length_nil, hb 24 (by decide), hb 16 (by decide)]
      rw [show (2 : Int) ^ (32 - UInt8.toNat 16) = 65536 from by decide]
      simp only [Nat.reduceAdd, Nat.reducePow, Int.reducePow, Nat.zero_add, Nat.mul_zero, Nat.add_zero]
      split at hv <;> split <;> omega
    · refine ⟨[((v.toUInt32 >>> UInt32.ofNat 8) &&& 0xff).toUInt8, ((v.toUInt32 >>> UInt32.ofNat 16) &&& 0xff).toUInt8,
        ((v.toUInt32 >>> UInt32.ofNat 24) &&& 0xff).toUInt8], by cases be <;> rfl, by simp, ?_⟩
      simp only [leInt, leNat, List.length_cons, List.length_nil, hb 24 (by decide), hb 16 (by decide), hb 8 (by decide)]
      rw [show (2 : Int) ^ (32 - UInt8.toNat 24) = 256 from by decide]
      simp only [Nat.reduceAdd, Nat.reducePow, Int.reducePow, Nat.zero_add, Nat.mul_zero, Nat.add_zero]
      split at hv <;> split <;> omega
    · refine ⟨[((v.toUInt32 >>> UInt32.ofNat 0) &&& 0xff).toUInt8, ((v.toUInt32 >>> UInt32.ofNat 8) &&& 0xff).toUInt8,
        ((v.toUInt32 >>> UInt32.ofNat 16) &&& 0xff).toUInt8, ((v.toUInt32 >>> UInt32.ofNat 24) &&& 0xff).toUInt8],
        by cases be <;> rfl, by simp, ?_⟩
      simp only [leInt, leNat, List.length_cons, List.length_nil, hb 24 (by decide), hb 16 (by decide), hb 8 (by decide), hb 0 (by decide)]
      rw [show (2 : Int) ^ (32 - UInt8.toNat 32) = 1 from by decide]
      simp only [Nat.reduceAdd, Nat.reducePow, Int.reducePow, Nat.zero_add, Nat.mul_zero, Nat.add_zero]
      split at hv <;> split <;> omega
  · rintro ⟨h0, h1, h2, h3, h4⟩
    unfold writePcmSample
    rw [if_pos]
    simp only [ne_eq, ← UInt8.toNat_inj, UInt8.reduceToNat] at *
    have := size.toNat_lt
    omega

/-! ### Frames -/

private theorem flatten_block {β : Type} (l : List (List β)) (w : Nat) (h : ∀ x ∈ l, x.length = w) (i : Nat) (hi : i < l.length) :
    (l.flatten.drop (i * w)).take w = l[i] := by
  induction l generalizing i with
  | nil => simp at hi
  | cons a l ih =>
    have ha : a.length = w := h a (by simp)
    cases i with
    | zero => simp [← ha]
    | succ i =>
      rw [List.flatten_cons, show (i + 1) * w = w + i * w by rw [Nat.add_mul, Nat.one_mul, Nat.add_comm], ← List.drop_drop,
        List.drop_left' ha]
      simpa using ih (fun x hx => h x (by simp [hx])) i (by simpa using hi)

private theorem flatten_length {β : Type} (l : List (List β)) (w : Nat) (h : ∀ x ∈ l, x.length = w) :
    l.flatten.length = l.length * w := by
  induction l with
  | nil => simp
  | cons a l ih =>
    rw [List.flatten_cons, List.length_append, h a (by simp), ih (fun x hx => h x (by simp [hx])), List.length_cons, Nat.add_mul]
    omega

/-- The bytes of a sample of a channel. -/
private def bytesAt {α : Type} (f : α → Int32) (size : UInt8) (be : Bool) (t : Nat) (c : List α) : List UInt8 :=
  match c[t]? with
  | none => []
  | some x => match writePcmSample (f x).toUInt32 size be with
    | .ok b => b
    | .error _ => []

/-- The sizes of samples that are written. -/
def okSize (size : UInt8) : Prop := size = 8 ∨ size = 16 ∨ size = 24 ∨ size = 32

private theorem sample_ok (v : Int32) {size : UInt8} (be : Bool) (h : okSize size) :
    ∃ b, writePcmSample v.toUInt32 size be = .ok b ∧ b.length = size.toNat / 8 := by
  obtain ⟨bytes, h1, h2, -⟩ := (C32_one_sample v size be).1 h
  exact ⟨_, h1, by cases be <;> simpa using h2⟩

private theorem writeTick_eq {α : Type} (f : α → Int32) {size : UInt8} (be : Bool) (h : okSize size) (t : Nat) (cs : List (List α))
    (hl : ∀ c ∈ cs, t < c.length) :
    writeTick (fun x => .ok (f x)) size be t cs = .ok (cs.map (bytesAt f size be t)).flatten := by
  induction cs with
  | nil => rfl
  | cons c cs ih =>
    have hc : c[t]? = some (c[t]'(hl c (by simp))) := List.getElem?_eq_getElem _
    obtain ⟨b, hb, -⟩ := sample_ok (f (c[t]'(hl c (by simp)))) be h
    simp only [writeTick, hc, Bind.bind, Except.bind, hb, ih fun x hx => hl x (by simp [hx]), List.map_cons, List.flatten_cons, bytesAt]

private theorem writeTicks_eq {α : Type} (f : α → Int32) {size : UInt8} (be : Bool) (h : okSize size) (cs : List (List α)) (t n : Nat)
    (hl : ∀ c ∈ cs, t + n ≤ c.length) :
    writeTicks (fun x => .ok (f x)) size be cs t n =
      .ok (((List.range' t n).map fun t => cs.map (bytesAt f size be t)).flatten.flatten) := by
  induction n generalizing t with
  | zero => rfl
  | succ n ih =>
    simp only [writeTicks, Bind.bind, Except.bind]
    rw [writeTick_eq f be h t cs fun c hc => by have := hl c hc; omega, ih (t + 1) fun c hc => by have := hl c hc; omega]
    simp only [List.range'_succ, List.map_cons, List.flatten_cons, List.flatten_append]

/-- All that is written, and where. -/
theorem writeTicks_layout {α : Type} (f : α → Int32) {size : UInt8} (be : Bool) (h : okSize size) (cs : List (List α)) (n : Nat)
    (hl : ∀ c ∈ cs, n ≤ c.length) :
    ∃ b, writeTicks (fun x => .ok (f x)) size be cs 0 n = .ok b ∧ b.length = cs.length * n * (size.toNat / 8) ∧
      ∀ c t, (hc : c < cs.length) → (ht : t < n) →
        .ok ((b.drop ((t * cs.length + c) * (size.toNat / 8))).take (size.toNat / 8)) =
          writePcmSample (f ((cs[c])[t]'(Nat.lt_of_lt_of_le ht (hl _ (List.getElem_mem _))))).toUInt32 size be := by
  refine ⟨_, writeTicks_eq f be h cs 0 n (by simpa using hl), ?_, ?_⟩
  · rw [flatten_length _ (size.toNat / 8), flatten_length _ cs.length]
    · simp [Nat.mul_comm]
    · intro x hx
      simp only [List.mem_map] at hx
      obtain ⟨t, -, rfl⟩ := hx
      simp
    · intro x hx
      simp only [List.mem_flatten, List.mem_map, List.mem_range'_1, Nat.zero_le, true_and, Nat.zero_add] at hx
      obtain ⟨l, ⟨t, ht, rfl⟩, hx⟩ := hx
      simp only [List.mem_map] at hx
      obtain ⟨c, hc, rfl⟩ := hx
      have htc : t < c.length := Nat.lt_of_lt_of_le ht (hl c hc)
      obtain ⟨b, hb, hbl⟩ := sample_ok (f c[t]) be h
      simp [bytesAt, List.getElem?_eq_getElem htc, hb, hbl]
  · intro c t hc ht
    have htc : t < cs[c].length := Nat.lt_of_lt_of_le ht (hl _ (List.getElem_mem _))
    obtain ⟨b, hb, hbl⟩ := sample_ok (f (cs[c])[t]) be h
    have hall : ∀ x ∈ ((List.range' 0 n).map fun t => cs.map (bytesAt f size be t)).flatten, x.length = size.toNat / 8 := by
      intro x hx
      simp only [List.mem_flatten, List.mem_map, List.mem_range'_1, Nat.zero_le, true_and, Nat.zero_add] at hx
      obtain ⟨l, ⟨t, ht, rfl⟩, hx⟩ := hx
      simp only [List.mem_map] at hx
      obtain ⟨c, hc, rfl⟩ := hx
      have htc : t < c.length := Nat.lt_of_lt_of_le ht (hl c hc)
      obtain ⟨b, hb, hbl⟩ := sample_ok (f c[t]) be h
      simp [bytesAt, List.getElem?_eq_getElem htc, hb, hbl]
    have hinner : ∀ x ∈ (List.range' 0 n).map (fun t => cs.map (bytesAt f size be t)), x.length = cs.length := by
      intro x hx
      simp only [List.mem_map] at hx
      obtain ⟨t, -, rfl⟩ := hx
      simp
    have hlen := flatten_length _ _ hinner
    simp only [List.length_map, List.length_range'] at hlen
    have hidx : t * cs.length + c < n * cs.length := by
      have : (t + 1) * cs.length ≤ n * cs.length := Nat.mul_le_mul_right _ ht
      rw [Nat.add_mul] at this
      omega
    rw [flatten_block _ _ hall _ (by rw [hlen]; exact hidx), hb]
    have hb2 := flatten_block _ _ hinner t (by simpa using ht)
    have hget : ((List.range' 0 n).map fun t => cs.map (bytesAt f size be t)).flatten[t * cs.length + c]'(by rw [hlen]; exact hidx) =
        b := by
      have h1 := congrArg (fun l => l[c]?) hb2
      simp only [List.getElem?_take, hc, ↓reduceIte, List.getElem?_drop, List.getElem_map, List.getElem_range', Nat.zero_add,
        Nat.one_mul, List.getElem?_map] at h1
      rw [List.getElem?_eq_getElem (by rw [hlen]; exact hidx), List.getElem?_eq_getElem hc] at h1
      simp only [Option.map_some, Option.some.injEq] at h1
      rw [h1]
      simp [bytesAt, List.getElem?_eq_getElem htc, hb]
    rw [hget]

theorem sampleSize_ok {sampleType : Nat} (h : sampleType = 1 ∨ sampleType = 2) :
    okSize (UInt8.ofNat (bytesPerSample sampleType * 8)) ∧ (UInt8.ofNat (bytesPerSample sampleType * 8)).toNat / 8 = bytesPerSample sampleType ∧
      (UInt8.ofNat (bytesPerSample sampleType * 8)).toNat = 8 * bytesPerSample sampleType := by
  rcases h with rfl | rfl
  · exact ⟨.inr (.inl rfl), by decide, by decide⟩
  · exact ⟨.inr (.inr (.inr rfl)), by decide, by decide⟩

/-- **C32 (frames).** A frame whose channels have the same number of samples is written into a buffer that is large enough as
interleaved samples of 16 or 32 bits, little-endian, and fills exactly as many bytes as that takes. -/
theorem C32_frames_are_interleaved (frame : Rendered) (n sampleType size : Nat) (hne : frame ≠ []) (hn : ∀ c ∈ frame, c.length = n)
    (ht : sampleType = 1 ∨ sampleType = 2) (hsize : frame.length * n * (2 * sampleType) ≤ size) (hmax : size ≤ 18446744073709551615) :
    ∃ bytes, writeFrameToSpan frame sampleType size = .ok bytes ∧ bytes.length = frame.length * n * (2 * sampleType) ∧
      ∀ c t, (hc : c < frame.length) → (htn : t < n) →
        leInt ((bytes.drop ((t * frame.length + c) * (2 * sampleType))).take (2 * sampleType)) =
          (normalizedToInt32 ((frame[c])[t]'(by rw [hn _ (List.getElem_mem _)]; exact htn))).toInt / 2 ^ (32 - 16 * sampleType) := by
  have hb : bytesPerSample sampleType = 2 * sampleType := by rcases ht with rfl | rfl <;> rfl
  obtain ⟨k1, k2, k3⟩ := sampleSize_ok ht
  rw [hb] at k1 k2 k3
  have hl : ∀ c ∈ frame, n ≤ c.length := fun c hc => by rw [hn c hc]
  obtain ⟨b, h1, h2, h3⟩ := writeTicks_layout normalizedToInt32 false k1 frame n hl
  rw [k2] at h2 h3
  have hval : validateWriteFrame frame sampleType size = .ok () := by
    match hf : frame with
    | [] => exact absurd rfl hne
    | c :: cs =>
      subst hf
      have hcn : c.length = n := hn c (by simp)
      unfold validateWriteFrame
      simp only [hb]
      rw [if_neg (by omega), if_neg, if_neg, if_neg]
      · rw [hcn]; omega
      · rintro ⟨h0, hgt⟩
        rw [hcn, Nat.div_div_eq_div_mul] at hgt
        have hpos : 0 < n * (2 * sampleType) := Nat.mul_pos (by omega) (by omega)
        have := (Nat.div_lt_iff_lt_mul hpos).mp hgt
        rw [← Nat.mul_assoc] at this
        omega
      · simp only [Bool.not_eq_true', Bool.not_eq_false]
        rw [List.all_eq_true]
        intro d hd
        rw [hn d hd, hcn]
        simp
  have hhead : (frame.headD []).length = n := by
    cases frame with
    | nil => exact absurd rfl hne
    | cons c cs => exact hn c (by simp)
  refine ⟨b, ?_, h2, ?_⟩
  · unfold writeFrameToSpan
    rw [hval, hhead, hb]
    exact h1
  · intro c t hc htn
    have h4 := h3 c t hc htn
    obtain ⟨bytes, g1, -, g3⟩ := (C32_one_sample (normalizedToInt32 ((frame[c])[t]'(by rw [hn _ (List.getElem_mem _)]; exact htn)))
      (UInt8.ofNat (2 * sampleType * 8)) false).1 k1
    rw [g1] at h4
    simp only [Except.ok.injEq, Bool.false_eq_true, ↓reduceIte] at h4
    rw [h4, g3, k3]
    congr 2
    omega

/-- **C32 (refusals).** Nothing is written, and the request refused, without channels, for channels of different lengths, for
another sample type or into a buffer that is too small. -/
theorem C32_frames_refused (frame : Rendered) (sampleType size : Nat)
    (h : frame = [] ∨ (∃ c ∈ frame, ∃ d ∈ frame, c.length ≠ d.length) ∨ (sampleType ≠ 1 ∧ sampleType ≠ 2) ∨
      ∃ c ∈ frame, size < frame.length * c.length * (2 * sampleType)) :
    writeFrameToSpan frame sampleType size = .error .invalidArgument := by
  suffices validateWriteFrame frame sampleType size = .error .invalidArgument by
    unfold writeFrameToSpan
    rw [this]
    rfl
  match frame, h with
  | [], _ => rfl
  | c :: cs, h =>
    unfold validateWriteFrame
    simp only
    by_cases hb : bytesPerSample sampleType = 0
    · rw [if_pos hb]
    · rw [if_neg hb]
      have ht : sampleType = 1 ∨ sampleType = 2 := by
        unfold bytesPerSample at hb
        split at hb
        · exact .inl ‹_›
        · split at hb
          · exact .inr ‹_›
          · exact absurd rfl hb
      have hb2 : bytesPerSample sampleType = 2 * sampleType := by rcases ht with rfl | rfl <;> rfl
      split
      · rfl
      next hall =>
        simp only [Bool.not_eq_true', Bool.not_eq_false] at hall
        rw [List.all_eq_true] at hall
        have hall' : ∀ d ∈ c :: cs, d.length = c.length := fun d hd => by simpa using hall d hd
        split
        · rfl
        · split
          · rfl
          next hs =>
            exfalso
            rcases h with h | ⟨d, hd, e, he, hne⟩ | h | ⟨d, hd, hlt⟩
            · simp at h
            · rw [hall' d hd, hall' e he] at hne; exact hne rfl
            · omega
            · rw [hall' d hd] at hlt
              rw [hb2] at hs
              exact hs hlt

/-- **C32 (buffers).** A buffer as large as what is written is large enough. -/
theorem C32_exact_buffer (frame : Rendered) (sampleType size size2 : Nat) (bytes : List UInt8)
    (h : writeFrameToSpan frame sampleType size = .ok bytes) (hs : bytes.length ≤ size2) :
    writeFrameToSpan frame sampleType size2 = .ok bytes := by
  unfold writeFrameToSpan at h ⊢
  cases hv : validateWriteFrame frame sampleType size with
  | error e => rw [hv] at h; simp [Bind.bind, Except.bind] at h
  | ok _ =>
    rw [hv] at h
    simp only [Bind.bind, Except.bind] at h
    suffices validateWriteFrame frame sampleType size2 = .ok () by
      rw [this]; exact h
    match frame with
    | [] => simp [validateWriteFrame] at hv
    | c :: cs =>
      unfold validateWriteFrame at hv ⊢
      simp only at hv ⊢
      split at hv
      · simp at hv
      next h1 =>
      split at hv
      · simp at hv
      next h2 =>
      split at hv
      · simp at hv
      next h3 =>
      rw [if_neg h1, if_neg h2, if_neg h3]
      have ht : sampleType = 1 ∨ sampleType = 2 := by
        unfold bytesPerSample at h1
        split at h1
        · exact .inl ‹_›
        · split at h1
          · exact .inr ‹_›
          · exact absurd rfl h1
      obtain ⟨k1, k2, -⟩ := sampleSize_ok ht
      simp only [Bool.not_eq_true', Bool.not_eq_false] at h2
      rw [List.all_eq_true] at h2
      obtain ⟨b, b1, b2, -⟩ := writeTicks_layout normalizedToInt32 false k1 (c :: cs) c.length (fun d hd => by
        have := h2 d hd; simp only [beq_iff_eq] at this; omega)
      rw [List.headD_cons, b1] at h
      simp only [Except.ok.injEq] at h
      subst h
      rw [k2] at b2
      rw [if_neg (by omega)]

/-! ### Numbers -/

theorem trunc_nonneg {x : Rat} (h : 0 ≤ x) : ((truncRat x : Int) : Rat) ≤ x ∧ x < (truncRat x : Int) + 1 ∧ 0 ≤ truncRat x := by
  have hd : (0 : Rat) < x.den := by exact_mod_cast x.den_pos
  have hn : 0 ≤ x.num := Rat.num_nonneg.mpr h
  have e : truncRat x = x.num / (x.den : Int) := Int.tdiv_eq_ediv_of_nonneg hn
  have hdz : (0 : Int) < x.den := by exact_mod_cast x.den_pos
  have h1 := Int.ediv_mul_le x.num (b := (x.den : Int)) (by omega)
  have h2 := Int.lt_ediv_add_one_mul_self x.num hdz
  have hx : x = x.num / x.den := (Rat.num_div_den x).symm
  refine ⟨?_, ?_, by rw [e]; exact Int.ediv_nonneg hn (by omega)⟩
  · rw [e]
    conv_rhs => rw [hx]
    rw [le_div_iff₀ hd]
    exact_mod_cast h1
  · rw [e]
    conv_lhs => rw [hx]
    rw [div_lt_iff₀ hd]
    exact_mod_cast h2

private theorem trunc_neg (x : Rat) : truncRat (-x) = -truncRat x := by
  unfold truncRat
  rw [Rat.neg_num, Rat.neg_den, Int.neg_tdiv]

theorem trunc_nonpos {x : Rat} (h : x ≤ 0) : x ≤ (truncRat x : Int) ∧ ((truncRat x : Int) : Rat) - 1 < x ∧ truncRat x ≤ 0 := by
  obtain ⟨h1, h2, h3⟩ := trunc_nonneg (x := -x) (by linarith)
  rw [trunc_neg] at h1 h2 h3
  push_cast at h1 h2
  exact ⟨by linarith, by linarith, by omega⟩

private theorem ofInt_toInt {i : Int} (h1 : -2147483648 ≤ i) (h2 : i ≤ 2147483647) : (Int32.ofInt i).toInt = i :=
  Int32.toInt_ofInt_of_le (by simpa using h1) (by simp; omega)

/-- **C32 (values).** A sample is clipped to the range from -1 to 1 and becomes the nearest multiple of 2^-31 towards zero; the
largest is that of the largest number of 32 bits. -/
theorem C32_values (x : Rat) :
    (1 ≤ x → (normalizedToInt32 x).toInt = 2147483647) ∧ (x ≤ -1 → (normalizedToInt32 x).toInt = -2147483648) ∧
    (0 ≤ x → x < 1 → ((normalizedToInt32 x).toInt : Rat) ≤ x * 2147483648 ∧ x * 2147483648 < (normalizedToInt32 x).toInt + 1) ∧
    (-1 < x → x ≤ 0 → x * 2147483648 ≤ (normalizedToInt32 x).toInt ∧ ((normalizedToInt32 x).toInt : Rat) - 1 < x * 2147483648) := by
  refine ⟨fun h => ?_, fun h => ?_, fun h0 h1 => ?_, fun h0 h1 => ?_⟩
  · have : (if x < -1 then -1 else if 1 < x then 1 else x) = 1 := by
      rw [if_neg (by linarith)]
      split
      · rfl
      · linarith
    unfold normalizedToInt32
    rw [this]
    decide +kernel
  · have : (if x < -1 then -1 else if 1 < x then 1 else x) = -1 := by
      split
      · rfl
      · rw [if_neg (by linarith)]; linarith
    unfold normalizedToInt32
    rw [this]
    decide +kernel
  · obtain ⟨t1, t2, t3⟩ := trunc_nonneg (x := x * 2147483648) (by linarith)
    unfold normalizedToInt32
    rw [if_neg (by linarith), if_neg (by linarith)]
    unfold clipToInt32
    by_cases hbig : x * 2147483648 > 2147483647
    · rw [if_pos hbig]
      have e : ((2147483647 : Int32).toInt : Rat) = 2147483647 := by decide +kernel
      rw [e]
      constructor <;> linarith
    · rw [if_neg hbig, if_neg (by linarith)]
      have hle : truncRat (x * 2147483648) ≤ 2147483647 := by
        have : ((truncRat (x * 2147483648) : Int) : Rat) ≤ (2147483647 : Int) := by push_cast; linarith
        exact_mod_cast this
      rw [ofInt_toInt (by omega) hle]
      exact ⟨t1, t2⟩
  · obtain ⟨t1, t2, t3⟩ := trunc_nonpos (x := x * 2147483648) (by linarith)
    unfold normalizedToInt32
    rw [if_neg (by linarith), if_neg (by linarith)]
    unfold clipToInt32
    rw [if_neg (by linarith), if_neg (by linarith)]
    have hge : -2147483648 ≤ truncRat (x * 2147483648) := by
      have : ((-2147483648 : Int) : Rat) ≤ (truncRat (x * 2147483648) : Int) := by push_cast; linarith
      exact_mod_cast this
    rw [ofInt_toInt hge (by omega)]
    exact ⟨t1, t2⟩

/-- **C32 (integers come back).** An integer sample that is made a number between -1 and 1 comes back as it was. -/
theorem C32_integers_come_back (v : Int32) : normalizedToInt32 (int32ToNormalized v) = v := by
  have hlo := v.le_toInt
  have hhi := v.toInt_lt
  simp only [Int.reducePow, Int.reduceNeg, Int.reduceSub] at hlo hhi
  have hlo' : (-2147483648 : Rat) ≤ v.toInt := by exact_mod_cast hlo
  have hhi' : (v.toInt : Rat) ≤ 2147483647 := by exact_mod_cast (by omega : v.toInt ≤ 2147483647)
  have hx : int32ToNormalized v * 2147483648 = v.toInt := by unfold int32ToNormalized; field_simp
  apply Int32.toInt_inj.mp
  obtain ⟨-, h2, h3, h4⟩ := C32_values (int32ToNormalized v)
  rcases lt_trichotomy v.toInt 0 with hn | hz | hp
  · have hn' : (v.toInt : Rat) ≤ 0 := by exact_mod_cast (by omega : v.toInt ≤ 0)
    by_cases hm : int32ToNormalized v ≤ -1
    · have : (v.toInt : Rat) ≤ -2147483648 := by linarith
      have : v.toInt ≤ -2147483648 := by exact_mod_cast this
      rw [h2 hm]; omega
    · obtain ⟨a, b⟩ := h4 (by linarith) (by linarith)
      rw [hx] at a b
      have a' : v.toInt ≤ (normalizedToInt32 (int32ToNormalized v)).toInt := by exact_mod_cast a
      have b' : (normalizedToInt32 (int32ToNormalized v)).toInt - 1 < v.toInt := by exact_mod_cast b
      omega
  · have hz' : (v.toInt : Rat) = 0 := by exact_mod_cast hz
    obtain ⟨a, b⟩ := h3 (by linarith) (by linarith)
    rw [hx] at a b
    have a' : (normalizedToInt32 (int32ToNormalized v)).toInt ≤ v.toInt := by exact_mod_cast a
    have b' : v.toInt < (normalizedToInt32 (int32ToNormalized v)).toInt + 1 := by exact_mod_cast b
    omega
  · have hp' : (0 : Rat) ≤ v.toInt := by exact_mod_cast hp.le
    obtain ⟨a, b⟩ := h3 (by linarith) (by linarith)
    rw [hx] at a b
    have a' : (normalizedToInt32 (int32ToNormalized v)).toInt ≤ v.toInt := by exact_mod_cast a
    have b' : v.toInt < (normalizedToInt32 (int32ToNormalized v)).toInt + 1 := by exact_mod_cast b
    omega

/-- A frame of two channels, in 16 bits. -/
example : writeFrameToSpan [[1 / 2, -1, 2], [0, 1 / 65536, -1 / 2]] 1 12 =
    .ok [0x00, 0x40, 0x00, 0x00, 0x00, 0x80, 0x00, 0x00, 0xff, 0x7f, 0x00, 0xc0] := by decide +kernel

example : writeFrameToSpan [[1 / 2, -1, 2], [0, 1 / 65536, -1 / 2]] 1 11 = .error .invalidArgument := by decide +kernel

end Iamf.Props
