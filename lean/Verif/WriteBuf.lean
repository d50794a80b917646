import Verif.Leb
/-
  Model of `iamf/common/write_bit_buffer.{h,cc}`.

  Two layers:
  * the concrete buffer `WBuf` (byte vector + bit offset) with the two mutating primitives
    `internalWriteUnsigned` and `writeUint8Span`, exactly as the C++ manipulates bytes;
  * writer programs `Wr`, a tiny syntax of calls to those primitives, in which the rest of the
    code base (every `ValidateAndWrite…`) is modelled.  `Wr.run` executes a program on a concrete
    buffer; `Wr.runA` executes it on an abstract bit string.
-/
namespace Iamf

/-- `WriteBitBuffer`'s fields (write_bit_buffer.h): `leb_generator_`, `bit_buffer_`, `bit_offset_`.
`bit_offset_` is an `int64_t` that starts at 0 and only grows; modelled as `Nat`. -/
structure WBuf where
  leb : LebGen
  bytes : List UInt8
  off : Nat
  deriving DecidableEq, Repr

/-- Constructor (write_bit_buffer.cc:145-149); the capacity only affects performance. -/
def WBuf.empty (g : LebGen) : WBuf := ⟨g, [], 0⟩

/-- `MaybeResizeBufferToFitNumBits` (write_bit_buffer.cc:35-47). -/
def maybeResize (numBits off : Nat) (bytes : List UInt8) : List UInt8 :=
  if off + numBits ≤ bytes.length * 8 then bytes
  else
    let required := (off + numBits) / 8 + (if (off + numBits) % 8 == 0 then 0 else 1)
    bytes ++ List.replicate (required - bytes.length) 0

/-- `WriteBit` (write_bit_buffer.cc:52-71).  Writing outside the vector is undefined behaviour. -/
def writeBit (bit : Bool) (off : Nat) (bytes : List UInt8) : Except Err (List UInt8) :=
  let p := off >>> 3
  let q := 7 - (off &&& 7)
  match bytes[p]? with
  | none => .error .ub
  | some b =>
    if bit then .ok (bytes.set p (b ||| ((1 : UInt8) <<< UInt8.ofNat q)))
    else .ok (bytes.set p (b &&& ~~~((1 : UInt8) <<< UInt8.ofNat q)))

/-- The unaligned loop (write_bit_buffer.cc:120-122): bits `n-1 … 0` of `data`. -/
def writeBitsLoop (data : UInt64) : Nat → Nat → List UInt8 → Except Err (Nat × List UInt8)
  | 0, off, bytes => .ok (off, bytes)
  | n + 1, off, bytes =>
    match writeBit (((data >>> UInt64.ofNat n) &&& 1) == 1) off bytes with
    | .error e => .error e
    | .ok bytes' => writeBitsLoop data n (off + 1) bytes'

/-- The byte-aligned loop (write_bit_buffer.cc:113-116): bytes `n-1 … 0` of `data`. -/
def writeBytesLoop (data : UInt64) : Nat → Nat → List UInt8 → Except Err (Nat × List UInt8)
  | 0, off, bytes => .ok (off, bytes)
  | n + 1, off, bytes =>
    if off / 8 < bytes.length then
      writeBytesLoop data n (off + 8)
        (bytes.set (off / 8) ((data >>> UInt64.ofNat (n * 8)) &&& 0xff).toUInt8)
    else .error .ub

/-- `InternalWriteUnsigned` (write_bit_buffer.cc:75-126). -/
def WBuf.internalWriteUnsigned (maxBits : Nat) (data : UInt64) (numBits : Int) (w : WBuf) :
    Except Err Unit × WBuf :=
  if numBits < 0 then (.error .invalidArgument, w)
  else if numBits = 0 then (.ok (), w)
  else if maxBits > 64 then (.error .invalidArgument, w)
  else if numBits > maxBits then (.error .invalidArgument, w)
  else
    let n := numBits.toNat
    if n ≠ 64 ∧ data >>> UInt64.ofNat n ≠ 0 then (.error .invalidArgument, w)
    else
      let bytes := maybeResize n w.off w.bytes
      let res :=
        if w.off % 8 = 0 ∧ n % 8 = 0 then writeBytesLoop data (n / 8) w.off bytes
        else writeBitsLoop data n w.off bytes
      match res with
      | .ok (off', bytes') => (.ok (), { w with bytes := bytes', off := off' })
      | .error e => (.error e, w)

/-- `WriteBitBuffer::IsByteAligned` (write_bit_buffer.h). -/
def WBuf.isByteAligned (w : WBuf) : Bool := w.off % 8 = 0

/-- The mis-aligned loop of `WriteUint8Span` (write_bit_buffer.cc:265-268). -/
def WBuf.writeSpanLoop : List UInt8 → WBuf → Except Err Unit × WBuf
  | [], w => (.ok (), w)
  | b :: bs, w =>
    match w.internalWriteUnsigned 32 b.toUInt64 8 with
    | (.ok (), w') => WBuf.writeSpanLoop bs w'
    | (.error e, w') => (.error e, w')

/-- `WriteBitBuffer::WriteUint8Span` (write_bit_buffer.cc:249-269). -/
def WBuf.writeUint8Span (data : List UInt8) (w : WBuf) : Except Err Unit × WBuf :=
  if w.isByteAligned then (.ok (), { w with bytes := w.bytes ++ data, off := w.off + 8 * data.length })
  else
    WBuf.writeSpanLoop data { w with bytes := maybeResize (8 * data.length) w.off w.bytes }

/-! ### Writer programs -/

/-- A writer program: a sequence of calls on one `WriteBitBuffer`. -/
inductive Wr (α : Type) : Type where
  /-- return -/
  | ret (a : α)
  /-- return an error status (or abort / UB) -/
  | fail (e : Err)
  /-- call `InternalWriteUnsigned(max, data, n)` -/
  | lit (max : Nat) (data : UInt64) (n : Int) (k : Wr α)
  /-- call `WriteUint8Span` -/
  | span (bs : List UInt8) (k : Wr α)
  /-- read `leb_generator_` -/
  | getLeb (k : LebGen → Wr α)

namespace Wr

def bind {α β : Type} : Wr α → (α → Wr β) → Wr β
  | ret a, f => f a
  | fail e, _ => fail e
  | lit m d n k, f => lit m d n (k.bind f)
  | span bs k, f => span bs (k.bind f)
  | getLeb k, f => getLeb fun g => (k g).bind f

instance : Monad Wr where
  pure := ret
  bind := bind

/-- Execute on a concrete buffer; the buffer is returned also on failure. -/
def run {α : Type} : Wr α → WBuf → Except Err α × WBuf
  | ret a, w => (.ok a, w)
  | fail e, w => (.error e, w)
  | lit m d n k, w =>
    match w.internalWriteUnsigned m d n with
    | (.ok (), w') => k.run w'
    | (.error e, w') => (.error e, w')
  | span bs k, w =>
    match w.writeUint8Span bs with
    | (.ok (), w') => k.run w'
    | (.error e, w') => (.error e, w')
  | getLeb k, w => (k w.leb).run w

/-- What one `lit` call does, abstractly. -/
def litA (max : Nat) (data : UInt64) (n : Int) : Except Err Bits :=
  if n < 0 then .error .invalidArgument
  else if n = 0 then .ok []
  else if max > 64 ∨ n > max ∨ 2 ^ n.toNat ≤ data.toNat then .error .invalidArgument
  else .ok (natBits n.toNat data.toNat)

/-- Execute on an abstract bit string: the second component is everything emitted so far. -/
def runA {α : Type} (g : LebGen) : Wr α → Bits → Except Err α × Bits
  | ret a, out => (.ok a, out)
  | fail e, out => (.error e, out)
  | lit m d n k, out =>
    match litA m d n with
    | .ok bs => runA g k (out ++ bs)
    | .error e => (.error e, out)
  | span bs k, out => runA g k (out ++ bytesBits bs)
  | getLeb k, out => runA g (k g) out

end Wr

/-! ### Bit-level lemmas -/

private theorem set_bit_true : ∀ (b : Fin 256) (i : Fin 8),
    byteBits (UInt8.ofNat b.val ||| ((1 : UInt8) <<< UInt8.ofNat (7 - i.val))) =
      (byteBits (UInt8.ofNat b.val)).set i.val true := by decide +kernel

private theorem set_bit_false : ∀ (b : Fin 256) (i : Fin 8),
    byteBits (UInt8.ofNat b.val &&& ~~~((1 : UInt8) <<< UInt8.ofNat (7 - i.val))) =
      (byteBits (UInt8.ofNat b.val)).set i.val false := by decide +kernel

theorem byteBits_set (b : UInt8) (i : Nat) (hi : i < 8) (v : Bool) :
    byteBits (if v then b ||| ((1 : UInt8) <<< UInt8.ofNat (7 - i))
      else b &&& ~~~((1 : UInt8) <<< UInt8.ofNat (7 - i))) = (byteBits b).set i v := by
  have hb := b.toNat_lt
  have e : UInt8.ofNat b.toNat = b := by simp
  cases v
  · have := set_bit_false ⟨b.toNat, hb⟩ ⟨i, hi⟩
    simp only [e] at this
    simpa using this
  · have := set_bit_true ⟨b.toNat, hb⟩ ⟨i, hi⟩
    simp only [e] at this
    simpa using this

/-- Setting one bit through byte masks is setting one bit of the bit string. -/
theorem bytesBits_setBit (bytes : List UInt8) (p i : Nat) (hi : i < 8) (b' : UInt8) (v : Bool)
    (h : ∀ b, bytes[p]? = some b → byteBits b' = (byteBits b).set i v) (hp : p < bytes.length) :
    bytesBits (bytes.set p b') = (bytesBits bytes).set (8 * p + i) v := by
  induction bytes generalizing p with
  | nil => simp at hp
  | cons x xs ih =>
    cases p with
    | zero =>
      have := h x (by simp)
      simp only [List.set_cons_zero, bytesBits_cons, Nat.mul_zero, Nat.zero_add]
      rw [this, List.set_append_left _ _ (by simpa using hi)]
    | succ p =>
      simp only [List.set_cons_succ, bytesBits_cons]
      rw [ih p (fun b hb => h b (by simpa using hb)) (by simpa using hp),
        List.set_append_right _ _ (by simp; omega)]
      congr 2
      simp; omega

theorem writeBit_spec (bit : Bool) (off : Nat) (bytes : List UInt8) (h : off < 8 * bytes.length) :
    ∃ bytes', writeBit bit off bytes = .ok bytes' ∧ bytes'.length = bytes.length ∧
      bytesBits bytes' = (bytesBits bytes).set off bit := by
  have hp : off >>> 3 < bytes.length := by
    rw [Nat.shiftRight_eq_div_pow]; omega
  have hq : off &&& 7 = off % 8 := Nat.and_two_pow_sub_one_eq_mod off 3
  have hp' : off >>> 3 = off / 8 := by rw [Nat.shiftRight_eq_div_pow]
  have hsome : bytes[off >>> 3]? = some bytes[off >>> 3] := List.getElem?_eq_getElem hp
  refine ⟨bytes.set (off >>> 3) (if bit then bytes[off >>> 3] ||| ((1 : UInt8) <<< UInt8.ofNat (7 - (off &&& 7)))
      else bytes[off >>> 3] &&& ~~~((1 : UInt8) <<< UInt8.ofNat (7 - (off &&& 7)))), ?_, by simp, ?_⟩
  · unfold writeBit
    simp only [hsome]
    cases bit <;> simp
  · rw [bytesBits_setBit bytes _ (off % 8) (by omega) _ bit _ hp]
    · congr 1; omega
    · intro b hb
      rw [hsome] at hb
      cases hb
      rw [hq]
      exact byteBits_set _ _ (by omega) _

private theorem set_take_drop {α} (l : List α) (k : Nat) (v : α) (h : k < l.length) :
    l.set k v = l.take k ++ v :: l.drop (k + 1) := by
  rw [List.set_eq_take_append_cons_drop]; simp [h]

/-- The bits of `l` from `off` on replaced by `bs`. -/
def overwrite (l : Bits) (off : Nat) (bs : Bits) : Bits := l.take off ++ bs ++ l.drop (off + bs.length)

theorem overwrite_nil (l : Bits) (off : Nat) : overwrite l off [] = l := by
  simp [overwrite]

theorem overwrite_cons (l : Bits) (off : Nat) (b : Bool) (bs : Bits) (h : off < l.length) :
    overwrite (l.set off b) (off + 1) bs = overwrite l off (b :: bs) := by
  unfold overwrite
  rw [set_take_drop l off b h]
  have h1 : (List.take off l).length = off := by simp; omega
  rw [List.take_append, List.drop_append, h1]
  have e1 : off + 1 - off = 1 := by omega
  have e2 : off + 1 + bs.length - off = bs.length + 1 := by omega
  rw [e1, e2, List.take_of_length_le (by omega : (List.take off l).length ≤ off + 1),
    List.drop_eq_nil_of_le (by omega : (List.take off l).length ≤ off + 1 + bs.length)]
  simp only [List.take_succ_cons, List.take_zero, List.append_assoc, List.singleton_append,
    List.cons_append, List.nil_append, List.drop_succ_cons, List.drop_drop, List.length_cons]
  congr 4
  omega

theorem writeBitsLoop_spec (data : UInt64) (n off : Nat) (bytes : List UInt8) (hn : n ≤ 64)
    (h : off + n ≤ 8 * bytes.length) :
    ∃ bytes', writeBitsLoop data n off bytes = .ok (off + n, bytes') ∧
      bytes'.length = bytes.length ∧
      bytesBits bytes' = overwrite (bytesBits bytes) off (natBits n data.toNat) := by
  induction n generalizing off bytes with
  | zero => exact ⟨bytes, by simp [writeBitsLoop], rfl, by rw [natBits_zero, overwrite_nil]⟩
  | succ n ih =>
    have hbit : (((data >>> UInt64.ofNat n) &&& 1) == 1) = data.toNat.testBit n := by
      have hd : (data >>> UInt64.ofNat n).toNat = data.toNat / 2 ^ n := by
        rw [UInt64.toNat_shiftRight, Nat.shiftRight_eq_div_pow]
        have : (UInt64.ofNat n).toNat = n := UInt64.toNat_ofNat_of_lt' (by simp [UInt64.size]; omega)
        rw [this, Nat.mod_eq_of_lt (by omega)]
      have h1 : ((data >>> UInt64.ofNat n) &&& 1).toNat = data.toNat / 2 ^ n % 2 := by
        rw [UInt64.toNat_and, hd]; exact Nat.and_one_is_mod _
      rw [Nat.testBit_eq_decide_div_mod_eq, ← h1]
      have : ((data >>> UInt64.ofNat n &&& 1) = 1) ↔ ((data >>> UInt64.ofNat n &&& 1).toNat = 1) := by
        rw [← UInt64.toNat_inj]; rfl
      by_cases hc : (data >>> UInt64.ofNat n &&& 1) = 1
      · simp [hc]
      · have h2 := mt this.mpr hc
        rw [beq_eq_false_iff_ne.mpr hc, decide_eq_false h2]
    obtain ⟨b1, e1, l1, s1⟩ := writeBit_spec (data.toNat.testBit n) off bytes (by omega)
    obtain ⟨b2, e2, l2, s2⟩ := ih (off + 1) b1 (by omega) (by omega)
    refine ⟨b2, ?_, by omega, ?_⟩
    · simp only [writeBitsLoop, hbit, e1, e2]
      congr 2; omega
    · rw [s2, s1, natBits, overwrite_cons _ _ _ _ (by simp; omega)]

theorem overwrite_append (l : Bits) (off : Nat) (a b : Bits) (h : off + a.length ≤ l.length) :
    overwrite (overwrite l off a) (off + a.length) b = overwrite l off (a ++ b) := by
  unfold overwrite
  have h1 : (List.take off l ++ a).length = off + a.length := by simp; omega
  rw [List.take_append, List.drop_append, h1, List.take_of_length_le (by omega)]
  rw [List.drop_eq_nil_of_le (by omega : (List.take off l ++ a).length ≤ off + a.length + b.length)]
  simp only [Nat.sub_self, List.take_zero, List.append_nil, List.append_assoc, List.nil_append,
    List.drop_drop, List.length_append]
  congr 4
  omega

theorem bytesBits_setByte (bytes : List UInt8) (p : Nat) (b : UInt8) (hp : p < bytes.length) :
    bytesBits (bytes.set p b) = overwrite (bytesBits bytes) (8 * p) (byteBits b) := by
  unfold overwrite
  rw [bytesBits_take, byteBits_length]
  have : 8 * p + 8 = 8 * (p + 1) := by omega
  rw [this, bytesBits_drop, List.set_eq_take_append_cons_drop]
  simp [hp]

theorem writeBytesLoop_spec (data : UInt64) (n off : Nat) (bytes : List UInt8) (hn : n ≤ 8)
    (ha : off % 8 = 0) (h : off + 8 * n ≤ 8 * bytes.length) :
    ∃ bytes', writeBytesLoop data n off bytes = .ok (off + 8 * n, bytes') ∧
      bytes'.length = bytes.length ∧
      bytesBits bytes' = overwrite (bytesBits bytes) off (natBits (8 * n) data.toNat) := by
  induction n generalizing off bytes with
  | zero => exact ⟨bytes, by simp [writeBytesLoop], rfl, by simp [overwrite_nil]⟩
  | succ n ih =>
    have hlt : off / 8 < bytes.length := by omega
    have hbyte : byteBits ((data >>> UInt64.ofNat (n * 8)) &&& 0xff).toUInt8 =
        natBits 8 (data.toNat / 2 ^ (8 * n)) := by
      have hd : (data >>> UInt64.ofNat (n * 8)).toNat = data.toNat / 2 ^ (8 * n) := by
        rw [UInt64.toNat_shiftRight, Nat.shiftRight_eq_div_pow]
        have : (UInt64.ofNat (n * 8)).toNat = n * 8 :=
          UInt64.toNat_ofNat_of_lt' (by simp [UInt64.size]; omega)
        rw [this, Nat.mod_eq_of_lt (by omega), Nat.mul_comm]
      unfold byteBits
      have h1 : ((data >>> UInt64.ofNat (n * 8)) &&& 0xff).toUInt8.toNat = data.toNat / 2 ^ (8 * n) % 2 ^ 8 := by
        rw [UInt64.toNat_toUInt8, UInt64.toNat_and, hd]
        have : (0xff : UInt64).toNat = 2 ^ 8 - 1 := rfl
        rw [this, Nat.and_two_pow_sub_one_eq_mod]
        omega
      rw [h1, natBits_mod _ _ _ (Nat.le_refl _)]
    obtain ⟨b2, e2, l2, s2⟩ := ih (off + 8)
      (bytes.set (off / 8) ((data >>> UInt64.ofNat (n * 8)) &&& 0xff).toUInt8) (by omega) (by omega)
      (by simp; omega)
    refine ⟨b2, ?_, by simpa using l2, ?_⟩
    · simp only [writeBytesLoop, hlt, ↓reduceIte, e2]
      congr 2; omega
    · rw [s2, bytesBits_setByte _ _ _ hlt]
      have e : 8 * (off / 8) = off := by omega
      rw [e, hbyte]
      have e8 : 8 * (n + 1) = 8 + 8 * n := by omega
      rw [e8, natBits_add]
      have := overwrite_append (bytesBits bytes) off (natBits 8 (data.toNat / 2 ^ (8 * n)))
        (natBits (8 * n) data.toNat) (by simp; omega)
      rw [natBits_length] at this
      rw [this]

/-! ### Representation invariant and abstraction of the write buffer -/

/-- The bits written so far. -/
def WBuf.bits (w : WBuf) : Bits := (bytesBits w.bytes).take w.off

/-- Weak invariant, valid also while `WriteUint8Span` has pre-extended the vector: the offset is inside
the vector and every bit beyond it is zero. -/
structure WBuf.Ok (w : WBuf) : Prop where
  inside : w.off ≤ 8 * w.bytes.length
  padding : (bytesBits w.bytes).drop w.off = List.replicate (8 * w.bytes.length - w.off) false

/-- Representation invariant between API calls: additionally the vector has exactly the bytes needed. -/
structure WBuf.WF (w : WBuf) : Prop extends WBuf.Ok w where
  tight : w.bytes.length = (w.off + 7) / 8

theorem WBuf.wf_empty (g : LebGen) : (WBuf.empty g).WF := by
  constructor
  · constructor <;> simp [WBuf.empty]
  · simp [WBuf.empty]

theorem WBuf.bits_length (w : WBuf) (h : w.Ok) : w.bits.length = w.off := by
  have := h.inside
  simp [WBuf.bits]; omega

theorem WBuf.bytesBits_eq (w : WBuf) (h : w.Ok) :
    bytesBits w.bytes = w.bits ++ List.replicate (8 * w.bytes.length - w.off) false := by
  rw [← h.padding, WBuf.bits, List.take_append_drop]

private theorem bytesBits_replicate_zero (n : Nat) :
    bytesBits (List.replicate n 0) = List.replicate (8 * n) false := by
  induction n with
  | zero => rfl
  | succ n ih =>
    rw [List.replicate_succ, bytesBits_cons, ih]
    have : byteBits 0 = List.replicate 8 false := by decide
    rw [this, List.replicate_append_replicate]
    congr 1; omega

theorem maybeResize_ok (n : Nat) (w : WBuf) (h : w.Ok) :
    let b := maybeResize n w.off w.bytes
    b.length = max w.bytes.length ((w.off + n + 7) / 8) ∧
      bytesBits b = w.bits ++ List.replicate (8 * b.length - w.off) false := by
  intro b
  have hi := h.inside
  have hb := w.bytesBits_eq h
  by_cases hc : w.off + n ≤ w.bytes.length * 8
  · have e : b = w.bytes := by simp only [b, maybeResize, hc, ↓reduceIte]
    rw [e]
    refine ⟨by omega, hb⟩
  · have e : b = w.bytes ++ List.replicate ((w.off + n + 7) / 8 - w.bytes.length) 0 := by
      simp only [b, maybeResize, hc, ↓reduceIte]
      congr 3
      by_cases h0 : (w.off + n) % 8 = 0
      · simp [h0]; omega
      · simp [h0]; omega
    have hl : b.length = (w.off + n + 7) / 8 := by
      rw [e]; simp; omega
    refine ⟨by omega, ?_⟩
    rw [hl, e, bytesBits_append, hb, bytesBits_replicate_zero, List.append_assoc,
      List.replicate_append_replicate]
    congr 2
    omega

/-- Overwriting inside the zero padding appends to the written bits. -/
theorem overwrite_padding (bits bs : Bits) (k : Nat) (h : bs.length ≤ k) :
    overwrite (bits ++ List.replicate k false) bits.length bs =
      bits ++ bs ++ List.replicate (k - bs.length) false := by
  unfold overwrite
  rw [List.take_left', List.drop_append, List.drop_eq_nil_of_le (by omega)]
  · simp
  · rfl

private theorem shr_ne_zero (data : UInt64) (n : Nat) (hn : n < 64) :
    data >>> UInt64.ofNat n ≠ 0 ↔ 2 ^ n ≤ data.toNat := by
  have hd : (data >>> UInt64.ofNat n).toNat = data.toNat / 2 ^ n := by
    rw [UInt64.toNat_shiftRight, Nat.shiftRight_eq_div_pow]
    have : (UInt64.ofNat n).toNat = n := UInt64.toNat_ofNat_of_lt' (by simp [UInt64.size]; omega)
    rw [this, Nat.mod_eq_of_lt (by omega)]
  rw [ne_eq, ← UInt64.toNat_inj, hd]
  simp only [UInt64.toNat_zero]
  constructor
  · intro h
    have : data.toNat / 2 ^ n ≠ 0 := h
    rw [Nat.div_ne_zero_iff] at this
    exact this.2
  · intro h hc
    have : data.toNat / 2 ^ n ≠ 0 := by
      rw [Nat.div_ne_zero_iff]; exact ⟨Nat.ne_of_gt (Nat.two_pow_pos n), h⟩
    exact this hc

/-- `InternalWriteUnsigned` refines `litA`, in any state satisfying the weak invariant: on error the
buffer is untouched; on success exactly the requested bits are appended. -/
theorem internalWriteUnsigned_ok (m : Nat) (d : UInt64) (n : Int) (w : WBuf) (h : w.Ok) :
    match Wr.litA m d n with
    | .error e => w.internalWriteUnsigned m d n = (.error e, w)
    | .ok bs => ∃ w', w.internalWriteUnsigned m d n = (.ok (), w') ∧ w'.Ok ∧ w'.leb = w.leb ∧
        w'.bits = w.bits ++ bs ∧ w'.off = w.off + bs.length ∧
        w'.bytes.length = max w.bytes.length ((w.off + bs.length + 7) / 8) := by
  unfold Wr.litA WBuf.internalWriteUnsigned
  by_cases h0 : n < 0
  · simp [h0]
  by_cases h1 : n = 0
  · subst h1
    simp only [h0, ↓reduceIte]
    refine ⟨w, rfl, h, rfl, by simp, by simp, ?_⟩
    have := h.inside
    simp; omega
  simp only [h0, h1, ↓reduceIte]
  by_cases h2 : m > 64
  · simp [h2]
  by_cases h3 : n > (m : Int)
  · simp [h2, h3]
  simp only [h2, h3, false_or, ↓reduceIte]
  have hn64 : n.toNat ≤ 64 := by omega
  have hcond : (n.toNat ≠ 64 ∧ d >>> UInt64.ofNat n.toNat ≠ 0) ↔ 2 ^ n.toNat ≤ d.toNat := by
    by_cases h64 : n.toNat = 64
    · have := d.toNat_lt
      simp only [h64, ne_eq, not_true_eq_false, false_and, false_iff]
      omega
    · rw [shr_ne_zero d n.toNat (by omega)]
      simp [h64]
  by_cases h4 : 2 ^ n.toNat ≤ d.toNat
  · have h4' := hcond.mpr h4
    rw [if_pos h4, if_pos h4']
  have h4' := mt hcond.mp h4
  rw [if_neg h4, if_neg h4']
  obtain ⟨hrl, hrb⟩ := maybeResize_ok n.toNat w h
  have hfit : w.off + n.toNat ≤ 8 * (maybeResize n.toNat w.off w.bytes).length := by omega
  have key : ∃ bytes', (if w.off % 8 = 0 ∧ n.toNat % 8 = 0 then
        writeBytesLoop d (n.toNat / 8) w.off (maybeResize n.toNat w.off w.bytes)
      else writeBitsLoop d n.toNat w.off (maybeResize n.toNat w.off w.bytes)) =
        .ok (w.off + n.toNat, bytes') ∧
        bytes'.length = (maybeResize n.toNat w.off w.bytes).length ∧
        bytesBits bytes' = overwrite (bytesBits (maybeResize n.toNat w.off w.bytes)) w.off
          (natBits n.toNat d.toNat) := by
    by_cases ha : w.off % 8 = 0 ∧ n.toNat % 8 = 0
    · rw [if_pos ha]
      obtain ⟨b, e, l, s⟩ := writeBytesLoop_spec d (n.toNat / 8) w.off
        (maybeResize n.toNat w.off w.bytes) (by omega) ha.1 (by omega)
      have e8 : 8 * (n.toNat / 8) = n.toNat := by omega
      rw [e8] at e s
      exact ⟨b, e, l, s⟩
    · rw [if_neg ha]
      exact writeBitsLoop_spec d n.toNat w.off _ hn64 (by omega)
  obtain ⟨b, e, l, s⟩ := key
  simp only [e]
  have hoff : w.off = w.bits.length := (w.bits_length h).symm
  rw [hrb, hoff, overwrite_padding _ _ _ (by rw [natBits_length, ← hoff]; omega)] at s
  rw [← hoff] at s
  have hbits : (⟨w.leb, b, w.off + n.toNat⟩ : WBuf).bits = w.bits ++ natBits n.toNat d.toNat := by
    unfold WBuf.bits
    simp only []
    rw [s, List.take_left' (by rw [List.length_append, natBits_length, w.bits_length h])]
    rfl
  refine ⟨⟨w.leb, b, w.off + n.toNat⟩, rfl, ⟨?_, ?_⟩, rfl, hbits, by simp, ?_⟩
  · simp only []; omega
  · simp only []
    rw [s, List.drop_append,
      List.drop_eq_nil_of_le (by rw [List.length_append, natBits_length, w.bits_length h]; omega)]
    rw [List.length_append, natBits_length, w.bits_length h]
    simp only [Nat.sub_self, List.drop_zero, List.nil_append]
    congr 1
    omega
  · simp only [natBits_length]; omega

theorem litA_byte (b : UInt8) : Wr.litA 32 b.toUInt64 8 = .ok (byteBits b) := by
  unfold Wr.litA byteBits
  have := b.toNat_lt
  simp
  omega

theorem writeSpanLoop_ok (data : List UInt8) (w : WBuf) (h : w.Ok) :
    ∃ w', WBuf.writeSpanLoop data w = (.ok (), w') ∧ w'.Ok ∧ w'.leb = w.leb ∧
      w'.bits = w.bits ++ bytesBits data ∧ w'.off = w.off + 8 * data.length ∧
      w'.bytes.length = max w.bytes.length ((w.off + 8 * data.length + 7) / 8) := by
  induction data generalizing w with
  | nil =>
    have := h.inside
    exact ⟨w, rfl, h, rfl, by simp, by simp, by simp; omega⟩
  | cons b bs ih =>
    have h1 := internalWriteUnsigned_ok 32 b.toUInt64 8 w h
    rw [litA_byte] at h1
    obtain ⟨w1, e1, o1, g1, b1, f1, l1⟩ := h1
    obtain ⟨w2, e2, o2, g2, b2, f2, l2⟩ := ih w1 o1
    refine ⟨w2, ?_, o2, by rw [g2, g1], ?_, ?_, ?_⟩
    · simp only [WBuf.writeSpanLoop, e1, e2]
    · rw [b2, b1]; simp
    · rw [f2, f1]; simp; omega
    · rw [l2, l1, f1]; simp; omega

/-- `WriteUint8Span` appends exactly the given bytes, whatever the alignment. -/
theorem writeUint8Span_wf (data : List UInt8) (w : WBuf) (h : w.WF) :
    ∃ w', w.writeUint8Span data = (.ok (), w') ∧ w'.WF ∧ w'.leb = w.leb ∧
      w'.bits = w.bits ++ bytesBits data ∧ w'.off = w.off + 8 * data.length := by
  unfold WBuf.writeUint8Span WBuf.isByteAligned
  have ht := h.tight
  have hi := h.inside
  by_cases ha : w.off % 8 = 0
  · simp only [ha, decide_true, ↓reduceIte]
    have hb : bytesBits w.bytes = w.bits := by
      rw [w.bytesBits_eq h.toOk]
      have : 8 * w.bytes.length - w.off = 0 := by omega
      simp [this]
    have hl : 8 * (w.bytes ++ data).length = w.off + 8 * data.length := by
      simp; omega
    refine ⟨_, rfl, ⟨⟨?_, ?_⟩, ?_⟩, rfl, ?_, rfl⟩
    · simp; omega
    · rw [List.drop_eq_nil_of_le (by simp; omega), hl]; simp
    · simp; omega
    · unfold WBuf.bits
      simp only []
      rw [List.take_of_length_le (by simp; omega), bytesBits_append, hb,
        List.take_of_length_le (by rw [w.bits_length h.toOk]; omega)]
  · simp only [ha, decide_false, Bool.false_eq_true, ↓reduceIte]
    obtain ⟨hrl, hrb⟩ := maybeResize_ok (8 * data.length) w h.toOk
    have hbl := w.bits_length h.toOk
    have hbits : (⟨w.leb, maybeResize (8 * data.length) w.off w.bytes, w.off⟩ : WBuf).bits = w.bits := by
      show List.take w.off (bytesBits (maybeResize (8 * data.length) w.off w.bytes)) = w.bits
      rw [hrb, List.take_left' hbl]
    have hok : (⟨w.leb, maybeResize (8 * data.length) w.off w.bytes, w.off⟩ : WBuf).Ok := by
      constructor
      · simp only []; omega
      · simp only []
        rw [hrb, List.drop_left' hbl]
    obtain ⟨w', e, o, g, b, f, l⟩ := writeSpanLoop_ok data _ hok
    refine ⟨w', e, ⟨o, ?_⟩, g, ?_, f⟩
    · rw [l, f]; simp only [] at hrl ⊢; omega
    · rw [b, hbits]

theorem internalWriteUnsigned_wf (m : Nat) (d : UInt64) (n : Int) (w : WBuf) (h : w.WF) :
    match Wr.litA m d n with
    | .error e => w.internalWriteUnsigned m d n = (.error e, w)
    | .ok bs => ∃ w', w.internalWriteUnsigned m d n = (.ok (), w') ∧ w'.WF ∧ w'.leb = w.leb ∧
        w'.bits = w.bits ++ bs := by
  have := internalWriteUnsigned_ok m d n w h.toOk
  split
  next e he => rw [he] at this; exact this
  next bs hbs =>
    rw [hbs] at this
    obtain ⟨w', e, o, g, b, f, l⟩ := this
    refine ⟨w', e, ⟨o, ?_⟩, g, b⟩
    have := h.tight
    rw [l, f]; omega

/-- **Refinement of the write buffer.**  Every writer program run on a well-formed concrete buffer
behaves exactly as on the abstract bit string, success or failure, and keeps the invariant. -/
theorem Wr.run_refines {α : Type} (p : Wr α) (w : WBuf) (h : w.WF) :
    (p.run w).1 = (p.runA w.leb w.bits).1 ∧ (p.run w).2.WF ∧ (p.run w).2.leb = w.leb ∧
      (p.run w).2.bits = (p.runA w.leb w.bits).2 := by
  induction p generalizing w with
  | ret a => exact ⟨rfl, h, rfl, rfl⟩
  | fail e => exact ⟨rfl, h, rfl, rfl⟩
  | lit m d n k ih =>
    have := internalWriteUnsigned_wf m d n w h
    simp only [Wr.run, Wr.runA]
    split at this
    next e he =>
      simp only [this, he]
      exact ⟨trivial, h, trivial, trivial⟩
    next bs hbs =>
      obtain ⟨w', e, o, g, b⟩ := this
      simp only [e, hbs]
      have := ih w' o
      rw [g, b] at this
      exact this
  | span bs k ih =>
    obtain ⟨w', e, o, g, b, _⟩ := writeUint8Span_wf bs w h
    simp only [Wr.run, Wr.runA, e]
    have := ih w' o
    rw [g, b] at this
    exact this
  | getLeb k ih => exact ih w.leb w h

end Iamf
