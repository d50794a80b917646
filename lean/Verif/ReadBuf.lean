import Verif.Base
/-
  Model of `iamf/common/read_bit_buffer.{h,cc}`.

  `RBuf` is the concrete buffer: a fixed-capacity window (`bit_buffer_`) over a source, with the
  bookkeeping offsets exactly as in the C++.  One model covers the three subclasses:
  * `MemoryBasedReadBitBuffer` – capacity = source size;
  * `FileBasedReadBitBuffer` – any capacity; the file is modelled as the byte string `src`, i.e. file
    I/O is assumed to succeed and the file not to change while it is read;
  * `StreamBasedReadBitBuffer` – any capacity, source initially empty, plus `pushBytes` and `flush`.

  Reader programs `Rd` are the syntax in which every `ReadAndValidate…`/`CreateFromBuffer` is
  modelled; `Rd.run` executes them on the concrete buffer, `Rd.runA` on an abstract cursor into a
  bit string, and `Rd.run_refines` proves that the two always agree.
-/
namespace Iamf

/-- `ReadBitBuffer` + `MemoryBasedReadBitBuffer` fields (read_bit_buffer.h:282-302, 348-349).  The
capacity of `bit_buffer_` is taken to be its size (`std::vector(n)` allocates exactly `n`). -/
structure RBuf where
  buf : List UInt8
  bufOff : Nat
  bufSize : Nat
  srcSize : Int
  srcOff : Int
  posValid : Bool
  src : List UInt8
  deriving DecidableEq, Repr

/-- Constructors (read_bit_buffer.cc:270-275, 414-417, 439-442, 488-491, 545-548).
`is_position_valid_` is left uninitialised by the C++ constructor: `posValid` is an arbitrary value. -/
def RBuf.create (capacity : Nat) (source : List UInt8) (posValid : Bool) : RBuf :=
  { buf := List.replicate capacity 0, bufOff := 0, bufSize := 0,
    srcSize := 8 * (source.length : Int), srcOff := 0, posValid, src := source }

/-- `MemoryBasedReadBitBuffer::CreateFromSpan` (read_bit_buffer.cc:414-417). -/
def RBuf.fromSpan (source : List UInt8) (posValid : Bool) : RBuf := RBuf.create source.length source posValid

/-- The value returned by `Tell` (read_bit_buffer.cc:291-294). -/
def RBuf.tell (r : RBuf) : Int := r.srcOff - r.bufSize + r.bufOff

/-- `LoadBytesToBuffer` (read_bit_buffer.cc:419-437). -/
def RBuf.load (start num : Int) (r : RBuf) : Except Err RBuf :=
  if start < 0 ∨ num < 0 ∨ num > r.buf.length then .error .invalidArgument
  else if start > r.src.length ∨ start + num > r.src.length then .error .invalidArgument
  else .ok { r with buf := (r.src.drop start.toNat).take num.toNat ++ r.buf.drop num.toNat }

/-- `Seek` (read_bit_buffer.cc:296-336). -/
def RBuf.seek (pos : Int) (r : RBuf) : Except Err Unit × RBuf :=
  if !r.posValid then (.error .failedPrecondition, r)
  else if pos < 0 then (.error .invalidArgument, r)
  else if pos > r.srcSize then (.error .resourceExhausted, r)
  else if r.srcOff - r.bufSize ≤ pos ∧ pos < r.srcOff then
    (.ok (), { r with bufOff := (pos - (r.srcOff - r.bufSize)).toNat })
  else
    let start := pos / 8
    let num := min (r.buf.length : Int) (r.srcSize / 8 - start)
    match r.load start num with
    | .error e => (.error e, r)
    | .ok r' =>
      (.ok (), { r' with bufOff := (pos % 8).toNat, srcOff := (start + num) * 8, bufSize := (num * 8).toNat })

/-- `NumBytesAvailable` (read_bit_buffer.cc:279-289); the `ABSL_CHECK`s become `abort`. -/
def RBuf.numBytesAvailable (r : RBuf) : Except Err Int :=
  if ¬ (0 ≤ r.srcOff ∧ r.srcOff ≤ r.srcSize) then .error .abort
  else if ¬ (r.bufOff ≤ r.bufSize) then .error .abort
  else .ok ((r.srcSize - r.srcOff) / 8 + (((r.bufSize - r.bufOff) / 8 : Nat) : Int))

/-- `GetUpperBit` (read_bit_buffer.cc:53-58). -/
def getUpperBit (off : Nat) (data : List UInt8) : Nat :=
  (((data.getD (off / 8) 0) >>> UInt8.ofNat (7 - off % 8)) &&& 1).toNat

/-- `ReadUnsignedLiteralBits` (read_bit_buffer.cc:68-81): returns (offset, bits left, output).  The
`uint64_t` output is a `Nat`: at most 64 bits are ever shifted in (line 345). -/
def readBitsLoop (buf : List UInt8) (bufSize : Nat) : Nat → Nat → Nat → Nat × Nat × Nat
  | 0, off, out => (off, 0, out)
  | n + 1, off, out =>
    if off / 8 < buf.length ∧ off < bufSize then
      readBitsLoop buf bufSize n (off + 1) (2 * out + getUpperBit off buf)
    else (off, n + 1, out)

/-- `ReadUnsignedLiteralBytes` (read_bit_buffer.cc:84-95), counted in bytes: the caller guarantees (by
an `ABSL_CHECK`) that the number of bits is a multiple of eight. -/
def readBytesLoop (buf : List UInt8) : Nat → Nat → Nat → Nat × Nat
  | 0, off, out => (off, out)
  | n + 1, off, out =>
    if off / 8 < buf.length then
      readBytesLoop buf n (off + 8) (256 * out + (buf.getD (off / 8) 0).toNat)
    else (off, out)

/-- The loop over complete bytes (read_bit_buffer.cc:387-400).  `fuel` bounds the iterations; an
iteration that reads nothing repeats forever in C++, hence `diverge` when fuel runs out. -/
def RBuf.readWholeBytes : Nat → Nat → Nat → RBuf → Except Err (Nat × Nat) × RBuf
  | fuel, rem, out, r =>
    if rem < 8 then (.ok (rem, out), r)
    else
      match fuel with
      | 0 => (.error .diverge, r)
      | fuel + 1 =>
        let r := { r with posValid := true }
        match r.seek r.tell with
        | (.error e, r') => (.error e, r')
        | (.ok (), r') =>
          let num := min (r'.bufSize - r'.bufOff) (rem / 8 * 8)
          if ¬ (r'.bufOff % 8 = 0 ∧ num % 8 = 0) then (.error .abort, r')
          else
            let (off, out) := readBytesLoop r'.buf (num / 8) r'.bufOff out
            RBuf.readWholeBytes fuel (rem - num) out { r' with bufOff := off }

/-- `ReadUnsignedLiteralInternal` (read_bit_buffer.cc:342-410). -/
def RBuf.readUnsigned (numBits : Int) (maxBits : Nat) (r : RBuf) : Except Err Nat × RBuf :=
  if numBits > maxBits then (.error .invalidArgument, r)
  else if numBits < 0 then (.error .invalidArgument, r)
  else
    let r := { r with posValid := true }
    if r.tell + numBits > r.srcSize then (.error .resourceExhausted, r)
    else if numBits = 0 then (.ok 0, r)
    else
      match r.seek r.tell with
      | (.error e, r) => (.error e, r)
      | (.ok (), r) =>
        let rem := numBits.toNat
        let finalPos := r.tell + rem
        if finalPos / 8 = r.tell / 8 then
          let (off, rem, out) := readBitsLoop r.buf r.bufSize rem r.bufOff 0
          if rem = 0 then (.ok out, { r with bufOff := off }) else (.error .abort, { r with bufOff := off })
        else
          let k := if r.bufOff % 8 ≠ 0 then 8 - r.bufOff % 8 else 0
          let (off, _, out) := readBitsLoop r.buf r.bufSize k r.bufOff 0
          match RBuf.readWholeBytes rem (rem - k) out { r with bufOff := off } with
          | (.error e, r) => (.error e, r)
          | (.ok (rem, out), r) =>
            let numFinal := (finalPos % 8).toNat
            match r.seek r.tell with
            | (.error e, r) => (.error e, r)
            | (.ok (), r) =>
              let (off, _, out) := readBitsLoop r.buf r.bufSize numFinal r.bufOff out
              if rem - numFinal = 0 ∧ numFinal ≤ rem then (.ok out, { r with bufOff := off })
              else (.error .abort, { r with bufOff := off })

/-- `kEntireObuSizeMaxTwoMegabytes` (iamf/obu/types.h). -/
def kEntireObuSizeMaxTwoMegabytes : Nat := 2097152

/-- `StreamBasedReadBitBuffer::PushBytes` (read_bit_buffer.cc:504-516). -/
def RBuf.pushBytes (bytes : List UInt8) (r : RBuf) : Except Err Unit × RBuf :=
  if (bytes.length : Int) > 2 * kEntireObuSizeMaxTwoMegabytes - r.src.length then
    (.error .invalidArgument, r)
  else (.ok (), { r with src := r.src ++ bytes, srcSize := r.srcSize + bytes.length * 8 })

/-- `StreamBasedReadBitBuffer::Flush` (read_bit_buffer.cc:525-543). -/
def RBuf.flush (r : RBuf) : Except Err Unit × RBuf :=
  let num := r.tell / 8
  if num > r.src.length ∨ num < 0 then (.error .abort, r)
  else (.ok (), { r with src := r.src.drop num.toNat, srcOff := r.srcOff - num * 8,
                         srcSize := r.srcSize - num * 8, posValid := false })

/-! ### Abstract cursor -/

/-- The specification of a reader: a bit string, a position, and whether a position obtained by `Tell`
may be used by `Seek`. -/
structure RS where
  src : Bits
  pos : Nat
  valid : Bool
  deriving DecidableEq, Repr

/-- Bits not yet consumed. -/
def RS.rest (s : RS) : Bits := s.src.drop s.pos

/-- `Seek` on the abstract cursor. -/
def RS.seek (p : Int) (s : RS) : Except Err Unit × RS :=
  if !s.valid then (.error .failedPrecondition, s)
  else if p < 0 then (.error .invalidArgument, s)
  else if p > s.src.length then (.error .resourceExhausted, s)
  else (.ok (), { s with pos := p.toNat })

/-- Reading `n` bits on the abstract cursor. -/
def RS.read (n : Int) (max : Nat) (s : RS) : Except Err Nat × RS :=
  if n > max then (.error .invalidArgument, s)
  else if n < 0 then (.error .invalidArgument, s)
  else if s.pos + n.toNat > s.src.length then (.error .resourceExhausted, { s with valid := true })
  else (.ok (bitsNat (s.rest.take n.toNat)), { s with pos := s.pos + n.toNat, valid := true })

/-! ### Reader programs -/

/-- A reader program: a sequence of calls on one `ReadBitBuffer`. -/
inductive Rd : Type → Type 1 where
  | ret {α : Type} (a : α) : Rd α
  | fail {α : Type} (e : Err) : Rd α
  /-- `ReadUnsignedLiteralInternal(n, max)` -/
  | lit {α : Type} (max : Nat) (n : Int) (k : Nat → Rd α) : Rd α
  | tell {α : Type} (k : Int → Rd α) : Rd α
  | seek {α : Type} (p : Int) (k : Rd α) : Rd α
  /-- `NumBytesAvailable()` -/
  | avail {α : Type} (k : Int → Rd α) : Rd α
  /-- run a subprogram and look at its status (used where the C++ inspects a status instead of
  returning it).  `abort`, `ub` and `diverge` are not statuses and cannot be intercepted. -/
  | attempt {α β : Type} (m : Rd β) (k : Except Err β → Rd α) : Rd α

namespace Rd

def bind {α β : Type} : Rd α → (α → Rd β) → Rd β
  | ret a, f => f a
  | fail e, _ => fail e
  | lit m n k, f => lit m n fun v => (k v).bind f
  | tell k, f => tell fun v => (k v).bind f
  | seek p k, f => seek p (k.bind f)
  | avail k, f => avail fun v => (k v).bind f
  | attempt m k, f => attempt m fun r => (k r).bind f

instance : Monad Rd where
  pure := ret
  bind := bind

/-- Execute on a concrete buffer. -/
def run {α : Type} : Rd α → RBuf → Except Err α × RBuf
  | ret a, r => (.ok a, r)
  | fail e, r => (.error e, r)
  | lit m n k, r =>
    match r.readUnsigned n m with
    | (.ok v, r') => (k v).run r'
    | (.error e, r') => (.error e, r')
  | tell k, r => (k r.tell).run { r with posValid := true }
  | seek p k, r =>
    match r.seek p with
    | (.ok (), r') => k.run r'
    | (.error e, r') => (.error e, r')
  | avail k, r =>
    match r.numBytesAvailable with
    | .ok v => (k v).run r
    | .error e => (.error e, r)
  | attempt m k, r =>
    match m.run r with
    | (.ok a, r') => (k (.ok a)).run r'
    | (.error e, r') => if e.fatal then (.error e, r') else (k (.error e)).run r'

/-- Execute on the abstract cursor. -/
def runA {α : Type} : Rd α → RS → Except Err α × RS
  | ret a, s => (.ok a, s)
  | fail e, s => (.error e, s)
  | lit m n k, s =>
    match s.read n m with
    | (.ok v, s') => (k v).runA s'
    | (.error e, s') => (.error e, s')
  | tell k, s => (k s.pos).runA { s with valid := true }
  | seek p k, s =>
    match s.seek p with
    | (.ok (), s') => k.runA s'
    | (.error e, s') => (.error e, s')
  | avail k, s => (k (((s.src.length - s.pos) / 8 : Nat) : Int)).runA s
  | attempt m k, s =>
    match m.runA s with
    | (.ok a, s') => (k (.ok a)).runA s'
    | (.error e, s') => if e.fatal then (.error e, s') else (k (.error e)).runA s'

end Rd

/-! ### Representation invariant -/

/-- The invariant relating the window to the source. -/
structure RBuf.WF (r : RBuf) : Prop where
  off_le : r.bufOff ≤ r.bufSize
  size_le : r.bufSize ≤ 8 * r.buf.length
  size_mod : r.bufSize % 8 = 0
  srcOff_nonneg : 0 ≤ r.srcOff
  srcOff_le : r.srcOff ≤ r.srcSize
  srcOff_mod : r.srcOff % 8 = 0
  srcSize_eq : r.srcSize = 8 * (r.src.length : Int)
  tell_nonneg : 0 ≤ r.tell
  cap_pos : 0 < r.buf.length ∨ r.src = []
  content : ∀ i : Nat, i < r.bufSize / 8 → 0 ≤ r.srcOff / 8 - (r.bufSize / 8 : Nat) + i →
    r.buf[i]? = r.src[(r.srcOff / 8 - (r.bufSize / 8 : Nat) + i).toNat]?

/-- The abstract cursor represented by a concrete buffer. -/
def RBuf.abs (r : RBuf) : RS := ⟨bytesBits r.src, r.tell.toNat, r.posValid⟩

theorem RBuf.wf_create (cap : Nat) (src : List UInt8) (pv : Bool) (h : 0 < cap ∨ src = []) :
    (RBuf.create cap src pv).WF := by
  constructor <;> simp [RBuf.create, RBuf.tell]
  · omega
  · exact h

theorem RBuf.abs_create (cap : Nat) (src : List UInt8) (pv : Bool) :
    (RBuf.create cap src pv).abs = ⟨bytesBits src, 0, pv⟩ := by
  simp [RBuf.abs, RBuf.create, RBuf.tell]

theorem RBuf.tell_le (r : RBuf) (h : r.WF) : r.tell ≤ r.srcSize := by
  have := h.off_le; have := h.srcOff_le
  unfold RBuf.tell; omega

/-! ### Seek -/

private theorem seek_ok (r : RBuf) (h : r.WF) (hv : r.posValid = true) (p : Int) (h0 : 0 ≤ p)
    (h1 : p ≤ r.srcSize) :
    ∃ r', r.seek p = (.ok (), r') ∧ r'.WF ∧ r'.tell = p ∧ r'.src = r.src ∧ r'.srcSize = r.srcSize ∧
      r'.posValid = true ∧ (p < r.srcSize → r'.bufOff < r'.bufSize) := by
  have hoff := h.off_le
  have hsz := h.size_le
  have hsm := h.size_mod
  have hso := h.srcOff_nonneg
  have hsl := h.srcOff_le
  have hsmod := h.srcOff_mod
  have hss := h.srcSize_eq
  unfold RBuf.seek
  simp only [hv, Bool.not_true, Bool.false_eq_true, ↓reduceIte]
  rw [if_neg (by omega), if_neg (by omega)]
  by_cases hin : r.srcOff - r.bufSize ≤ p ∧ p < r.srcOff
  · rw [if_pos hin]
    refine ⟨_, rfl, ?_, ?_, rfl, rfl, by simp only [hv], ?_⟩
    · constructor
      · simp only []; omega
      · exact hsz
      · exact hsm
      · exact hso
      · exact hsl
      · exact hsmod
      · exact hss
      · simp only [RBuf.tell]; omega
      · exact h.cap_pos
      · exact h.content
    · simp only [RBuf.tell]; omega
    · intro _; simp only []; omega
  · rw [if_neg hin]
    have hnum : 0 ≤ min (r.buf.length : Int) (r.srcSize / 8 - p / 8) := by omega
    have hload : r.load (p / 8) (min (r.buf.length : Int) (r.srcSize / 8 - p / 8)) =
        .ok { r with buf := (r.src.drop (p / 8).toNat).take (min (r.buf.length : Int) (r.srcSize / 8 - p / 8)).toNat
          ++ r.buf.drop (min (r.buf.length : Int) (r.srcSize / 8 - p / 8)).toNat } := by
      unfold RBuf.load
      rw [if_neg (by omega), if_neg (by omega)]
    simp only [hload]
    generalize hN : min (r.buf.length : Int) (r.srcSize / 8 - p / 8) = num at *
    have hlen : ((r.src.drop (p / 8).toNat).take num.toNat ++ r.buf.drop num.toNat).length = r.buf.length := by
      simp only [List.length_append, List.length_take, List.length_drop]
      omega
    refine ⟨_, rfl, ?_, ?_, rfl, rfl, by simp only [hv], ?_⟩
    · constructor
      · simp only []
        have := h.cap_pos
        rcases this with hc | hc
        · omega
        · simp only [hc, List.length_nil] at hss
          omega
      · simp only [hlen]; omega
      · simp only []; omega
      · simp only []; omega
      · simp only []; omega
      · simp only []; omega
      · exact hss
      · simp only [RBuf.tell]; omega
      · show 0 < ((r.src.drop (p / 8).toNat).take num.toNat ++ r.buf.drop num.toNat).length ∨ r.src = []
        rw [hlen]
        exact h.cap_pos
      · intro i hi _
        simp only [] at hi ⊢
        have e1 : ((p / 8 + num) * 8 / 8 - (((num * 8).toNat / 8 : Nat) : Int) + i).toNat = (p / 8).toNat + i := by
          omega
        rw [e1]
        rw [List.getElem?_append_left (by simp only [List.length_take, List.length_drop]; omega)]
        rw [List.getElem?_take_of_lt (by omega), List.getElem?_drop]
    · simp only [RBuf.tell]; omega
    · intro hlt
      simp only []
      rcases h.cap_pos with hc | hc
      · omega
      · simp only [hc, List.length_nil] at hss
        omega

/-! ### Bit access -/

theorem bytesBits_getElem? (l : List UInt8) (k : Nat) :
    (bytesBits l)[k]? = (l[k / 8]?).bind fun b => (byteBits b)[k % 8]? := by
  induction l generalizing k with
  | nil => simp
  | cons b l ih =>
    rw [bytesBits_cons]
    by_cases hk : k < 8
    · rw [List.getElem?_append_left (by simpa using hk)]
      have : k / 8 = 0 := by omega
      have e : k % 8 = k := by omega
      simp [this, e]
    · rw [List.getElem?_append_right (by simp; omega), ih]
      have e : k / 8 = (k - 8) / 8 + 1 := by omega
      have e2 : (k - 8) % 8 = k % 8 := by omega
      simp [e, e2]

private theorem upper_bit_all : ∀ (b : Fin 256) (i : Fin 8),
    (byteBits (UInt8.ofNat b.val))[i.val]? =
      some ((((UInt8.ofNat b.val) >>> UInt8.ofNat (7 - i.val)) &&& 1).toNat == 1) ∧
    (((UInt8.ofNat b.val) >>> UInt8.ofNat (7 - i.val)) &&& 1).toNat ≤ 1 := by decide +kernel

private theorem upper_bit (b : UInt8) (i : Nat) (hi : i < 8) :
    (byteBits b)[i]? = some (((b >>> UInt8.ofNat (7 - i)) &&& 1).toNat == 1) ∧
    ((b >>> UInt8.ofNat (7 - i)) &&& 1).toNat ≤ 1 := by
  have := upper_bit_all ⟨b.toNat, b.toNat_lt⟩ ⟨i, hi⟩
  simpa using this

/-- Bits of a source from `q`, `n` of them. -/
def bitsAt (s : Bits) (q n : Nat) : Bits := (s.drop q).take n

theorem bitsAt_length (s : Bits) (q n : Nat) (h : q + n ≤ s.length) : (bitsAt s q n).length = n := by
  simp [bitsAt]; omega

theorem bitsAt_add (s : Bits) (q a b : Nat) : bitsAt s q (a + b) = bitsAt s q a ++ bitsAt s (q + a) b := by
  unfold bitsAt
  rw [List.take_add, List.drop_drop]

theorem bitsAt_one (s : Bits) (q : Nat) (b : Bool) (h : s[q]? = some b) : bitsAt s q 1 = [b] := by
  unfold bitsAt
  rw [List.getElem?_eq_some_iff] at h
  obtain ⟨hl, hb⟩ := h
  rw [List.drop_eq_getElem_cons hl, List.take_succ_cons, List.take_zero, hb]

theorem bitsNat_bitsAt_add (s : Bits) (q a b : Nat) (h : q + a + b ≤ s.length) :
    bitsNat (bitsAt s q (a + b)) = bitsNat (bitsAt s q a) * 2 ^ b + bitsNat (bitsAt s (q + a) b) := by
  rw [bitsAt_add, bitsNat_append, bitsAt_length _ _ _ h]

/-- A bit inside the window is the corresponding bit of the source. -/
private theorem window_bit (r : RBuf) (h : r.WF) (o : Nat) (ho : o < r.bufSize)
    (hq : 0 ≤ r.srcOff - r.bufSize + o) :
    (bytesBits r.src)[(r.srcOff - r.bufSize + o).toNat]? = some (getUpperBit o r.buf == 1) ∧
      getUpperBit o r.buf ≤ 1 := by
  have hm := h.size_mod
  have hsm := h.srcOff_mod
  have hc := h.content (o / 8) (by omega) (by omega)
  have hsz := h.size_le
  have hlt : o / 8 < r.buf.length := by omega
  have e8 : (r.srcOff - r.bufSize + o).toNat / 8 = (r.srcOff / 8 - (r.bufSize / 8 : Nat) + (o / 8 : Nat)).toNat := by
    omega
  have em : (r.srcOff - r.bufSize + o).toNat % 8 = o % 8 := by omega
  rw [bytesBits_getElem?, e8, ← hc, em, List.getElem?_eq_getElem hlt]
  simp only [Option.bind_some]
  have := upper_bit r.buf[o / 8] (o % 8) (by omega)
  unfold getUpperBit
  rw [List.getD_eq_getElem?_getD, List.getElem?_eq_getElem hlt]
  simpa using this

private theorem window_byte (r : RBuf) (h : r.WF) (o : Nat) (ho : o + 8 ≤ r.bufSize) (ha : o % 8 = 0)
    (hq : 0 ≤ r.srcOff - r.bufSize + o) :
    bitsAt (bytesBits r.src) (r.srcOff - r.bufSize + o).toNat 8 = byteBits (r.buf.getD (o / 8) 0) := by
  have hm := h.size_mod
  have hsm := h.srcOff_mod
  have hsz := h.size_le
  have hlt : o / 8 < r.buf.length := by omega
  have hc := h.content (o / 8) (by omega) (by omega)
  have e8 : (r.srcOff - r.bufSize + o).toNat = 8 * (r.srcOff / 8 - (r.bufSize / 8 : Nat) + (o / 8 : Nat)).toNat := by
    omega
  rw [List.getElem?_eq_getElem hlt] at hc
  rw [List.getD_eq_getElem?_getD, List.getElem?_eq_getElem hlt, e8]
  unfold bitsAt
  rw [bytesBits_drop]
  generalize (r.srcOff / 8 - (r.bufSize / 8 : Nat) + (o / 8 : Nat)).toNat = j at *
  have hj := hc.symm
  rw [List.getElem?_eq_some_iff] at hj
  obtain ⟨hjl, hjv⟩ := hj
  rw [List.drop_eq_getElem_cons hjl, bytesBits_cons, List.take_left' (by simp), hjv]
  rfl

private theorem readBitsLoop_spec (r : RBuf) (h : r.WF) (n o out : Nat) (ho : o + n ≤ r.bufSize)
    (hq : 0 ≤ r.srcOff - r.bufSize + o) :
    readBitsLoop r.buf r.bufSize n o out =
      (o + n, 0, out * 2 ^ n + bitsNat (bitsAt (bytesBits r.src) (r.srcOff - r.bufSize + o).toNat n)) := by
  induction n generalizing o out with
  | zero => simp [readBitsLoop, bitsAt]
  | succ n ih =>
    have hsz := h.size_le
    have hsl := h.srcOff_le
    have hss := h.srcSize_eq
    have hb := window_bit r h o (by omega) hq
    have hcond : o / 8 < r.buf.length ∧ o < r.bufSize := by omega
    simp only [readBitsLoop, hcond, and_self, ↓reduceIte]
    rw [ih (o + 1) _ (by omega) (by omega)]
    have e1 : (r.srcOff - r.bufSize + (o + 1 : Nat)).toNat = (r.srcOff - r.bufSize + o).toNat + 1 := by omega
    have hlen : (bytesBits r.src).length = 8 * r.src.length := bytesBits_length _
    rw [Nat.add_comm n 1, bitsNat_bitsAt_add _ _ 1 n (by omega), e1, bitsAt_one _ _ _ hb.1]
    have hbit : bitsNat [getUpperBit o r.buf == 1] = getUpperBit o r.buf := by
      have : getUpperBit o r.buf = 0 ∨ getUpperBit o r.buf = 1 := by omega
      rcases this with h | h <;> simp [h, bitsNat]
    rw [hbit, Nat.pow_add]
    refine Prod.ext (by simp; omega) (Prod.ext rfl ?_)
    simp only []
    rw [Nat.add_mul, ← Nat.add_assoc]
    congr 2
    rw [Nat.mul_comm 2 out, Nat.mul_assoc]

private theorem readBytesLoop_spec (r : RBuf) (h : r.WF) (n o out : Nat) (ho : o + 8 * n ≤ r.bufSize)
    (ha : o % 8 = 0) (hq : 0 ≤ r.srcOff - r.bufSize + o) :
    readBytesLoop r.buf n o out =
      (o + 8 * n, out * 2 ^ (8 * n) +
        bitsNat (bitsAt (bytesBits r.src) (r.srcOff - r.bufSize + o).toNat (8 * n))) := by
  induction n generalizing o out with
  | zero => simp [readBytesLoop, bitsAt]
  | succ n ih =>
    have hsz := h.size_le
    have hsl := h.srcOff_le
    have hss := h.srcSize_eq
    have hb := window_byte r h o (by omega) ha hq
    have hcond : o / 8 < r.buf.length := by omega
    simp only [readBytesLoop, hcond, ↓reduceIte]
    rw [ih (o + 8) _ (by omega) (by omega) (by omega)]
    have e1 : (r.srcOff - r.bufSize + (o + 8 : Nat)).toNat = (r.srcOff - r.bufSize + o).toNat + 8 := by omega
    have hlen : (bytesBits r.src).length = 8 * r.src.length := bytesBits_length _
    have e8 : 8 * (n + 1) = 8 + 8 * n := by omega
    rw [e8, bitsNat_bitsAt_add _ _ 8 (8 * n) (by omega), e1, hb]
    have hbyte : bitsNat (byteBits (r.buf.getD (o / 8) 0)) = (r.buf.getD (o / 8) 0).toNat := by
      unfold byteBits; exact natBits_bitsNat_of_lt (UInt8.toNat_lt _)
    rw [hbyte, Nat.pow_add]
    refine Prod.ext (by simp; omega) ?_
    simp only []
    rw [Nat.add_mul, ← Nat.add_assoc]
    congr 2
    rw [Nat.mul_comm 256 out, Nat.mul_assoc]

private theorem wf_setOff (r : RBuf) (h : r.WF) (o : Nat) (h1 : r.bufOff ≤ o) (h2 : o ≤ r.bufSize) :
    ({ r with bufOff := o } : RBuf).WF := by
  have ht := h.tell_nonneg
  unfold RBuf.tell at ht
  exact { h with off_le := h2, tell_nonneg := by simp only [RBuf.tell]; omega }

private theorem readWholeBytes_spec (fuel rem out : Nat) (r : RBuf) (h : r.WF) (hv : r.posValid = true)
    (hf : rem ≤ 8 * fuel + 7) (ha : r.tell % 8 = 0) (hr : r.tell + rem ≤ r.srcSize) :
    ∃ r', RBuf.readWholeBytes fuel rem out r =
        (.ok (rem % 8, out * 2 ^ (8 * (rem / 8)) + bitsNat (bitsAt (bytesBits r.src) r.tell.toNat (8 * (rem / 8)))), r') ∧
      r'.WF ∧ r'.src = r.src ∧ r'.srcSize = r.srcSize ∧ r'.posValid = true ∧
      r'.tell = r.tell + (8 * (rem / 8) : Nat) := by
  induction fuel generalizing rem out r with
  | zero =>
    have : rem < 8 := by omega
    unfold RBuf.readWholeBytes
    rw [if_pos this]
    have e : rem / 8 = 0 := by omega
    have e2 : rem % 8 = rem := by omega
    exact ⟨r, by simp [e, e2, bitsAt], h, rfl, rfl, hv, by simp [e]⟩
  | succ fuel ih =>
    unfold RBuf.readWholeBytes
    by_cases hlt : rem < 8
    · rw [if_pos hlt]
      have e : rem / 8 = 0 := by omega
      have e2 : rem % 8 = rem := by omega
      exact ⟨r, by simp [e, e2, bitsAt], h, rfl, rfl, hv, by simp [e]⟩
    · rw [if_neg hlt]
      have hre : ({ r with posValid := true } : RBuf) = r := by rw [← hv]
      simp only [hre]
      obtain ⟨r1, e1, w1, t1, s1, z1, v1, p1⟩ := seek_ok r h hv r.tell h.tell_nonneg (by omega)
      simp only [e1]
      have hp := p1 (by omega)
      have hm := w1.size_mod
      have hsm := w1.srcOff_mod
      have ht1 : r1.srcOff - r1.bufSize + r1.bufOff = r.tell := t1
      have htn := h.tell_nonneg
      have hbo : r1.bufOff % 8 = 0 := by omega
      have hnum : min (r1.bufSize - r1.bufOff) (rem / 8 * 8) % 8 = 0 := by omega
      have hnum1 : 8 ≤ min (r1.bufSize - r1.bufOff) (rem / 8 * 8) := by omega
      rw [if_neg (by simp [hbo, hnum])]
      generalize hN : min (r1.bufSize - r1.bufOff) (rem / 8 * 8) = num at *
      have e8 : 8 * (num / 8) = num := by omega
      rw [readBytesLoop_spec r1 w1 (num / 8) r1.bufOff out (by omega) hbo (by omega), e8]
      simp only []
      have w2 := wf_setOff r1 w1 (r1.bufOff + num) (by omega) (by omega)
      have t2 : ({ r1 with bufOff := r1.bufOff + num } : RBuf).tell = r.tell + num := by
        show r1.srcOff - r1.bufSize + ((r1.bufOff + num : Nat) : Int) = r.tell + num
        omega
      obtain ⟨r3, e3, w3, s3, z3, v3, t3⟩ := ih (rem - num)
        (out * 2 ^ num + bitsNat (bitsAt (bytesBits r1.src) (r1.srcOff - r1.bufSize + r1.bufOff).toNat num))
        { r1 with bufOff := r1.bufOff + num } w2 v1 (by omega) (by rw [t2]; omega) (by rw [t2]; simp only []; omega)
      refine ⟨r3, ?_, w3, by rw [s3]; exact s1, by rw [z3]; exact z1, v3, by rw [t3, t2]; omega⟩
      rw [e3, t2, ht1]
      simp only [s1]
      have hss := h.srcSize_eq
      have hlen : (bytesBits r.src).length = 8 * r.src.length := bytesBits_length _
      have esplit : 8 * (rem / 8) = num + 8 * ((rem - num) / 8) := by omega
      rw [esplit, bitsNat_bitsAt_add _ _ _ _ (by omega), Nat.pow_add]
      have e4 : (r.tell + num).toNat = r.tell.toNat + num := by omega
      have e5 : (rem - num) % 8 = rem % 8 := by omega
      rw [e4, e5]
      refine Prod.ext ?_ rfl
      simp only []
      congr 2
      rw [Nat.add_mul, ← Nat.mul_assoc, ← Nat.add_assoc]

/-- `ReadUnsignedLiteralInternal` behaves as the abstract read: it fails exactly when fewer than `n`
bits remain (leaving the position unchanged) and otherwise returns the next `n` bits, for every
capacity, window position, alignment and width. -/
theorem readUnsigned_refines (n : Int) (max : Nat) (r : RBuf) (h : r.WF) :
    (r.readUnsigned n max).1 = (r.abs.read n max).1 ∧ (r.readUnsigned n max).2.WF ∧
      (r.readUnsigned n max).2.abs = (r.abs.read n max).2 ∧ (r.readUnsigned n max).2.src = r.src := by
  unfold RBuf.readUnsigned RS.read
  by_cases hmax : n > (max : Int)
  · simp only [hmax, ↓reduceIte]; exact ⟨trivial, h, trivial, trivial⟩
  by_cases hneg : n < 0
  · simp only [hmax, hneg, ↓reduceIte]; exact ⟨trivial, h, trivial, trivial⟩
  simp only [hmax, hneg, ↓reduceIte]
  have hv' : ({ r with posValid := true } : RBuf).WF := { h with }
  have htn := h.tell_nonneg
  have hss := h.srcSize_eq
  have htl := r.tell_le h
  have hlen : (bytesBits r.src).length = 8 * r.src.length := bytesBits_length _
  have hte : ({ r with posValid := true } : RBuf).tell = r.tell := rfl
  simp only [hte]
  by_cases hex : r.tell + n > r.srcSize
  · have : r.abs.pos + n.toNat > r.abs.src.length := by
      simp only [RBuf.abs]; omega
    rw [if_pos hex, if_pos this]
    exact ⟨rfl, hv', rfl, rfl⟩
  have hna : ¬ (r.abs.pos + n.toNat > r.abs.src.length) := by
    simp only [RBuf.abs]; omega
  rw [if_neg hex, if_neg hna]
  by_cases hz : n = 0
  · subst hz
    rw [if_pos rfl]
    refine ⟨by simp, hv', ?_, rfl⟩
    simp [RBuf.abs, hte]
  rw [if_neg hz]
  obtain ⟨r1, e1, w1, t1, s1, z1, v1, p1⟩ := seek_ok _ hv' rfl r.tell htn (by simp only []; omega)
  simp only [] at s1 z1 p1
  rw [e1]
  simp only []
  have hp := p1 (by omega)
  have hm := w1.size_mod
  have hsm := w1.srcOff_mod
  have ht1 : r1.srcOff - r1.bufSize + r1.bufOff = r.tell := t1
  have hrest : r.abs.rest.take n.toNat = bitsAt (bytesBits r.src) r.tell.toNat n.toNat := rfl
  rw [hrest, t1]
  by_cases hsame : (r.tell + (n.toNat : Int)) / 8 = r.tell / 8
  · rw [if_pos hsame]
    have hb := readBitsLoop_spec r1 w1 n.toNat r1.bufOff 0 (by omega) (by omega)
    rw [ht1, s1] at hb
    rw [hb]
    simp only [Nat.zero_mul, Nat.zero_add, ↓reduceIte]
    refine ⟨trivial, wf_setOff r1 w1 (r1.bufOff + n.toNat) (by omega) (by omega), ?_, s1⟩
    simp only [RBuf.abs, RBuf.tell, s1, v1, RS.mk.injEq, true_and, and_true]
    unfold RBuf.tell at *
    omega
  · rw [if_neg hsame]
    generalize hk : (if r1.bufOff % 8 ≠ 0 then 8 - r1.bufOff % 8 else 0) = k
    have hkle : k ≤ n.toNat ∧ r1.bufOff + k ≤ r1.bufSize ∧ (r1.bufOff + k) % 8 = 0 := by
      split at hk <;> omega
    have hb := readBitsLoop_spec r1 w1 k r1.bufOff 0 hkle.2.1 (by omega)
    rw [ht1, s1] at hb
    rw [hb]
    simp only [Nat.zero_mul, Nat.zero_add]
    have w2 := wf_setOff r1 w1 (r1.bufOff + k) (by omega) hkle.2.1
    have t2 : ({ r1 with bufOff := r1.bufOff + k } : RBuf).tell = r.tell + k := by
      show r1.srcOff - r1.bufSize + ((r1.bufOff + k : Nat) : Int) = r.tell + k
      omega
    obtain ⟨r3, e3, w3, s3, z3, v3, t3⟩ := readWholeBytes_spec n.toNat (n.toNat - k)
      (bitsNat (bitsAt (bytesBits r.src) r.tell.toNat k)) { r1 with bufOff := r1.bufOff + k } w2 v1
      (by omega) (by rw [t2]; omega) (by rw [t2]; simp only [z1]; omega)
    rw [e3]
    simp only []
    simp only [] at s3 z3
    rw [t2] at t3
    have htn3 := w3.tell_nonneg
    obtain ⟨r4, e4, w4, t4, s4, z4, v4, p4⟩ := seek_ok r3 w3 v3 r3.tell htn3 (by omega)
    rw [e4]
    simp only []
    have ht4 : r4.srcOff - r4.bufSize + r4.bufOff = r3.tell := t4
    have hfin : ((r.tell + (n.toNat : Int)) % 8).toNat = (n.toNat - k) % 8 := by omega
    rw [hfin]
    have hm4 := w4.size_mod
    have hsm4 := w4.srcOff_mod
    have hfit : r4.bufOff + (n.toNat - k) % 8 ≤ r4.bufSize := by
      by_cases h0 : (n.toNat - k) % 8 = 0
      · have := w4.off_le; omega
      · have := p4 (by omega); omega
    rw [readBitsLoop_spec r4 w4 _ r4.bufOff _ hfit (by omega), ht4]
    simp only [Nat.sub_self, Nat.le_refl, and_self, ↓reduceIte]
    have hsrc4 : r4.src = r.src := by rw [s4, s3, s1]
    refine ⟨?_, wf_setOff r4 w4 (r4.bufOff + (n.toNat - k) % 8) (by omega) hfit, ?_, hsrc4⟩
    · congr 1
      rw [hsrc4, t2, t3]
      simp only [s1]
      have en : n.toNat = (k + 8 * ((n.toNat - k) / 8)) + (n.toNat - k) % 8 := by omega
      conv => rhs; rw [en]
      rw [bitsNat_bitsAt_add _ _ _ _ (by omega), bitsNat_bitsAt_add _ _ _ _ (by omega)]
      have e5 : (r.tell + (k : Int)).toNat = r.tell.toNat + k := by omega
      have e6 : (r.tell + (k : Int) + ((8 * ((n.toNat - k) / 8) : Nat) : Int)).toNat =
        r.tell.toNat + (k + 8 * ((n.toNat - k) / 8)) := by omega
      rw [e5, e6]
    · simp only [RBuf.abs, RBuf.tell, hsrc4, v4, RS.mk.injEq, true_and, and_true]
      unfold RBuf.tell at *
      omega

theorem seek_refines (p : Int) (r : RBuf) (h : r.WF) :
    (r.seek p).1 = (r.abs.seek p).1 ∧ (r.seek p).2.WF ∧ (r.seek p).2.abs = (r.abs.seek p).2 ∧
      (r.seek p).2.src = r.src := by
  have hss := h.srcSize_eq
  have hlen : ((bytesBits r.src).length : Int) = r.srcSize := by rw [bytesBits_length]; omega
  by_cases hv : r.posValid = true
  · by_cases h0 : p < 0
    · unfold RBuf.seek RS.seek
      simp [hv, h0, RBuf.abs, h]
    · by_cases h1 : p > r.srcSize
      · unfold RBuf.seek RS.seek
        simp only [hv, h0, h1, RBuf.abs, hlen, Bool.not_true, Bool.false_eq_true, ↓reduceIte]
        exact ⟨trivial, h, trivial, trivial⟩
      · obtain ⟨r', e, w, t, s, z, v, _⟩ := seek_ok r h hv p (by omega) (by omega)
        rw [e]
        unfold RS.seek
        simp only [hv, h0, h1, RBuf.abs, hlen, Bool.not_true, Bool.false_eq_true, ↓reduceIte]
        exact ⟨trivial, w, by rw [s, t, v], s⟩
  · unfold RBuf.seek RS.seek
    simp [hv, RBuf.abs, h]

theorem avail_refines (r : RBuf) (h : r.WF) :
    r.numBytesAvailable = .ok (((r.abs.src.length - r.abs.pos) / 8 : Nat) : Int) := by
  have h1 := h.srcOff_nonneg
  have h2 := h.srcOff_le
  have h3 := h.off_le
  have h4 := h.size_mod
  have h5 := h.srcOff_mod
  have hss := h.srcSize_eq
  have htn := h.tell_nonneg
  unfold RBuf.numBytesAvailable
  rw [if_neg (by omega), if_neg (by omega)]
  congr 1
  simp only [RBuf.abs, bytesBits_length]
  unfold RBuf.tell at *
  omega

/-- **Refinement of the read buffer.**  Every reader program run on a well-formed concrete buffer —
whatever its capacity, window and alignment — returns the same result as on the abstract cursor over
the source bits, never aborts inside the buffer, never diverges, and keeps the invariant. -/
theorem Rd.run_refines {α : Type} (p : Rd α) (r : RBuf) (h : r.WF) :
    (p.run r).1 = (p.runA r.abs).1 ∧ (p.run r).2.WF ∧ (p.run r).2.abs = (p.runA r.abs).2 ∧
      (p.run r).2.src = r.src := by
  induction p generalizing r with
  | ret a => exact ⟨rfl, h, rfl, rfl⟩
  | fail e => exact ⟨rfl, h, rfl, rfl⟩
  | lit m n k ih =>
    obtain ⟨h1, h2, h3, h4⟩ := readUnsigned_refines n m r h
    simp only [Rd.run, Rd.runA]
    match hr : r.readUnsigned n m, ha : r.abs.read n m with
    | (.ok v, r'), (.ok v', s') =>
      rw [hr, ha] at h1; rw [hr] at h2 h4; rw [hr, ha] at h3
      simp only [Except.ok.injEq] at h1 h3 h2 h4 ⊢
      subst h1
      have := ih v r' h2
      rw [h3, h4] at this
      exact this
    | (.error v, r'), (.error v', s') =>
      rw [hr, ha] at h1; rw [hr] at h2 h4; rw [hr, ha] at h3
      simp only [Except.error.injEq] at h1 h3 h2 h4 ⊢
      exact ⟨h1, h2, h3, h4⟩
    | (.ok v, r'), (.error v', s') => rw [hr, ha] at h1; simp at h1
    | (.error v, r'), (.ok v', s') => rw [hr, ha] at h1; simp at h1
  | tell k ih =>
    have hv' : ({ r with posValid := true } : RBuf).WF := { h with }
    have := ih r.tell _ hv'
    simp only [Rd.run, Rd.runA]
    have e : (r.abs.pos : Int) = r.tell := by
      have := h.tell_nonneg
      simp only [RBuf.abs]; omega
    rw [e]
    exact this
  | seek p k ih =>
    obtain ⟨h1, h2, h3, h4⟩ := seek_refines p r h
    simp only [Rd.run, Rd.runA]
    match hr : r.seek p, ha : r.abs.seek p with
    | (.ok (), r'), (.ok (), s') =>
      rw [hr] at h2 h4; rw [hr, ha] at h3
      simp only [] at h3 h2 h4 ⊢
      have := ih r' h2
      rw [h3, h4] at this
      exact this
    | (.error v, r'), (.error v', s') =>
      rw [hr, ha] at h1; rw [hr] at h2 h4; rw [hr, ha] at h3
      simp only [Except.error.injEq] at h1 h3 h2 h4 ⊢
      exact ⟨h1, h2, h3, h4⟩
    | (.ok v, r'), (.error v', s') => rw [hr, ha] at h1; simp at h1
    | (.error v, r'), (.ok v', s') => rw [hr, ha] at h1; simp at h1
  | avail k ih =>
    simp only [Rd.run, Rd.runA, avail_refines r h]
    exact ih _ r h
  | attempt m k ihm ihk =>
    obtain ⟨h1, h2, h3, h4⟩ := ihm r h
    simp only [Rd.run, Rd.runA]
    match hr : m.run r, ha : m.runA r.abs with
    | (.ok v, r'), (.ok v', s') =>
      rw [hr, ha] at h1; rw [hr] at h2 h4; rw [hr, ha] at h3
      simp only [Except.ok.injEq] at h1 h3 h2 h4 ⊢
      subst h1
      have := ihk (.ok v) r' h2
      rw [h3, h4] at this
      exact this
    | (.error e, r'), (.error e', s') =>
      rw [hr, ha] at h1; rw [hr] at h2 h4; rw [hr, ha] at h3
      simp only [Except.error.injEq] at h1 h3 h2 h4 ⊢
      subst h1
      by_cases hf : e.fatal
      · simp only [hf, ↓reduceIte]; exact ⟨trivial, h2, h3, h4⟩
      · simp only [hf, ↓reduceIte]
        have := ihk (.error e) r' h2
        rw [h3, h4] at this
        exact this
    | (.ok v, r'), (.error v', s') => rw [hr, ha] at h1; simp at h1
    | (.error v, r'), (.ok v', s') => rw [hr, ha] at h1; simp at h1

/-! ### Push and flush -/

theorem push_refines (bytes : List UInt8) (r : RBuf) (h : r.WF) (hc : 0 < r.buf.length)
    (hb : r.src.length + bytes.length ≤ 2 * kEntireObuSizeMaxTwoMegabytes) :
    ∃ r', r.pushBytes bytes = (.ok (), r') ∧ r'.WF ∧ r'.src = r.src ++ bytes ∧
      r'.buf.length = r.buf.length ∧
      r'.abs = { r.abs with src := r.abs.src ++ bytesBits bytes } := by
  unfold RBuf.pushBytes
  rw [if_neg (by omega)]
  have h1 := h.srcOff_le
  have hss := h.srcSize_eq
  refine ⟨_, rfl, ?_, rfl, rfl, ?_⟩
  · refine ⟨h.off_le, h.size_le, h.size_mod, h.srcOff_nonneg, ?_, h.srcOff_mod, ?_, h.tell_nonneg,
      .inl hc, ?_⟩
    · simp only []; omega
    · simp only [List.length_append]; omega
    · intro i hi hn
      simp only [] at hi hn ⊢
      rw [h.content i hi hn]
      have hm := h.size_mod
      have hsm := h.srcOff_mod
      rw [List.getElem?_append_left]
      omega
  · simp [RBuf.abs, RBuf.tell]

theorem push_full (bytes : List UInt8) (r : RBuf)
    (hb : 2 * kEntireObuSizeMaxTwoMegabytes < r.src.length + bytes.length) :
    r.pushBytes bytes = (.error .invalidArgument, r) := by
  unfold RBuf.pushBytes
  rw [if_pos (by omega)]

theorem flush_refines (r : RBuf) (h : r.WF) :
    ∃ r', r.flush = (.ok (), r') ∧ r'.WF ∧ r'.src = r.src.drop (r.abs.pos / 8) ∧
      r'.buf.length = r.buf.length ∧
      r'.abs = ⟨r.abs.src.drop (8 * (r.abs.pos / 8)), r.abs.pos % 8, false⟩ ∧
      r'.abs.rest = r.abs.rest := by
  have htl := r.tell_le h
  have htn := h.tell_nonneg
  have hss := h.srcSize_eq
  have hol := h.off_le
  have hm := h.size_mod
  have hsm := h.srcOff_mod
  unfold RBuf.flush
  simp only []
  rw [if_neg (by omega)]
  have et : (r.tell / 8).toNat = r.tell.toNat / 8 := by omega
  have habs : (RBuf.mk r.buf r.bufOff r.bufSize (r.srcSize - r.tell / 8 * 8)
      (r.srcOff - r.tell / 8 * 8) false (r.src.drop (r.tell / 8).toNat)).abs =
      ⟨r.abs.src.drop (8 * (r.abs.pos / 8)), r.abs.pos % 8, false⟩ := by
    simp only [RBuf.abs, bytesBits_drop, RS.mk.injEq, and_true, et, true_and]
    unfold RBuf.tell at *
    simp only []
    omega
  refine ⟨_, rfl, ?_, ?_, rfl, habs, ?_⟩
  · refine ⟨h.off_le, h.size_le, h.size_mod, ?_, ?_, ?_, ?_, ?_, ?_, ?_⟩
    · simp only []; unfold RBuf.tell at *; omega
    · simp only []; have := h.srcOff_le; omega
    · simp only []; omega
    · simp only [List.length_drop]; omega
    · unfold RBuf.tell at *; simp only []; omega
    · rcases h.cap_pos with hc | hc
      · exact .inl hc
      · right; simp [hc]
    · intro i hi hn
      simp only [] at hi hn ⊢
      have e : (r.srcOff - r.tell / 8 * 8) / 8 = r.srcOff / 8 - r.tell / 8 := by omega
      rw [e] at hn ⊢
      rw [h.content i hi (by omega), List.getElem?_drop]
      congr 1
      omega
  · simp only [RBuf.abs, et]
  · rw [habs]
    simp only [RS.rest, List.drop_drop]
    congr 1
    omega

/-! ### The capacity never changes -/

theorem RBuf.seek_cap (p : Int) (r : RBuf) : (r.seek p).2.buf.length = r.buf.length := by
  unfold RBuf.seek
  split
  · rfl
  split
  · rfl
  split
  · rfl
  split
  · rfl
  · simp only []
    split
    · rfl
    next r' he =>
      unfold RBuf.load at he
      split at he
      · cases he
      split at he
      · cases he
      next h1 h2 =>
        cases he
        simp only [List.length_append, List.length_take, List.length_drop]
        omega

theorem RBuf.readWholeBytes_cap (fuel rem out : Nat) (r : RBuf) :
    (RBuf.readWholeBytes fuel rem out r).2.buf.length = r.buf.length := by
  induction fuel generalizing rem out r with
  | zero => unfold RBuf.readWholeBytes; split <;> rfl
  | succ fuel ih =>
    unfold RBuf.readWholeBytes
    split
    · rfl
    · simp only []
      have := RBuf.seek_cap { r with posValid := true }.tell { r with posValid := true }
      split
      next e r' he => rw [he] at this; exact this
      next r' he =>
        rw [he] at this
        split
        · exact this
        · rw [ih]; exact this

theorem readUnsigned_buf_length (n : Int) (m : Nat) (r : RBuf) :
    (r.readUnsigned n m).2.buf.length = r.buf.length := by
  unfold RBuf.readUnsigned
  split
  · rfl
  split
  · rfl
  simp only []
  split
  · rfl
  split
  · rfl
  have h1 := RBuf.seek_cap { r with posValid := true }.tell { r with posValid := true }
  split
  next e r1 he => rw [he] at h1; exact h1
  next r1 he =>
    rw [he] at h1
    split
    · split <;> exact h1
    · have h2 := RBuf.readWholeBytes_cap n.toNat (n.toNat - if r1.bufOff % 8 ≠ 0 then 8 - r1.bufOff % 8 else 0)
        (readBitsLoop r1.buf r1.bufSize (if r1.bufOff % 8 ≠ 0 then 8 - r1.bufOff % 8 else 0) r1.bufOff 0).2.2
        { r1 with bufOff := (readBitsLoop r1.buf r1.bufSize (if r1.bufOff % 8 ≠ 0 then 8 - r1.bufOff % 8 else 0) r1.bufOff 0).1 }
      split
      next e r2 he2 => rw [he2] at h2; exact h2.trans h1
      next rem out r2 he2 =>
        rw [he2] at h2
        have h3 := RBuf.seek_cap r2.tell r2
        split
        next e r3 he3 => rw [he3] at h3; exact h3.trans (h2.trans h1)
        next r3 he3 =>
          rw [he3] at h3
          split <;> exact h3.trans (h2.trans h1)

theorem Rd.run_cap {α : Type} (p : Rd α) (r : RBuf) : (p.run r).2.buf.length = r.buf.length := by
  induction p generalizing r with
  | ret a => rfl
  | fail e => rfl
  | lit m n k ih =>
    have := readUnsigned_buf_length n m r
    simp only [Rd.run]
    split
    next v r' he => rw [he] at this; rw [ih]; exact this
    next e r' he => rw [he] at this; exact this
  | tell k ih => exact ih _ _
  | seek p k ih =>
    have := RBuf.seek_cap p r
    simp only [Rd.run]
    split
    next r' he => rw [he] at this; rw [ih]; exact this
    next e r' he => rw [he] at this; exact this
  | avail k ih =>
    simp only [Rd.run]
    split
    · exact ih _ _
    · rfl
  | attempt m k ihm ihk =>
    have := ihm r
    simp only [Rd.run]
    split
    next v r' he => rw [he] at this; rw [ihk]; exact this
    next e r' he =>
      rw [he] at this
      split
      · exact this
      · rw [ihk]; exact this

end Iamf
