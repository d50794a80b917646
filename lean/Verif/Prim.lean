import Verif.WriteBuf
import Verif.ReadBuf
/-
  The typed primitives of `WriteBitBuffer` and `ReadBitBuffer` as writer / reader programs, and the
  small program logic (`Wr.eval`, `Reads`, `RT`) used to reason about everything built on top.
-/
namespace Iamf

/-! ### Program logic: writers -/

namespace Wr

@[simp] theorem bind_eq {α β : Type} (p : Wr α) (f : α → Wr β) : (p >>= f) = p.bind f := rfl
@[simp] theorem pure_eq {α : Type} (a : α) : (pure a : Wr α) = ret a := rfl

theorem runA_out {α : Type} (g : LebGen) (p : Wr α) (out : Bits) :
    p.runA g out = ((p.runA g []).1, out ++ (p.runA g []).2) := by
  induction p generalizing out with
  | ret a => simp [runA]
  | fail e => simp [runA]
  | lit m d n k ih =>
    simp only [runA]
    cases litA m d n with
    | error e => simp
    | ok bs =>
      simp only [List.nil_append]
      rw [ih (out ++ bs), ih bs]
      simp
  | span bs k ih =>
    simp only [runA, List.nil_append]
    rw [ih (out ++ bytesBits bs), ih (bytesBits bs)]
    simp
  | getLeb k ih => exact ih g out

/-- Result of a writer program and the bits it emits (also when it fails). -/
def eval {α : Type} (g : LebGen) (p : Wr α) : Except Err α × Bits := p.runA g []

theorem eval_bind {α β : Type} (g : LebGen) (p : Wr α) (f : α → Wr β) :
    (p.bind f).eval g =
      match p.eval g with
      | (.ok a, b) => (((f a).eval g).1, b ++ ((f a).eval g).2)
      | (.error e, b) => (.error e, b) := by
  unfold eval
  suffices h : ∀ out, (p.bind f).runA g out =
      match p.runA g out with
      | (.ok a, b) => (((f a).runA g []).1, b ++ ((f a).runA g []).2)
      | (.error e, b) => (.error e, b) from h []
  intro out
  induction p generalizing out with
  | ret a => simp only [Wr.bind, runA]; exact runA_out g (f a) out
  | fail e => simp [Wr.bind, runA]
  | lit m d n k ih =>
    simp only [Wr.bind, runA]
    cases litA m d n with
    | error e => rfl
    | ok bs => exact ih (out ++ bs)
  | span bs k ih => exact ih (out ++ bytesBits bs)
  | getLeb k ih => exact ih g out

@[simp] theorem eval_ret {α : Type} (g : LebGen) (a : α) : (ret a).eval g = (.ok a, []) := rfl
@[simp] theorem eval_fail {α : Type} (g : LebGen) (e : Err) : (fail e : Wr α).eval g = (.error e, []) := rfl

theorem eval_bind_ok {α β : Type} {g : LebGen} {p : Wr α} {f : α → Wr β} {b : β} {bs : Bits} :
    (p.bind f).eval g = (.ok b, bs) ↔
      ∃ a b1 b2, p.eval g = (.ok a, b1) ∧ (f a).eval g = (.ok b, b2) ∧ bs = b1 ++ b2 := by
  rw [eval_bind]
  constructor
  · intro h
    match hp : p.eval g with
    | (.ok a, b1) =>
      rw [hp] at h
      simp only [Prod.mk.injEq] at h
      exact ⟨a, b1, ((f a).eval g).2, rfl, Prod.ext h.1 rfl, h.2.symm⟩
    | (.error e, b1) => rw [hp] at h; simp at h
  · rintro ⟨a, b1, b2, h1, h2, h3⟩
    rw [h1]; simp [h2, h3]

/-- Running on a fresh concrete buffer: the bytes of the buffer are the emitted bits, zero padded. -/
theorem run_empty {α : Type} (g : LebGen) (p : Wr α) :
    (p.run (WBuf.empty g)).1 = (p.eval g).1 ∧ (p.run (WBuf.empty g)).2.WF ∧
      (p.run (WBuf.empty g)).2.leb = g ∧ (p.run (WBuf.empty g)).2.bits = (p.eval g).2 := by
  have := p.run_refines (WBuf.empty g) (WBuf.wf_empty g)
  exact this

/-- Running on any well-formed buffer appends the emitted bits. -/
theorem run_append {α : Type} (p : Wr α) (w : WBuf) (h : w.WF) :
    (p.run w).1 = (p.eval w.leb).1 ∧ (p.run w).2.WF ∧ (p.run w).2.leb = w.leb ∧
      (p.run w).2.bits = w.bits ++ (p.eval w.leb).2 := by
  obtain ⟨h1, h2, h3, h4⟩ := p.run_refines w h
  rw [runA_out] at h1 h4
  exact ⟨h1, h2, h3, h4⟩

end Wr

/-! ### Program logic: readers -/

namespace Rd

@[simp] theorem bind_eq {α β : Type} (p : Rd α) (f : α → Rd β) : (p >>= f) = p.bind f := rfl
@[simp] theorem pure_eq {α : Type} (a : α) : (pure a : Rd α) = ret a := rfl

theorem runA_bind {α β : Type} (p : Rd α) (f : α → Rd β) (s : RS) :
    (p.bind f).runA s =
      match p.runA s with
      | (.ok a, s') => (f a).runA s'
      | (.error e, s') => (.error e, s') := by
  induction p generalizing s with
  | ret a => rfl
  | fail e => rfl
  | lit m n k ih =>
    simp only [Rd.bind, runA]
    match s.read n m with
    | (.ok v, s') => exact ih v f s'
    | (.error e, s') => rfl
  | tell k ih => exact ih _ f _
  | seek p k ih =>
    simp only [Rd.bind, runA]
    match s.seek p with
    | (.ok (), s') => exact ih f s'
    | (.error e, s') => rfl
  | avail k ih => exact ih _ f _
  | attempt m k _ ih =>
    simp only [Rd.bind, runA]
    match m.runA s with
    | (.ok a, s') => exact ih _ f s'
    | (.error e, s') =>
      by_cases hf : e.fatal
      · simp [hf]
      · simp only [hf]; exact ih _ f s'

@[simp] theorem runA_ret {α : Type} (a : α) (s : RS) : (ret a).runA s = (.ok a, s) := rfl
@[simp] theorem runA_fail {α : Type} (e : Err) (s : RS) : (fail e : Rd α).runA s = (.error e, s) := rfl

end Rd

/-- `Reads p bs a`: whenever the unread input starts with `bs`, the program `p` succeeds with `a`,
consumes exactly `bs` and leaves the source alone. -/
def Reads {α : Type} (p : Rd α) (bs : Bits) (a : α) : Prop :=
  ∀ s : RS, s.pos ≤ s.src.length → bs <+: s.rest →
    ∃ v, p.runA s = (.ok a, ⟨s.src, s.pos + bs.length, v⟩) ∧ (s.valid = true → v = true)

theorem Reads.ret {α : Type} (a : α) : Reads (Rd.ret a) [] a := by
  intro s _ _
  exact ⟨s.valid, rfl, id⟩

theorem rest_after (s : RS) (a b : Bits) (h : a ++ b <+: s.rest) (hc : s.pos ≤ s.src.length) (v : Bool) :
    b <+: (⟨s.src, s.pos + a.length, v⟩ : RS).rest ∧ s.pos + a.length ≤ s.src.length := by
  obtain ⟨t, ht⟩ := h
  have hl := congrArg List.length ht
  simp only [List.length_append, RS.rest, List.length_drop] at hl
  refine ⟨⟨t, ?_⟩, by omega⟩
  simp only [RS.rest] at ht ⊢
  rw [← List.drop_drop, ← ht, List.append_assoc, List.drop_left' rfl]

theorem Reads.bind {α β : Type} {p : Rd α} {f : α → Rd β} {b1 b2 : Bits} {a : α} {b : β}
    (h1 : Reads p b1 a) (h2 : Reads (f a) b2 b) : Reads (p.bind f) (b1 ++ b2) b := by
  intro s hp hs
  obtain ⟨v1, e1, m1⟩ := h1 s hp ((List.prefix_append b1 b2).trans hs)
  obtain ⟨hr, hl⟩ := rest_after s b1 b2 hs hp v1
  obtain ⟨v2, e2, m2⟩ := h2 ⟨s.src, s.pos + b1.length, v1⟩ hl hr
  refine ⟨v2, ?_, fun hv => m2 (m1 hv)⟩
  rw [Rd.runA_bind, e1]
  simp only [e2, List.length_append, Nat.add_assoc]

theorem Reads.lit {α : Type} {max n : Nat} {k : Nat → Rd α} {v : Nat} {b : Bits} {a : α}
    (hn : n ≤ max) (hv : v < 2 ^ n) (h : Reads (k v) b a) :
    Reads (Rd.lit max n k) (natBits n v ++ b) a := by
  intro s hp hs
  obtain ⟨t, ht⟩ := hs
  have hl := congrArg List.length ht
  simp only [List.length_append, natBits_length, RS.rest, List.length_drop] at hl
  have hread : s.read n max = (.ok v, ⟨s.src, s.pos + n, true⟩) := by
    unfold RS.read
    rw [if_neg (by omega), if_neg (by omega), if_neg (by simp; omega)]
    simp only [Int.toNat_natCast]
    rw [← ht, List.append_assoc, List.take_left' (by simp), natBits_bitsNat_of_lt hv]
  obtain ⟨hr, hl'⟩ := rest_after s (natBits n v) b ⟨t, ht⟩ hp true
  rw [natBits_length] at hr hl'
  obtain ⟨v2, e2, m2⟩ := h ⟨s.src, s.pos + n, true⟩ hl' hr
  refine ⟨v2, ?_, fun _ => m2 rfl⟩
  simp only [Rd.runA, hread, e2, List.length_append, natBits_length, Nat.add_assoc]

/-- `RT g w r a`: if the writer program `w` succeeds, then the reader program `r` applied to the bits
it emitted (followed by anything) returns `a` and consumes exactly those bits. -/
def RT {α : Type} (g : LebGen) (w : Wr Unit) (r : Rd α) (a : α) : Prop :=
  ∀ bs, w.eval g = (.ok (), bs) → Reads r bs a

theorem RT.ret {α : Type} (g : LebGen) (a : α) : RT g (Wr.ret ()) (Rd.ret a) a := by
  intro bs h
  simp at h
  subst h
  exact Reads.ret a

theorem RT.seq {α β : Type} {g : LebGen} {w1 w2 : Wr Unit} {r1 : Rd α} {f : α → Rd β} {a : α} {b : β}
    (h1 : RT g w1 r1 a) (h2 : RT g w2 (f a) b) : RT g (w1.bind fun _ => w2) (r1.bind f) b := by
  intro bs h
  rw [Wr.eval_bind_ok] at h
  obtain ⟨u, b1, b2, e1, e2, rfl⟩ := h
  exact (h1 b1 e1).bind (h2 b2 e2)

/-- A validation step on the writer side: it only matters if it passes. -/
theorem RT.guardW {α : Type} {g : LebGen} {w : Wr Unit} {r : Rd α} {a : α} {c : Prop} [Decidable c] {e : Err}
    (h : ¬ c → RT g w r a) : RT g ((if c then Wr.fail e else Wr.ret ()).bind fun _ => w) r a := by
  intro bs hb
  by_cases hc : c
  · simp [hc, Wr.bind] at hb
  · simp only [hc, ↓reduceIte, Wr.bind] at hb
    exact h hc bs hb

/-- A validation step on the reader side that passes. -/
theorem RT.guardR {α β : Type} {g : LebGen} {w : Wr Unit} {f : Unit → Rd β} {b : β} {c : Prop} [Decidable c] {e : Err}
    (hc : ¬ c) (h : RT g w (f ()) b) : RT g w ((if c then Rd.fail e else Rd.ret ()).bind f) b := by
  rw [if_neg hc]; exact h

/-! ### Typed writer primitives -/

/-- Validation helpers of `iamf/common/utils/validation_utils.h` all have this shape. -/
def Wr.check (c : Bool) (e : Err := .invalidArgument) : Wr Unit := if c then .ret () else .fail e
def Rd.check (c : Bool) (e : Err := .invalidArgument) : Rd Unit := if c then .ret () else .fail e

theorem RT.checkW {α : Type} {g : LebGen} {w : Wr Unit} {r : Rd α} {a : α} {c : Bool} {e : Err}
    (h : c = true → RT g w r a) : RT g ((Wr.check c e).bind fun _ => w) r a := by
  intro bs hb
  cases c
  · simp [Wr.check, Wr.bind] at hb
  · exact h rfl bs hb

theorem RT.checkR {β : Type} {g : LebGen} {w : Wr Unit} {f : Unit → Rd β} {b : β} {c : Bool} {e : Err}
    (hc : c = true) (h : RT g w (f ()) b) : RT g w ((Rd.check c e).bind f) b := by
  subst hc; exact h

/-- `WriteUnsignedLiteral(uint32_t, n)` (write_bit_buffer.cc:153-156). -/
def wU32 (d : UInt32) (n : Int) : Wr Unit := .lit 32 d.toUInt64 n (.ret ())
/-- `WriteUnsignedLiteral` called with a `uint8_t` argument (implicitly widened). -/
def wU8 (d : UInt8) (n : Int) : Wr Unit := .lit 32 d.toUInt64 n (.ret ())
/-- `WriteUnsignedLiteral` called with a `uint16_t` argument (implicitly widened). -/
def wU16 (d : UInt16) (n : Int) : Wr Unit := .lit 32 d.toUInt64 n (.ret ())
/-- `WriteUnsignedLiteral64` (write_bit_buffer.cc:160-163). -/
def wU64 (d : UInt64) (n : Int) : Wr Unit := .lit 64 d n (.ret ())
/-- `WriteSigned16` (write_bit_buffer.cc:167-169): sign-extend to 32 bits, mask, write. -/
def wS16 (d : Int16) : Wr Unit := .lit 32 (d.toInt32.toUInt32 &&& 0xffff).toUInt64 16 (.ret ())
/-- `WriteSigned9` (write_bit_buffer.cc:173-179). -/
def wS9 (d : Int16) : Wr Unit :=
  if d.toInt < -256 ∨ d.toInt > 255 then .fail .invalidArgument
  else .lit 32 (d.toInt32.toUInt32 &&& 0x1ff).toUInt64 9 (.ret ())
/-- `WriteSigned8` (write_bit_buffer.cc:183-185). -/
def wS8 (d : Int8) : Wr Unit := .lit 32 (d.toInt32.toUInt32 &&& 0xff).toUInt64 8 (.ret ())
/-- `WriteBoolean` (write_bit_buffer.cc:187-189). -/
def wBool (b : Bool) : Wr Unit := .lit 32 (if b then 1 else 0) 1 (.ret ())
/-- `WriteUint8Span` (write_bit_buffer.cc:249-269). -/
def wBytes (l : List UInt8) : Wr Unit := .span l (.ret ())
/-- `WriteUleb128` (write_bit_buffer.cc:220-226). -/
def wUleb (v : UInt32) : Wr Unit :=
  .getLeb fun g => match g.uleb v with
    | .ok bytes => wBytes bytes
    | .error e => .fail e

/-- `kIamfMaxStringSize` (iamf/obu/types.h). -/
def kIamfMaxStringSize : Nat := 128

/-- Consecutive 8-bit literals. -/
def wEach : List UInt8 → Wr Unit
  | [] => .ret ()
  | b :: bs => (wU8 b 8).bind fun _ => wEach bs

/-- `WriteString` (write_bit_buffer.cc:192-218); a `std::string` is a byte list. -/
def wString (s : List UInt8) : Wr Unit :=
  if s.length > kIamfMaxStringSize - 1 then .fail .invalidArgument
  else if s = [] then wU8 0 8
  else if (0 : UInt8) ∈ s then .fail .invalidArgument
  else (wEach s).bind fun _ => wU8 0 8

/-- The `do … while` of `WriteIso14496_1Expanded` (write_bit_buffer.cc:236-242): groups of seven bits are
prepended, each with the top bit set. -/
def isoGroups (v : Nat) (acc : List UInt8) : List UInt8 :=
  let acc := UInt8.ofNat (v % 128 + 128) :: acc
  if v / 128 = 0 then acc else isoGroups (v / 128) acc
termination_by v
decreasing_by omega

/-- `WriteIso14496_1Expanded` (write_bit_buffer.cc:228-247). -/
def wIso (v : UInt32) : Wr Unit := wBytes (clearLastMsb (isoGroups v.toNat []))

/-! ### Typed reader primitives -/

/-- `ReadUnsignedLiteral(n, uint64_t&)` (read_bit_buffer.cc:149-152). -/
def rU64 (n : Int) : Rd UInt64 := .lit 64 n fun v => .ret (UInt64.ofNat v)
/-- `ReadUnsignedLiteral(n, uint32_t&)` (read_bit_buffer.cc:154-160). -/
def rU32 (n : Int) : Rd UInt32 := .lit 32 n fun v => .ret (UInt32.ofNat v)
/-- `ReadUnsignedLiteral(n, uint16_t&)` (read_bit_buffer.cc:162-168). -/
def rU16 (n : Int) : Rd UInt16 := .lit 16 n fun v => .ret (UInt16.ofNat v)
/-- `ReadUnsignedLiteral(n, uint8_t&)` (read_bit_buffer.cc:170-176). -/
def rU8 (n : Int) : Rd UInt8 := .lit 8 n fun v => .ret (UInt8.ofNat v)
/-- `ReadSigned16` (read_bit_buffer.cc:179-184): the low 16 bits as an `int16_t`. -/
def rS16 : Rd Int16 := .lit 64 16 fun v => .ret (Int16.ofInt v)
/-- `ReadSigned8` (read_bit_buffer.cc:187-192). -/
def rS8 : Rd Int8 := .lit 64 8 fun v => .ret (Int8.ofInt v)
/-- `ReadSigned9` (read_bit_buffer.cc:195-205). -/
def rS9 : Rd Int16 := .lit 64 9 fun v =>
  if v &&& 0x100 ≠ 0 then .ret (Int16.ofInt (v ||| 0xfe00 : Nat)) else .ret (Int16.ofInt v)
/-- `ReadBoolean` (read_bit_buffer.cc:263-268). -/
def rBool : Rd Bool := .lit 64 1 fun v => .ret (v != 0)

/-- `ReadUint8Span` of a given length (read_bit_buffer.cc:256-261). -/
def rBytes : Nat → Rd (List UInt8)
  | 0 => .ret []
  | n + 1 => (rU8 8).bind fun b => (rBytes n).bind fun bs => .ret (b :: bs)

/-- The loop of `ReadString` (read_bit_buffer.cc:212-219), `n` iterations left. -/
def rStringLoop : Nat → Rd (List UInt8)
  | 0 => .fail .invalidArgument
  | n + 1 => (rU8 8).bind fun b =>
      if b = 0 then .ret [] else (rStringLoop n).bind fun bs => .ret (b :: bs)

/-- `ReadString` (read_bit_buffer.cc:208-224). -/
def rString : Rd (List UInt8) := rStringLoop kIamfMaxStringSize

/-- `AccumulateUleb128OrIso14496_1Internal` with `AccumulateUleb128Byte` (read_bit_buffer.cc:100-142).
`fuel` is `kMaxLeb128Size - i`.  The `uint64_t` accumulator is a `Nat`: eight groups of seven bits never
exceed 56 bits. -/
def accumLoop (accum : Nat → Nat → Nat → Nat) (maxOut : Nat) : Nat → Nat → Nat → Rd (UInt32 × Nat)
  | 0, i, acc => .ret (UInt32.ofNat acc, i)
  | fuel + 1, i, acc =>
    .lit 64 8 fun byte =>
      let acc := accum byte i acc
      let terminal := byte &&& 0x80 == 0
      if i = kMaxLeb128Size - 1 ∧ terminal = false then .fail .invalidArgument
      else if acc > maxOut then .fail .invalidArgument
      else if terminal then .ret (UInt32.ofNat acc, i + 1)
      else accumLoop accum maxOut fuel (i + 1) acc

/-- `ReadULeb128(value, size)` (read_bit_buffer.cc:231-242). -/
def rUlebSize : Rd (UInt32 × Nat) :=
  accumLoop (fun byte i acc => acc ||| ((byte &&& 0x7f) <<< (7 * i))) 4294967295 kMaxLeb128Size 0 0

/-- `ReadULeb128(value)` (read_bit_buffer.cc:226-229). -/
def rUleb : Rd UInt32 := rUlebSize.bind fun p => .ret p.1

/-- `ReadIso14496_1Expanded` (read_bit_buffer.cc:244-254). -/
def rIso (maxClassSize : UInt32) : Rd UInt32 :=
  (accumLoop (fun byte _ acc => (acc <<< 7) ||| (byte &&& 0x7f)) maxClassSize.toNat kMaxLeb128Size 0 0).bind
    fun p => .ret p.1

/-- Read `n` elements one after the other. -/
def rRep {α : Type} (p : Rd α) : Nat → Rd (List α)
  | 0 => .ret []
  | n + 1 => p.bind fun a => (rRep p n).bind fun as => .ret (a :: as)

/-- Write elements one after the other. -/
def wAll {α : Type} (w : α → Wr Unit) : List α → Wr Unit
  | [] => .ret ()
  | a :: as => (w a).bind fun _ => wAll w as

/-! ### Round trips of the primitives -/

theorem eval_lit {α : Type} (g : LebGen) (m : Nat) (d : UInt64) (n : Nat) (k : Wr α)
    (hn : 0 < n) (hm : n ≤ m) (h64 : m ≤ 64) :
    (Wr.lit m d n k).eval g =
      if d.toNat < 2 ^ n then ((k.eval g).1, natBits n d.toNat ++ (k.eval g).2)
      else (.error .invalidArgument, []) := by
  unfold Wr.eval
  simp only [Wr.runA]
  have : Wr.litA m d n = if d.toNat < 2 ^ n then .ok (natBits n d.toNat) else .error .invalidArgument := by
    unfold Wr.litA
    rw [if_neg (by omega), if_neg (by omega)]
    by_cases h : d.toNat < 2 ^ n
    · have h' : ¬ (m > 64 ∨ (n : Int) > m ∨ 2 ^ (n : Int).toNat ≤ d.toNat) := by
        simp only [Int.toNat_natCast]; omega
      rw [if_neg h', if_pos h]; rfl
    · have h' : (m > 64 ∨ (n : Int) > m ∨ 2 ^ (n : Int).toNat ≤ d.toNat) := by
        simp only [Int.toNat_natCast]; omega
      rw [if_pos h', if_neg h]
  rw [this]
  by_cases h : d.toNat < 2 ^ n
  · simp only [h, ↓reduceIte, List.nil_append]
    rw [Wr.runA_out]
  · simp only [h, ↓reduceIte]

theorem eval_span {α : Type} (g : LebGen) (l : List UInt8) (k : Wr α) :
    (Wr.span l k).eval g = ((k.eval g).1, bytesBits l ++ (k.eval g).2) := by
  unfold Wr.eval
  simp only [Wr.runA, List.nil_append]
  rw [Wr.runA_out]

theorem eval_wU32 (g : LebGen) (d : UInt32) (n : Nat) (hn : 0 < n) (h : n ≤ 32) :
    (wU32 d n).eval g = if d.toNat < 2 ^ n then (.ok (), natBits n d.toNat) else (.error .invalidArgument, []) := by
  unfold wU32; rw [eval_lit _ _ _ _ _ hn h (by omega)]; simp

theorem eval_wU16 (g : LebGen) (d : UInt16) (n : Nat) (hn : 0 < n) (h : n ≤ 32) :
    (wU16 d n).eval g = if d.toNat < 2 ^ n then (.ok (), natBits n d.toNat) else (.error .invalidArgument, []) := by
  unfold wU16; rw [eval_lit _ _ _ _ _ hn h (by omega)]; simp

theorem eval_wU8 (g : LebGen) (d : UInt8) (n : Nat) (hn : 0 < n) (h : n ≤ 32) :
    (wU8 d n).eval g = if d.toNat < 2 ^ n then (.ok (), natBits n d.toNat) else (.error .invalidArgument, []) := by
  unfold wU8; rw [eval_lit _ _ _ _ _ hn h (by omega)]; simp

theorem eval_wU64 (g : LebGen) (d : UInt64) (n : Nat) (hn : 0 < n) (h : n ≤ 64) :
    (wU64 d n).eval g = if d.toNat < 2 ^ n then (.ok (), natBits n d.toNat) else (.error .invalidArgument, []) := by
  unfold wU64; rw [eval_lit _ _ _ _ _ hn h (by omega)]; simp

theorem eval_wU8_8 (g : LebGen) (d : UInt8) : (wU8 d 8).eval g = (.ok (), byteBits d) := by
  have := eval_wU8 g d 8 (by omega) (by omega)
  rw [if_pos d.toNat_lt] at this
  exact this

theorem eval_wBool (g : LebGen) (b : Bool) : (wBool b).eval g = (.ok (), [b]) := by
  have := eval_lit g 32 (if b then 1 else 0) 1 (.ret ()) (by omega) (by omega) (by omega)
  unfold wBool
  cases b <;> exact this

theorem eval_wBytes (g : LebGen) (l : List UInt8) : (wBytes l).eval g = (.ok (), bytesBits l) := by
  unfold wBytes; rw [eval_span]; simp

theorem eval_wUleb (g : LebGen) (v : UInt32) :
    (wUleb v).eval g = if g.fits v then (.ok (), bytesBits (g.enc v)) else (.error .invalidArgument, []) := by
  have : (wUleb v).eval g = (match g.uleb v with
    | .ok bytes => wBytes bytes
    | .error e => .fail e : Wr Unit).eval g := rfl
  rw [this]
  by_cases h : g.fits v
  · rw [if_pos h, g.uleb_ok v h]; exact eval_wBytes g _
  · rw [if_neg h, g.uleb_err v h]; rfl

theorem reads_lit_ret {α : Type} (max n v : Nat) (f : Nat → α) (hn : n ≤ max) (hv : v < 2 ^ n) :
    Reads (Rd.lit max n fun v => .ret (f v)) (natBits n v) (f v) := by
  have := Reads.lit (max := max) (n := n) (k := fun v => Rd.ret (f v)) hn hv (Reads.ret (f v))
  simpa using this

theorem reads_U32 (n v : Nat) (hn : n ≤ 32) (hv : v < 2 ^ n) : Reads (rU32 n) (natBits n v) (UInt32.ofNat v) :=
  reads_lit_ret 32 n v UInt32.ofNat hn hv
theorem reads_U8 (n v : Nat) (hn : n ≤ 8) (hv : v < 2 ^ n) : Reads (rU8 n) (natBits n v) (UInt8.ofNat v) :=
  reads_lit_ret 8 n v UInt8.ofNat hn hv

theorem rt_U32 (g : LebGen) (d : UInt32) (n : Nat) (hn : 0 < n) (h : n ≤ 32) : RT g (wU32 d n) (rU32 n) d := by
  intro bs hb
  rw [eval_wU32 g d n hn h] at hb
  split at hb
  next hd =>
    simp only [Prod.mk.injEq, true_and] at hb
    subst hb
    have := reads_lit_ret 32 n d.toNat UInt32.ofNat h hd
    rw [UInt32.ofNat_toNat] at this
    exact this
  next => simp at hb

theorem rt_U16 (g : LebGen) (d : UInt16) (n : Nat) (hn : 0 < n) (h : n ≤ 16) : RT g (wU16 d n) (rU16 n) d := by
  intro bs hb
  rw [eval_wU16 g d n hn (by omega)] at hb
  split at hb
  next hd =>
    simp only [Prod.mk.injEq, true_and] at hb
    subst hb
    have := reads_lit_ret 16 n d.toNat UInt16.ofNat h hd
    rw [UInt16.ofNat_toNat] at this
    exact this
  next => simp at hb

theorem rt_U8 (g : LebGen) (d : UInt8) (n : Nat) (hn : 0 < n) (h : n ≤ 8) : RT g (wU8 d n) (rU8 n) d := by
  intro bs hb
  rw [eval_wU8 g d n hn (by omega)] at hb
  split at hb
  next hd =>
    simp only [Prod.mk.injEq, true_and] at hb
    subst hb
    have := reads_lit_ret 8 n d.toNat UInt8.ofNat h hd
    rw [UInt8.ofNat_toNat] at this
    exact this
  next => simp at hb

theorem rt_U64 (g : LebGen) (d : UInt64) (n : Nat) (hn : 0 < n) (h : n ≤ 64) : RT g (wU64 d n) (rU64 n) d := by
  intro bs hb
  rw [eval_wU64 g d n hn (by omega)] at hb
  split at hb
  next hd =>
    simp only [Prod.mk.injEq, true_and] at hb
    subst hb
    have := reads_lit_ret 64 n d.toNat UInt64.ofNat h hd
    rw [UInt64.ofNat_toNat] at this
    exact this
  next => simp at hb

theorem rt_Bool (g : LebGen) (b : Bool) : RT g (wBool b) rBool b := by
  intro bs hb
  rw [eval_wBool] at hb
  simp only [Prod.mk.injEq, true_and] at hb
  subst hb
  cases b
  · exact reads_lit_ret 64 1 0 (· != 0) (by omega) (by omega)
  · exact reads_lit_ret 64 1 1 (· != 0) (by omega) (by omega)

private theorem signExt_mod {w v : Nat} (x : BitVec w) (hv : w ≤ v) (k : Nat) (hk : k = w) :
    (x.signExtend v).toNat % 2 ^ k = x.toNat := by
  subst hk
  rw [BitVec.toNat_signExtend]
  have hx := x.isLt
  have hle : 2 ^ k ≤ 2 ^ v := Nat.pow_le_pow_right (by omega) hv
  have h1 : (x.setWidth v).toNat = x.toNat := by
    rw [BitVec.toNat_setWidth, Nat.mod_eq_of_lt (by omega)]
  rw [h1]
  split
  · have : 2 ^ v - 2 ^ k = 2 ^ k * (2 ^ (v - k) - 1) := by
      rw [Nat.mul_sub, ← Nat.pow_add, Nat.add_sub_cancel' hv, Nat.mul_one]
    rw [this, Nat.add_mul_mod_self_left, Nat.mod_eq_of_lt hx]
  · rw [Nat.add_zero, Nat.mod_eq_of_lt hx]

private theorem s16_val (d : Int16) :
    (d.toInt32.toUInt32 &&& 0xffff).toUInt64.toNat = d.toBitVec.toNat := by
  have h1 : d.toInt32.toUInt32.toNat = (d.toBitVec.signExtend 32).toNat := rfl
  rw [UInt32.toNat_toUInt64, UInt32.toNat_and, h1]
  have : (0xffff : UInt32).toNat = 2 ^ 16 - 1 := rfl
  rw [this, Nat.and_two_pow_sub_one_eq_mod]
  exact signExt_mod _ (by omega) _ rfl

private theorem s8_val (d : Int8) :
    (d.toInt32.toUInt32 &&& 0xff).toUInt64.toNat = d.toBitVec.toNat := by
  have h1 : d.toInt32.toUInt32.toNat = (d.toBitVec.signExtend 32).toNat := rfl
  rw [UInt32.toNat_toUInt64, UInt32.toNat_and, h1]
  have : (0xff : UInt32).toNat = 2 ^ 8 - 1 := rfl
  rw [this, Nat.and_two_pow_sub_one_eq_mod]
  exact signExt_mod _ (by omega) _ rfl

theorem eval_wS16 (g : LebGen) (d : Int16) : (wS16 d).eval g = (.ok (), natBits 16 d.toBitVec.toNat) := by
  have := eval_lit g 32 (d.toInt32.toUInt32 &&& 0xffff).toUInt64 16 (.ret ()) (by omega) (by omega) (by omega)
  rw [s16_val, if_pos d.toBitVec.isLt] at this
  simp only [Wr.eval_ret, List.append_nil] at this
  exact this

theorem eval_wS8 (g : LebGen) (d : Int8) : (wS8 d).eval g = (.ok (), natBits 8 d.toBitVec.toNat) := by
  have := eval_lit g 32 (d.toInt32.toUInt32 &&& 0xff).toUInt64 8 (.ret ()) (by omega) (by omega) (by omega)
  rw [s8_val, if_pos d.toBitVec.isLt] at this
  simp only [Wr.eval_ret, List.append_nil] at this
  exact this

private theorem int16_ofNat_toNat (d : Int16) : Int16.ofInt (d.toBitVec.toNat : Int) = d := by
  apply Int16.toBitVec_inj.mp
  show BitVec.ofInt 16 (d.toBitVec.toNat : Int) = d.toBitVec
  rw [BitVec.ofInt_natCast, BitVec.ofNat_toNat, BitVec.setWidth_eq]

private theorem int8_ofNat_toNat (d : Int8) : Int8.ofInt (d.toBitVec.toNat : Int) = d := by
  apply Int8.toBitVec_inj.mp
  show BitVec.ofInt 8 (d.toBitVec.toNat : Int) = d.toBitVec
  rw [BitVec.ofInt_natCast, BitVec.ofNat_toNat, BitVec.setWidth_eq]

theorem rt_S16 (g : LebGen) (d : Int16) : RT g (wS16 d) rS16 d := by
  intro bs hb
  rw [eval_wS16] at hb
  simp only [Prod.mk.injEq, true_and] at hb
  subst hb
  have := reads_lit_ret 64 16 d.toBitVec.toNat (fun v => Int16.ofInt v) (by omega) d.toBitVec.isLt
  rw [int16_ofNat_toNat] at this
  exact this

theorem rt_S8 (g : LebGen) (d : Int8) : RT g (wS8 d) rS8 d := by
  intro bs hb
  rw [eval_wS8] at hb
  simp only [Prod.mk.injEq, true_and] at hb
  subst hb
  have := reads_lit_ret 64 8 d.toBitVec.toNat (fun v => Int8.ofInt v) (by omega) d.toBitVec.isLt
  rw [int8_ofNat_toNat] at this
  exact this

/-- The nine-bit two's complement pattern. -/
private theorem s9_all : ∀ i : Fin 512,
    let d : Int16 := Int16.ofInt ((i.val : Int) - 256)
    let n := (d.toInt32.toUInt32 &&& 0x1ff).toUInt64.toNat
    n < 512 ∧ (if n &&& 0x100 ≠ 0 then Int16.ofInt (n ||| 0xfe00 : Nat) else Int16.ofInt n) = d := by
  decide +kernel

private theorem s9_one (d : Int16) (h1 : -256 ≤ d.toInt) (h2 : d.toInt ≤ 255) :
    let n := (d.toInt32.toUInt32 &&& 0x1ff).toUInt64.toNat
    n < 512 ∧ (if n &&& 0x100 ≠ 0 then Int16.ofInt (n ||| 0xfe00 : Nat) else Int16.ofInt n) = d := by
  have := s9_all ⟨(d.toInt + 256).toNat, by omega⟩
  have e : (((d.toInt + 256).toNat : Nat) : Int) - 256 = d.toInt := by omega
  simp only [e, Int16.ofInt_toInt] at this
  exact this

theorem rt_S9 (g : LebGen) (d : Int16) : RT g (wS9 d) rS9 d := by
  intro bs hb
  unfold wS9 at hb
  split at hb
  next => simp at hb
  next hr =>
    have hr1 : -256 ≤ d.toInt := by omega
    have hr2 : d.toInt ≤ 255 := by omega
    obtain ⟨hn, hv⟩ := s9_one d hr1 hr2
    have hb2 := eval_lit g 32 (d.toInt32.toUInt32 &&& 0x1ff).toUInt64 9 (.ret ()) (by omega) (by omega) (by omega)
    rw [if_pos hn] at hb2
    have hb3 := hb2.symm.trans hb
    simp only [Wr.eval_ret, List.append_nil, Prod.mk.injEq, true_and] at hb3
    subst hb3
    have := reads_lit_ret 64 9 (d.toInt32.toUInt32 &&& 0x1ff).toUInt64.toNat
      (fun v => if v &&& 0x100 ≠ 0 then Int16.ofInt (v ||| 0xfe00 : Nat) else Int16.ofInt v) (by omega) hn
    rw [hv] at this
    have e : rS9 = (Rd.lit 64 9 fun v => .ret
        (if v &&& 0x100 ≠ 0 then Int16.ofInt (v ||| 0xfe00 : Nat) else Int16.ofInt v)) := by
      unfold rS9
      congr 1
      funext v
      split <;> rfl
    rw [e]
    exact this

theorem reads_byte (b : UInt8) : Reads (rU8 8) (byteBits b) b := by
  have := reads_lit_ret 8 8 b.toNat UInt8.ofNat (by omega) b.toNat_lt
  rw [UInt8.ofNat_toNat] at this
  exact this

theorem reads_bytes (l : List UInt8) : Reads (rBytes l.length) (bytesBits l) l := by
  induction l with
  | nil => exact Reads.ret []
  | cons b l ih =>
    simp only [List.length_cons, rBytes, bytesBits_cons]
    refine (reads_byte b).bind ?_
    have := ih.bind (f := fun bs => Rd.ret (b :: bs)) (Reads.ret (b :: l))
    simpa using this

theorem rt_Bytes (g : LebGen) (l : List UInt8) : RT g (wBytes l) (rBytes l.length) l := by
  intro bs hb
  rw [eval_wBytes] at hb
  simp only [Prod.mk.injEq, true_and] at hb
  subst hb
  exact reads_bytes l

/-! Strings -/

theorem eval_wEach (g : LebGen) (l : List UInt8) : (wEach l).eval g = (.ok (), bytesBits l) := by
  induction l with
  | nil => rfl
  | cons b l ih =>
    simp only [wEach, Wr.eval_bind, eval_wU8_8, ih, bytesBits_cons]

/-- The strings accepted by `WriteString`. -/
def StringOk (s : List UInt8) : Prop := s.length ≤ 127 ∧ (0 : UInt8) ∉ s

instance (s : List UInt8) : Decidable (StringOk s) := by unfold StringOk; infer_instance

theorem eval_wString (g : LebGen) (s : List UInt8) :
    (wString s).eval g = if StringOk s then (.ok (), bytesBits (s ++ [0])) else (.error .invalidArgument, []) := by
  unfold wString StringOk kIamfMaxStringSize
  by_cases h1 : s.length > 127
  · simp [h1]; omega
  · by_cases h2 : s = []
    · subst h2; simp [eval_wU8_8]
    · by_cases h3 : (0 : UInt8) ∈ s
      · simp [h1, h2, h3]
      · have h4 : s.length ≤ 127 := by omega
        simp [h1, h2, h3, h4, Wr.eval_bind, eval_wEach, eval_wU8_8]

theorem reads_stringLoop (s : List UInt8) (n : Nat) (h0 : (0 : UInt8) ∉ s) (hn : s.length < n) :
    Reads (rStringLoop n) (bytesBits (s ++ [0])) s := by
  induction s generalizing n with
  | nil =>
    cases n with
    | zero => simp at hn
    | succ n =>
      simp only [rStringLoop, List.nil_append, bytesBits_cons]
      refine (reads_byte 0).bind ?_
      simp only [↓reduceIte, bytesBits_nil]
      exact Reads.ret []
  | cons b s ih =>
    cases n with
    | zero => simp at hn
    | succ n =>
      simp only [rStringLoop, List.cons_append, bytesBits_cons]
      refine (reads_byte b).bind ?_
      have hb : b ≠ 0 := fun h => h0 (by simp [h])
      simp only [hb, ↓reduceIte]
      have := (ih n (fun h => h0 (by simp [h])) (by simpa using hn)).bind
        (f := fun bs => Rd.ret (b :: bs)) (Reads.ret (b :: s))
      simpa using this

theorem rt_String (g : LebGen) (s : List UInt8) : RT g (wString s) rString s := by
  intro bs hb
  rw [eval_wString] at hb
  split at hb
  next h =>
    simp only [Prod.mk.injEq, true_and] at hb
    subst hb
    exact reads_stringLoop s _ h.2 (by have := h.1; unfold kIamfMaxStringSize; omega)
  next => simp at hb

/-! LEB128 and ISO 14496-1 expandable sizes -/

private theorem and7f (n : Nat) : n &&& 0x7f = n % 128 := Nat.and_two_pow_sub_one_eq_mod n 7

private theorem and80 : ∀ n : Fin 256, (n.val &&& 0x80 == 0) = decide (n.val < 128) := by decide +kernel

private theorem and80' (b : UInt8) : (b.toNat &&& 0x80 == 0) = decide (b.toNat < 128) :=
  and80 ⟨b.toNat, b.toNat_lt⟩

private theorem reads_lit_byte {α : Type} {b : UInt8} {k : Nat → Rd α} {bs : Bits} {a : α}
    (h : Reads (k b.toNat) bs a) : Reads (Rd.lit 64 8 k) (byteBits b ++ bs) a :=
  Reads.lit (n := 8) (by omega) b.toNat_lt h

private theorem uleb_loop (l : List UInt8) (i acc fuel : Nat) (h : IsLeb l) (hl : l.length ≤ fuel)
    (hi : fuel + i = 8) (hacc : acc < 2 ^ (7 * i)) (hm : acc + 2 ^ (7 * i) * ulebVal l ≤ 4294967295) :
    Reads (accumLoop (fun byte i acc => acc ||| ((byte &&& 0x7f) <<< (7 * i))) 4294967295 fuel i acc)
      (bytesBits l) (UInt32.ofNat (acc + 2 ^ (7 * i) * ulebVal l), i + l.length) := by
  induction l generalizing i acc fuel with
  | nil => exact h.elim
  | cons b l ih =>
    cases fuel with
    | zero => simp at hl
    | succ fuel =>
      have hor : acc ||| ((b.toNat &&& 0x7f) <<< (7 * i)) = acc + 2 ^ (7 * i) * (b.toNat % 128) := by
        rw [and7f, Nat.shiftLeft_eq, Nat.mul_comm (b.toNat % 128), Nat.or_comm,
          ← Nat.two_pow_add_eq_or_of_lt hacc, Nat.add_comm]
      have hv : ulebVal (b :: l) = b.toNat % 128 + 128 * ulebVal l := rfl
      have hpow : 2 ^ (7 * (i + 1)) = 2 ^ (7 * i) * 128 := by
        rw [Nat.mul_add, Nat.pow_add]
      have hexp : 2 ^ (7 * i) * ulebVal (b :: l) = 2 ^ (7 * i) * (b.toNat % 128) + 2 ^ (7 * (i + 1)) * ulebVal l := by
        rw [hv, hpow, Nat.mul_add, Nat.mul_assoc]
      have hle : acc + 2 ^ (7 * i) * (b.toNat % 128) ≤ 4294967295 := by omega
      simp only [accumLoop, bytesBits_cons]
      apply reads_lit_byte
      simp only [hor, and80']
      cases l with
      | nil =>
        have hb : b.toNat < 128 := h
        simp only [hb, decide_true, Bool.true_eq_false, and_false, ↓reduceIte, bytesBits_nil,
          List.length_cons, List.length_nil]
        rw [if_neg (by omega)]
        have : ulebVal [b] = b.toNat % 128 := by simp [ulebVal]
        rw [this]
        exact Reads.ret _
      | cons c l =>
        have hb : ¬ b.toNat < 128 := by have := h.1; omega
        have hi7 : i ≠ 7 := by simp at hl; omega
        simp only [hb, decide_false, kMaxLeb128Size, Nat.add_one_sub_one, hi7, and_true, ↓reduceIte,
          Bool.false_eq_true]
        rw [if_neg (by omega)]
        have hacc' : acc + 2 ^ (7 * i) * (b.toNat % 128) < 2 ^ (7 * (i + 1)) := by
          rw [hpow]
          have h3 : 2 ^ (7 * i) * (b.toNat % 128) ≤ 2 ^ (7 * i) * 127 := Nat.mul_le_mul_left _ (by omega)
          have h4 : 2 ^ (7 * i) * 128 = 2 ^ (7 * i) * 127 + 2 ^ (7 * i) := by omega
          omega
        have := ih (i + 1) (acc + 2 ^ (7 * i) * (b.toNat % 128)) fuel h.2 (by simpa using hl) (by omega) hacc'
          (by omega)
        rw [hexp, ← Nat.add_assoc]
        have e : i + (b :: c :: l).length = i + 1 + (c :: l).length := by simp; omega
        rw [e]
        exact this

theorem reads_ulebSize (l : List UInt8) (h : IsLeb l) (hl : l.length ≤ 8) (hm : ulebVal l < 2 ^ 32) :
    Reads rUlebSize (bytesBits l) (UInt32.ofNat (ulebVal l), l.length) := by
  have := uleb_loop l 0 0 8 h hl (by omega) (by omega) (by omega)
  simp only [Nat.mul_zero, Nat.pow_zero, Nat.one_mul, Nat.zero_add] at this
  exact this

theorem rt_UlebSize (g : LebGen) (v : UInt32) : RT g (wUleb v) rUlebSize (v, g.len v) := by
  intro bs hb
  rw [eval_wUleb] at hb
  split at hb
  next h =>
    simp only [Prod.mk.injEq, true_and] at hb
    subst hb
    have := reads_ulebSize (g.enc v) (g.enc_isLeb v h) (by simpa using (g.fits_bounds v h).2.1)
      (by rw [g.enc_val v h]; exact v.toNat_lt)
    rw [g.enc_val v h, UInt32.ofNat_toNat, g.enc_length] at this
    exact this
  next => simp at hb

theorem rt_Uleb (g : LebGen) (v : UInt32) : RT g (wUleb v) rUleb v := by
  intro bs hb
  have := (rt_UlebSize g v bs hb).bind (f := fun p => Rd.ret p.1) (Reads.ret v)
  rw [List.append_nil] at this
  exact this

/-- Big-endian base-128 value. -/
def isoVal (l : List UInt8) : Nat := l.foldl (fun a b => a * 128 + b.toNat % 128) 0

theorem isoVal_foldl (l : List UInt8) (a : Nat) :
    l.foldl (fun a b => a * 128 + b.toNat % 128) a = a * 128 ^ l.length + isoVal l := by
  induction l generalizing a with
  | nil => simp [isoVal]
  | cons b l ih =>
    simp only [List.foldl_cons, isoVal, List.length_cons]
    rw [ih, ih (0 * 128 + b.toNat % 128), Nat.pow_succ]
    simp only [Nat.add_mul, Nat.zero_mul, Nat.zero_add]
    have : a * 128 * 128 ^ l.length = a * (128 ^ l.length * 128) := by
      rw [Nat.mul_comm (128 ^ l.length) 128, ← Nat.mul_assoc]
    omega

private theorem iso_loop (mx : Nat) (l : List UInt8) (i acc fuel : Nat) (h : IsLeb l) (hl : l.length ≤ fuel)
    (hi : fuel + i = 8) (hm : acc * 128 ^ l.length + isoVal l ≤ mx) :
    Reads (accumLoop (fun byte _ acc => (acc <<< 7) ||| (byte &&& 0x7f)) mx fuel i acc)
      (bytesBits l) (UInt32.ofNat (acc * 128 ^ l.length + isoVal l), i + l.length) := by
  induction l generalizing i acc fuel with
  | nil => exact h.elim
  | cons b l ih =>
    cases fuel with
    | zero => simp at hl
    | succ fuel =>
      have hor : acc <<< 7 ||| (b.toNat &&& 0x7f) = acc * 128 + b.toNat % 128 := by
        rw [and7f, Nat.shiftLeft_eq, Nat.mul_comm acc, ← Nat.two_pow_add_eq_or_of_lt (by omega)]
      have hexp : acc * 128 ^ (b :: l).length + isoVal (b :: l) =
          (acc * 128 + b.toNat % 128) * 128 ^ l.length + isoVal l := by
        rw [← isoVal_foldl, ← isoVal_foldl, List.foldl_cons]
      rw [hexp] at hm ⊢
      have hp : 1 ≤ 128 ^ l.length := Nat.one_le_pow _ _ (by omega)
      have hle : acc * 128 + b.toNat % 128 ≤ mx := by
        have : (acc * 128 + b.toNat % 128) * 1 ≤ (acc * 128 + b.toNat % 128) * 128 ^ l.length :=
          Nat.mul_le_mul_left _ hp
        omega
      simp only [accumLoop, bytesBits_cons]
      apply reads_lit_byte
      simp only [hor, and80']
      cases l with
      | nil =>
        have hb : b.toNat < 128 := h
        simp only [hb, decide_true, Bool.true_eq_false, and_false, ↓reduceIte, bytesBits_nil,
          List.length_cons, List.length_nil]
        rw [if_neg (by omega)]
        simp only [Nat.pow_zero, Nat.mul_one, isoVal, List.foldl_nil, Nat.add_zero, Nat.zero_add]
        exact Reads.ret _
      | cons c l =>
        have hb : ¬ b.toNat < 128 := by have := h.1; omega
        have hi7 : i ≠ 7 := by simp at hl; omega
        simp only [hb, decide_false, kMaxLeb128Size, Nat.add_one_sub_one, hi7, and_true, ↓reduceIte,
          Bool.false_eq_true]
        rw [if_neg (by omega)]
        have := ih (i + 1) (acc * 128 + b.toNat % 128) fuel h.2 (by simpa using hl) (by omega) hm
        have e : i + (b :: c :: l).length = i + 1 + (c :: l).length := by simp; omega
        rw [e]
        exact this

/-- All continuation bits set. -/
private def AllCont (l : List UInt8) : Prop := ∀ b ∈ l, 128 ≤ b.toNat

private theorem isoGroups_spec (v : Nat) (acc : List UInt8) (ha : AllCont acc) :
    AllCont (isoGroups v acc) ∧ isoGroups v acc ≠ [] ∧
      isoVal (isoGroups v acc) = v * 128 ^ acc.length + isoVal acc ∧
      (isoGroups v acc).length = acc.length + ulebLen v := by
  induction v using Nat.strongRecOn generalizing acc with
  | ind v ih =>
    have hb : (UInt8.ofNat (v % 128 + 128)).toNat = v % 128 + 128 := by
      simp only [UInt8.toNat_ofNat']; omega
    have hc : AllCont (UInt8.ofNat (v % 128 + 128) :: acc) := by
      intro b hbm
      simp only [List.mem_cons] at hbm
      rcases hbm with rfl | hbm
      · omega
      · exact ha b hbm
    have hv : isoVal (UInt8.ofNat (v % 128 + 128) :: acc) = v % 128 * 128 ^ acc.length + isoVal acc := by
      conv => lhs; unfold isoVal
      rw [List.foldl_cons, isoVal_foldl, hb]
      congr 2
      omega
    unfold isoGroups
    simp only []
    split
    next h0 =>
      refine ⟨hc, by simp, ?_, ?_⟩
      · rw [hv]; congr 2; omega
      · have : ulebLen v = 1 := by unfold ulebLen; rw [if_pos (by omega)]
        simp [this]
    next h0 =>
      obtain ⟨h1, h2, h3, h4⟩ := ih (v / 128) (by omega) _ hc
      refine ⟨h1, h2, ?_, ?_⟩
      · rw [h3, hv, List.length_cons, Nat.pow_succ, ← Nat.add_assoc]
        congr 1
        rw [Nat.mul_comm (128 ^ acc.length) 128, ← Nat.mul_assoc, ← Nat.add_mul]
        congr 1
        omega
      · have : ulebLen v = 1 + ulebLen (v / 128) := by
          conv => lhs; unfold ulebLen
          rw [if_neg (by omega)]
        rw [h4, this, List.length_cons]; omega

private theorem clearLast_props (l : List UInt8) (h : AllCont l) (hn : l ≠ []) :
    IsLeb (clearLastMsb l) ∧ (clearLastMsb l).length = l.length ∧
      ∀ a, (clearLastMsb l).foldl (fun a b => a * 128 + b.toNat % 128) a =
        l.foldl (fun a b => a * 128 + b.toNat % 128) a := by
  fun_induction clearLastMsb l with
  | case1 => exact absurd rfl hn
  | case2 b =>
    have hb : (b &&& 0x7f).toNat = b.toNat % 128 := by
      rw [UInt8.toNat_and]; exact and7f _
    refine ⟨?_, rfl, ?_⟩
    · show (b &&& 0x7f).toNat < 128
      omega
    · intro a; simp [hb]
  | case3 b c l ih =>
    obtain ⟨h1, h2, h3⟩ := ih (fun x hx => h x (List.mem_cons_of_mem _ hx)) (by simp)
    refine ⟨?_, by simp [h2], ?_⟩
    · match hx : clearLastMsb (c :: l) with
      | [] => rw [hx] at h2; simp at h2
      | y :: ys =>
        rw [hx] at h1
        exact ⟨h b (by simp), h1⟩
    · intro a
      simp only [List.foldl_cons]
      rw [h3]
      rfl

theorem rt_Iso (g : LebGen) (v mx : UInt32) (h : v.toNat ≤ mx.toNat) : RT g (wIso v) (rIso mx) v := by
  intro bs hb
  unfold wIso at hb
  rw [eval_wBytes] at hb
  simp only [Prod.mk.injEq, true_and] at hb
  subst hb
  obtain ⟨h1, h2, h3, h4⟩ := isoGroups_spec v.toNat [] (by intro b hb; simp at hb)
  obtain ⟨c1, c2, c3⟩ := clearLast_props _ h1 h2
  have hval : isoVal (clearLastMsb (isoGroups v.toNat [])) = v.toNat := by
    unfold isoVal; rw [c3 0]
    have := h3
    simp [isoVal] at this
    exact this
  have h5 := ulebLen_le_five v
  have hloop := iso_loop mx.toNat (clearLastMsb (isoGroups v.toNat [])) 0 0 8 c1
    (by rw [c2, h4]; simp; omega) (by omega) (by rw [hval]; omega)
  rw [hval] at hloop
  have := hloop.bind (f := fun p => Rd.ret p.1) (Reads.ret _)
  simp only [Nat.zero_mul, Nat.zero_add, UInt32.ofNat_toNat, List.append_nil] at this
  exact this

/-! Repetition -/

theorem rt_rep {α : Type} (g : LebGen) (w : α → Wr Unit) (r : Rd α) (l : List α)
    (h : ∀ a ∈ l, RT g (w a) r a) : RT g (wAll w l) (rRep r l.length) l := by
  induction l with
  | nil => exact RT.ret g []
  | cons a l ih =>
    simp only [wAll, rRep, List.length_cons]
    refine (h a (by simp)).seq ?_
    intro bs hb
    have := (ih (fun x hx => h x (by simp [hx])) bs hb).bind (f := fun as => Rd.ret (a :: as)) (Reads.ret (a :: l))
    simpa using this

/-- Finish a read with a pure result. -/
theorem RT.map {α β : Type} {g : LebGen} {w : Wr Unit} {r : Rd α} {a : α} {f : α → Rd β} {b : β}
    (h : RT g w r a) (hf : f a = Rd.ret b) : RT g w (r.bind f) b := by
  intro bs hb
  have := (h bs hb).bind (f := f) (b2 := []) (b := b) (by rw [hf]; exact Reads.ret b)
  simpa using this

end Iamf
