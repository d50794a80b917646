import Verif.Obu.Logic
import Verif.Props.Bits
/-
  Properties of OBU headers and OBU framing: C06, C07, C14, C17.
-/
namespace Iamf.Props
open Iamf

/-! ## Specification vocabulary -/

/-- `Writes g p bytes`: on a fresh write buffer with leb generator `g`, the program succeeds and the
buffer then holds exactly `bytes` (and is byte aligned). -/
def Writes (g : LebGen) (p : Wr Unit) (bytes : List UInt8) : Prop :=
  ∃ w, p.run (WBuf.empty g) = (.ok (), w) ∧ w.bytes = bytes ∧ w.off = 8 * bytes.length

/-- `ReadsBack r bytes a`: reading `bytes` — followed by anything, through a read buffer of any
non-zero capacity — succeeds with `a` and stops exactly after `bytes`. -/
def ReadsBack {α : Type} (r : Rd α) (bytes : List UInt8) (a : α) : Prop :=
  ∀ (trailing : List UInt8) (cap : Nat) (pv : Bool), 0 < cap →
    (r.run (RBuf.create cap (bytes ++ trailing) pv)).1 = .ok a ∧
    (r.run (RBuf.create cap (bytes ++ trailing) pv)).2.tell = 8 * bytes.length

theorem Writes.eval {g : LebGen} {p : Wr Unit} {bytes : List UInt8} (h : Writes g p bytes) :
    p.eval g = (.ok (), bytesBits bytes) := by
  obtain ⟨w, hw, rfl, ho⟩ := h
  obtain ⟨h1, h2, -, h4⟩ := p.run_empty g
  rw [hw] at h1 h2 h4
  refine Prod.ext h1.symm ?_
  rw [← h4]
  unfold WBuf.bits
  rw [ho, ← bytesBits_length, List.take_length]

theorem Writes.of_eval {g : LebGen} {p : Wr Unit} {bytes : List UInt8}
    (h : p.eval g = (.ok (), bytesBits bytes)) : Writes g p bytes := by
  obtain ⟨h1, h2, -, h4⟩ := p.run_empty g
  rw [h] at h1 h4
  simp only at h1 h4
  refine ⟨(p.run (WBuf.empty g)).2, Prod.ext h1 rfl, ?_, ?_⟩
  all_goals
    have hl := congrArg List.length h4
    simp only [WBuf.bits, List.length_take, bytesBits_length] at hl
    have h5 := h2.inside
    have h6 := h2.tight
  · apply bytesBits_inj
    rw [← h4]
    unfold WBuf.bits
    rw [List.take_of_length_le]
    rw [bytesBits_length]; omega
  · omega

theorem Writes.exists {g : LebGen} {p : Wr Unit} (h : (p.eval g).1 = .ok ()) (hl : (p.eval g).2.length % 8 = 0) :
    ∃ bytes, Writes g p bytes ∧ 8 * bytes.length = (p.eval g).2.length := by
  obtain ⟨h1, h2, -, h4⟩ := p.run_empty g
  rw [h] at h1
  have hl' := congrArg List.length h4
  simp only [WBuf.bits, List.length_take, bytesBits_length] at hl'
  have h5 := h2.inside
  have h6 := h2.tight
  exact ⟨_, ⟨(p.run (WBuf.empty g)).2, Prod.ext h1 rfl, rfl, by omega⟩, by omega⟩

theorem ReadsBack.of_reads {α : Type} {r : Rd α} {bytes : List UInt8} {a : α}
    (h : Reads r (bytesBits bytes) a) : ReadsBack r bytes a := by
  intro trailing cap pv hc
  obtain ⟨v, e, -⟩ := h ⟨bytesBits (bytes ++ trailing), 0, pv⟩ (by simp)
    (by simp only [RS.rest, List.drop_zero, bytesBits_append]; exact List.prefix_append _ _)
  have := C03_read_buffer_is_cursor r (bytes ++ trailing) cap pv (.inl hc)
  simp only [e] at this
  refine ⟨this.1, ?_⟩
  rw [this.2.1]
  simp

theorem ReadsBack.of_rt {α : Type} {g : LebGen} {p : Wr Unit} {r : Rd α} {bytes : List UInt8} {a : α}
    (hrt : RT g p r a) (h : Writes g p bytes) : ReadsBack r bytes a :=
  ReadsBack.of_reads (hrt _ h.eval)

/-! ## C06: OBU header round trip -/

/-- **C06.** For every leb generator, header and payload size: if writing the header succeeds, then
reading it back yields the same type, flags and extension, the same trimming counts (which exist in the
bitstream only when the trimming flag is set, and are zero otherwise), and the payload size that was
passed to the writer. -/
theorem C06_header_round_trip (g : LebGen) (h : ObuHeader) (payloadSize : Int) (bytes : List UInt8)
    (hw : Writes g (h.write payloadSize) bytes) :
    ReadsBack ObuHeader.read bytes
      (⟨h.obuType, h.redundantCopy, h.typeSpecificFlag,
        if isAudioFrameType h.obuType && h.typeSpecificFlag then h.trimEnd else 0,
        if isAudioFrameType h.obuType && h.typeSpecificFlag then h.trimStart else 0, h.ext⟩, payloadSize) := by
  have := ReadsBack.of_rt (ObuHeader.rt g h payloadSize) hw
  have e : h.normalized = ⟨h.obuType, h.redundantCopy, h.typeSpecificFlag,
        if isAudioFrameType h.obuType && h.typeSpecificFlag then h.trimEnd else 0,
        if isAudioFrameType h.obuType && h.typeSpecificFlag then h.trimStart else 0, h.ext⟩ := by
    obtain ⟨t, rc, ts, te, tst, x⟩ := h
    simp only [ObuHeader.normalized, ObuHeader.trimFlag]
    cases isAudioFrameType t <;> cases ts <;> rfl
  rw [e] at this
  exact this

example : Writes (.fixed 2) (ObuHeader.write ⟨6, false, true, 300, 7, some [1, 2, 3]⟩ 5)
    [0x33, 0x8e, 0x00, 0xac, 0x02, 0x87, 0x00, 0x83, 0x00, 1, 2, 3] :=
  ⟨⟨.fixed 2, [0x33, 0x8e, 0x00, 0xac, 0x02, 0x87, 0x00, 0x83, 0x00, 1, 2, 3], 96⟩, by decide +kernel, rfl, rfl⟩

/-- **C06 (validation).** A header is written only if the IAMF restrictions on its flags hold, and a
header that was read satisfies them, whatever the input was. -/
theorem C06_header_flags (g : LebGen) (h : ObuHeader) (payloadSize : Int) :
    (∀ bs, (h.write payloadSize).eval g = (.ok (), bs) → h.valid = true) ∧
    (∀ (src : List UInt8) (cap : Nat) (pv : Bool) (h' : ObuHeader) (n : Int), 0 < cap → src.length < 4294967295 →
      (ObuHeader.read.run (RBuf.create cap src pv)).1 = .ok (h', n) →
      h'.valid = true ∧ 0 ≤ n) := by
  constructor
  · intro bs hb
    obtain ⟨sz, ok, -⟩ := ObuHeader.write_len hb
    exact ok.valid
  · intro src cap pv h' n hc hs hr
    have := C03_read_buffer_is_cursor ObuHeader.read src cap pv (.inl hc)
    rw [hr] at this
    have hr2 := this.1
    match hx : ObuHeader.read.runA ⟨bytesBits src, 0, pv⟩ with
    | (.ok (h'', n''), s') =>
      simp only [hx] at hr2
      simp only [Except.ok.injEq, Prod.mk.injEq] at hr2
      obtain ⟨rfl, rfl⟩ := hr2
      obtain ⟨_, _, -, -, -, -, e5, -, e7, -⟩ := header_read_ok hx (by simp) (by simp; omega)
      exact ⟨e7, e5⟩
    | (.error e, s') => simp [hx] at hr2

/-! ## C07: peeking -/

theorem lit_valid_irrel {α : Type} (m n : Nat) (k : Nat → Rd α) (s : RS) (v : Bool) (h : n ≤ m) :
    (Rd.lit m n k).runA { s with valid := v } = (Rd.lit m n k).runA s := by
  simp only [Rd.runA, RS.read, RS.rest]
  have h1 : ¬ ((n : Int) > (m : Int)) := by omega
  have h2 : ¬ ((n : Int) < 0) := by omega
  simp only [h1, h2, ↓reduceIte]

/-- **C07.** For every OBU that was written successfully — any header, any payload writer, any footer —
`PeekObuTypeAndTotalObuSize` reports its type and exactly the number of bytes that were written, and
leaves the read position where it was. -/
theorem C07_peek_exact (g : LebGen) (h : ObuHeader) (payload : Wr Unit) (footer bytes trailing : List UInt8)
    (cap : Nat) (pv : Bool) (hc : 0 < cap) (hw : Writes g (wObu h payload footer) bytes) :
    (ObuHeader.peek.run (RBuf.create cap (bytes ++ trailing) pv)).1 = .ok (h.obuType, (bytes.length : Int)) ∧
    (ObuHeader.peek.run (RBuf.create cap (bytes ++ trailing) pv)).2.tell = 0 := by
  obtain ⟨sz, rest, hfit, ht, -, hbd, hl, hshape⟩ := wObu_len hw.eval
  have hpk := runA_peek h.obuType h.redundantCopy h.typeSpecificFlag h.extFlag (g.enc sz) rest ht
    (g.enc_isLeb sz hfit) (by simpa using (g.fits_bounds sz hfit).2.1)
    (by rw [g.enc_val sz hfit]; exact sz.toNat_lt) ⟨bytesBits (bytes ++ trailing), 0, pv⟩ (by simp) (by
      rw [← hshape]
      simp only [RS.rest, List.drop_zero, bytesBits_append]
      exact List.prefix_append _ _)
  have hc3 := C03_read_buffer_is_cursor ObuHeader.peek (bytes ++ trailing) cap pv (.inl hc)
  simp only [hpk] at hc3
  refine ⟨?_, by simpa using hc3.2.1⟩
  rw [hc3.1]
  have h8 := (g.fits_bounds sz hfit).2.1
  rw [bytesBits_length] at hl
  simp only [kEntireObuSizeMaxTwoMegabytes] at hbd
  congr 2
  rw [g.enc_val sz hfit, UInt32.ofNat_toNat, LebGen.enc_length]
  have : (sz + UInt32.ofNat (g.len sz) + 1).toNat = bytes.length := by
    rw [UInt32.toNat_add, UInt32.toNat_add, UInt32.toNat_ofNat', show (1 : UInt32).toNat = 1 from rfl]
    omega
  rw [this]

/-- **C07 (position).** Whatever the input, wherever the cursor is, and whether or not it succeeds,
peeking leaves the position where it was. -/
theorem C07_peek_keeps_position (src : List UInt8) (cap skip : Nat) (pv : Bool) (hc : 0 < cap) (r0 : RBuf)
    (hr0 : r0 = ((rBytes skip).run (RBuf.create cap src pv)).2) :
    (ObuHeader.peek.run r0).2.tell = r0.tell := by
  have hwf0 := RBuf.wf_create cap src pv (.inl hc)
  obtain ⟨-, hwf, -, -⟩ := (rBytes skip).run_refines _ hwf0
  rw [← hr0] at hwf
  obtain ⟨-, hwf', habs, -⟩ := ObuHeader.peek.run_refines r0 hwf
  have htl : r0.abs.pos ≤ r0.abs.src.length := by
    have h1 := r0.tell_le hwf
    have h2 := hwf.srcSize_eq
    have h3 := hwf.tell_nonneg
    simp only [RBuf.abs, bytesBits_length]; omega
  rw [peek_runA _ htl] at habs
  have hk := congrArg RS.pos habs
  have a1 := hwf.tell_nonneg
  have a2 := hwf'.tell_nonneg
  simp only [RBuf.abs] at hk
  omega

/-- **C07 (finding).** For an announced `obu_size` close to 2^32 the reported total wraps around: this
six-byte header announces 4294967295 further bytes, but the total is reported as 5. -/
theorem C07_peek_total_wraps :
    (ObuHeader.peek.run (RBuf.create 6 [0xf8, 0xff, 0xff, 0xff, 0xff, 0x0f] true)).1 = .ok (31, 5) := by
  decide +kernel

/-- **C07 (arbitrary input).** If a whole OBU of any kind can be read from some input of less than 4 GiB,
then peeking at the same place reports its type and exactly the number of bytes the read consumed. -/
theorem C07_peek_agrees_with_read {α : Type} (derived : ObuHeader → Int → Rd α) (src : List UInt8)
    (cap : Nat) (pv : Bool) (hc : 0 < cap) (hs : src.length < 4294967295) (h : ObuHeader) (a : α) (footer : List UInt8)
    (hr : ((rObu derived).run (RBuf.create cap src pv)).1 = .ok (h, a, footer)) :
    ∃ n : Nat, (ObuHeader.peek.run (RBuf.create cap src pv)).1 = .ok (h.obuType, (n : Int)) ∧
      ((rObu derived).run (RBuf.create cap src pv)).2.tell = 8 * n ∧ n ≤ kEntireObuSizeMaxTwoMegabytes := by
  have h1 := C03_read_buffer_is_cursor (rObu derived) src cap pv (.inl hc)
  have h2 := C03_read_buffer_is_cursor ObuHeader.peek src cap pv (.inl hc)
  rw [hr] at h1
  match hx : (rObu derived).runA ⟨bytesBits src, 0, pv⟩ with
  | (.error e, s') => simp [hx] at h1
  | (.ok r, s') =>
    simp only [hx, Except.ok.injEq] at h1
    obtain ⟨e1, e2, -⟩ := h1
    subst e1
    unfold rObu at hx
    obtain ⟨hs1, s1, k1, hx⟩ := Rd.runA_bind_ok hx
    obtain ⟨af, s2, k2, hx⟩ := Rd.runA_bind_ok hx
    simp only [Rd.pure_eq, Rd.runA_ret, Prod.mk.injEq, Except.ok.injEq] at hx
    obtain ⟨⟨rfl, rfl, rfl⟩, rfl⟩ := hx
    obtain ⟨sz, n, hn8, hfill, hbd, hsrc, hnn, hpos, -, -⟩ := header_read_ok k1 (by simp) (by simp; omega)
    have hin1 := Rd.runA_inside ObuHeader.read ⟨bytesBits src, 0, pv⟩ (by simp)
    rw [k1] at hin1
    obtain ⟨p1, p2⟩ := obuPayload_ok k2 hin1.1
    refine ⟨1 + n + sz.toNat, ?_, ?_, ?_⟩
    · rw [h2.1, peek_runA _ (by simp)]
      have hfv : ObuHeader.fillMetadata.runA ⟨bytesBits src, 0, true⟩ =
          ObuHeader.fillMetadata.runA ⟨bytesBits src, 0, pv⟩ := by
        exact lit_valid_irrel 64 5 _ ⟨bytesBits src, 0, pv⟩ true (by omega)
      simp only
      rw [hfv, hfill]
      simp only [kEntireObuSizeMaxTwoMegabytes] at hbd
      have hsum : (sz + UInt32.ofNat n + 1).toNat = 1 + n + sz.toNat := by
        rw [UInt32.toNat_add, UInt32.toNat_add, UInt32.toNat_ofNat', show (1 : UInt32).toNat = 1 from rfl]
        omega
      rw [hsum]
    · rw [e2]
      have hpos' : (s1.pos : Int) + 8 * hs1.2 = 0 + 8 * (1 + n + sz.toNat) := hpos
      push_cast; omega
    · simp only [kEntireObuSizeMaxTwoMegabytes] at hbd ⊢; omega

/-! ## C14: unknown trailing bytes -/

/-- **C14 (position).** Whatever the input and whatever the payload reader of an OBU class does, a
successful `ReadAndValidatePayload` ends exactly `payload_size` bytes after where it started, so the next
OBU is found where `obu_size` says; in particular a payload reader that runs past the end is an error. -/
theorem C14_payload_ends_at_obu_size {α : Type} (derived : Int → Rd α) (n : Int) (src : List UInt8)
    (cap : Nat) (pv : Bool) (hc : 0 < cap) (a : α) (footer : List UInt8)
    (hr : ((rObuPayload derived n).run (RBuf.create cap src pv)).1 = .ok (a, footer)) :
    ((rObuPayload derived n).run (RBuf.create cap src pv)).2.tell = 8 * n := by
  have h1 := C03_read_buffer_is_cursor (rObuPayload derived n) src cap pv (.inl hc)
  rw [hr] at h1
  match hx : (rObuPayload derived n).runA ⟨bytesBits src, 0, pv⟩ with
  | (.error e, s') => simp [hx] at h1
  | (.ok r, s') =>
    simp only [hx, Except.ok.injEq] at h1
    obtain ⟨p1, -⟩ := obuPayload_ok hx (by simp)
    rw [h1.2.1]
    simp only at p1
    omega

/-- Writing does not depend on trimming counts that are not transmitted. -/
theorem wObu_normalized (h : ObuHeader) (payload : Wr Unit) (footer : List UInt8) :
    wObu h.normalized payload footer = wObu h payload footer := by
  unfold ObuHeader.normalized
  split
  · rfl
  next hf =>
    have e1 : ({ h with trimEnd := 0, trimStart := 0 } : ObuHeader).wFieldsAfterSize = h.wFieldsAfterSize := by
      unfold ObuHeader.wFieldsAfterSize
      have : ({ h with trimEnd := 0, trimStart := 0 } : ObuHeader).trimFlag = h.trimFlag := rfl
      rw [this]
      simp only [hf]
      rfl
    unfold wObu ObuHeader.write ObuHeader.wObuSizeAndValidate
    rw [e1]
    rfl

/-- **C14 (footer).** For every OBU class whose payload reader inverts its payload writer: bytes that
follow the known payload inside `obu_size` are returned as the footer, and writing what was read
reproduces the same bytes, footer included. -/
theorem C14_footer_preserved {α : Type} (g : LebGen) (h : ObuHeader) (payload : α → Wr Unit)
    (derived : ObuHeader → Int → Rd α) (a : α) (footer bytes : List UInt8)
    (hrt : RTPayload g (payload a) (derived h.normalized) footer a)
    (hw : Writes g (wObu h (payload a) footer) bytes) :
    ∃ h', ReadsBack (rObu derived) bytes (h', a, footer) ∧ Writes g (wObu h' (payload a) footer) bytes :=
  ⟨h.normalized, ReadsBack.of_rt (rt_obu g h (payload a) footer derived a hrt) hw, by
    rw [wObu_normalized]; exact hw⟩

/-- Not vacuous: a payload of one byte, with a two-byte footer. -/
example : RTPayload .minimum (wU8 0x17 8) (fun _ => rU8 8) [0xaa, 0xbb] 0x17 :=
  fun bs hb _ _ => rt_U8 .minimum 0x17 8 (by omega) (by omega) bs hb
example : Writes .minimum (wObu ⟨24, true, false, 0, 0, none⟩ (wU8 0x17 8) [0xaa, 0xbb]) [0xc4, 3, 0x17, 0xaa, 0xbb] :=
  ⟨⟨.minimum, [0xc4, 3, 0x17, 0xaa, 0xbb], 40⟩, by decide +kernel, rfl, rfl⟩

/-! ## C17: the 2 MiB limit -/

/-- **C17.** Every OBU that is written successfully — any header, payload writer, footer and leb
generator — occupies at most 2^21 bytes including its header, and the bytes after the size field are
exactly `obu_size ≤ 2^21 - 1 - (bytes of the size field)`. -/
theorem C17_obu_at_most_two_megabytes (g : LebGen) (h : ObuHeader) (payload : Wr Unit) (footer bytes : List UInt8)
    (hw : Writes g (wObu h payload footer) bytes) :
    bytes.length ≤ 2 ^ 21 ∧
    ∃ (b0 : UInt8) (sizeField rest : List UInt8), bytes = b0 :: (sizeField ++ rest) ∧ IsLeb sizeField ∧
      ulebVal sizeField = rest.length ∧ rest.length ≤ 2 ^ 21 - 1 - sizeField.length := by
  obtain ⟨sz, rest, hfit, ht, -, hbd, hl, hshape⟩ := wObu_len hw.eval
  have h8 := (g.fits_bounds sz hfit).2.1
  simp only [kEntireObuSizeMaxTwoMegabytes] at hbd
  rw [bytesBits_length] at hl
  refine ⟨by omega, ?_⟩
  match hb : bytes with
  | [] => simp at hl; omega
  | b0 :: tl =>
    refine ⟨b0, g.enc sz, tl.drop (g.len sz), ?_, g.enc_isLeb sz hfit, ?_, ?_⟩
    · have e0 : bytesBits tl = bytesBits (g.enc sz) ++ rest := by
        have e1 : bytesBits (b0 :: tl) = (natBits 5 h.obuType.toNat ++ [h.redundantCopy] ++ [h.typeSpecificFlag] ++
            [h.extFlag]) ++ (bytesBits (g.enc sz) ++ rest) := by rw [hshape]; simp
        rw [bytesBits_cons] at e1
        exact (List.append_inj e1 (by simp)).2
      have e2 := bytesBits_take tl (g.len sz)
      rw [e0, List.take_left' (by simp)] at e2
      rw [bytesBits_inj e2, List.take_append_drop]
    · rw [g.enc_val sz hfit, List.length_drop]
      simp only [List.length_cons] at hl
      omega
    · rw [List.length_drop, LebGen.enc_length]
      simp only [List.length_cons] at hl
      omega

end Iamf.Props
