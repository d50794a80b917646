import Verif.Obu.Logic
import Verif.Obu.Inv
/-
  A written OBU inside a stream: what peeking and reading its header give, and what is left for its payload.
-/
namespace Iamf

/-- The parts of a written OBU. -/
theorem wObu_parts {g : LebGen} {h : ObuHeader} {payload : Wr Unit} {footer : List UInt8} {bs : Bits}
    (hb : (wObu h payload footer).eval g = (.ok (), bs)) :
    ∃ c1 pb, payload.eval g = (.ok (), pb) ∧ pb.length % 8 = 0 ∧ pb.length ≤ 8 * 2097152 ∧ bs = c1 ++ (pb ++ bytesBits footer) ∧
      Reads ObuHeader.read c1 (h.normalized, ((pb.length / 8 + footer.length : Nat) : Int)) := by
  obtain ⟨sz, rest, hfit, -, -, hbd, hl, -⟩ := wObu_len hb
  have h8 := (g.fits_bounds sz hfit).2.1
  simp only [kEntireObuSizeMaxTwoMegabytes] at hbd
  unfold wObu at hb
  obtain ⟨tmp, htmp, hb⟩ := Wr.sub_bind_ok hb
  obtain ⟨hal, hb⟩ := Wr.check_bind_ok hb
  rw [WBuf.isByteAligned_iff] at hal
  have hev := htmp.eval
  rw [Wr.eval_bind_ok] at hev
  obtain ⟨_, b1, b2, e1, e2, hbits⟩ := hev
  have := wBytes_ok e2
  subst this
  have hoff := htmp.off
  have htight := htmp.wf.tight
  have hl1 : b1.length + 8 * footer.length = tmp.off := by
    rw [← hoff, hbits, List.length_append, bytesBits_length]
  have hlen : tmp.bytes.length = b1.length / 8 + footer.length := by omega
  rw [Wr.bind_eq, Wr.eval_bind_ok] at hb
  obtain ⟨_, c1, c2, d1, d2, rfl⟩ := hb
  have := wBytes_ok d2
  subst this
  rw [List.length_append, bytesBits_length] at hl
  refine ⟨c1, b1, e1, by omega, by omega, ?_, ?_⟩
  · rw [htmp.bytes_of_aligned hal, hbits]
  · have := ObuHeader.rt g h _ c1 d1
    rw [hlen] at this
    exact this

/-- Peeking at a written OBU. -/
theorem wObu_peek {g : LebGen} {h : ObuHeader} {payload : Wr Unit} {footer : List UInt8} {bs : Bits}
    (hb : (wObu h payload footer).eval g = (.ok (), bs)) (s : RS) (hp : s.pos ≤ s.src.length) (hs : bs <+: s.rest) :
    (ObuHeader.fillMetadata.runA s).1 = .ok (h.obuType, ((bs.length / 8 : Nat) : Int)) := by
  obtain ⟨sz, rest, hfit, ht, -, hbd, hl, hshape⟩ := wObu_len hb
  obtain ⟨v, hpk, -⟩ := reads_fillMetadata h.obuType h.redundantCopy h.typeSpecificFlag h.extFlag (g.enc sz) rest ht
    (g.enc_isLeb sz hfit) (by simpa using (g.fits_bounds sz hfit).2.1)
    (by rw [g.enc_val sz hfit]; exact sz.toNat_lt) s hp (by rw [← hshape]; exact hs)
  rw [hpk]
  have h8 := (g.fits_bounds sz hfit).2.1
  simp only [kEntireObuSizeMaxTwoMegabytes] at hbd
  simp only
  rw [g.enc_val sz hfit, UInt32.ofNat_toNat, LebGen.enc_length]
  have : (sz + UInt32.ofNat (g.len sz) + 1).toNat = bs.length / 8 := by
    rw [UInt32.toNat_add, UInt32.toNat_add, UInt32.toNat_ofNat', show (1 : UInt32).toNat = 1 from rfl]
    omega
  rw [this]

theorem wObu_pos {g : LebGen} {h : ObuHeader} {payload : Wr Unit} {footer : List UInt8} {bs : Bits}
    (hb : (wObu h payload footer).eval g = (.ok (), bs)) : 16 ≤ bs.length := by
  obtain ⟨sz, rest, hfit, -, -, hbd, hl, -⟩ := wObu_len hb
  have := (g.fits_bounds sz hfit).1
  omega

/-- Peeking at the beginning of a written OBU: the whole metadata is there, or the data is exhausted. -/
theorem wObu_peek_prefix {g : LebGen} {h : ObuHeader} {payload : Wr Unit} {footer : List UInt8} {bs : Bits}
    (hb : (wObu h payload footer).eval g = (.ok (), bs)) (s : RS) (hp : s.pos ≤ s.src.length) (hs : s.rest <+: bs) :
    (ObuHeader.fillMetadata.runA s).1 = .ok (h.obuType, ((bs.length / 8 : Nat) : Int)) ∨
    (ObuHeader.fillMetadata.runA s).1 = .error .resourceExhausted := by
  obtain ⟨t, ht⟩ := hs
  have hst := stable_fillMetadata s t hp
  have hrest : (s.ext t).rest = bs := by
    simp only [RS.ext, RS.rest] at ht ⊢
    rw [List.drop_append_of_le_length hp]
    exact ht
  have hfull := wObu_peek hb (s.ext t) (by simp only [RS.ext, List.length_append]; omega) (by rw [hrest]; exact List.prefix_rfl)
  match hx : ObuHeader.fillMetadata.runA s with
  | (.ok a, s') =>
    rw [hx] at hst
    simp only at hst
    rw [hst] at hfull
    exact .inl hfull
  | (.error e, s') =>
    rw [hx] at hst
    rcases hst with rfl | hst
    · exact .inr rfl
    · rw [hst] at hfull
      simp at hfull

/-- Reading the payload of a written OBU. -/
theorem payload_read {α : Type} {derived : Int → Rd α} {pb : Bits} {footer : List UInt8} {a : α} (hal : pb.length % 8 = 0)
    (hr : Reads (derived ((pb.length / 8 + footer.length : Nat) : Int)) pb a) (s : RS) (hv : s.valid = true)
    (hp : s.pos ≤ s.src.length) (hs : pb ++ bytesBits footer <+: s.rest) :
    (rObuPayload derived ((pb.length / 8 + footer.length : Nat) : Int)).runA s =
      (.ok (a, footer), ⟨s.src, s.pos + (pb ++ bytesBits footer).length, true⟩) := by
  obtain ⟨v, e, m⟩ := reads_obuPayload hal hr s hp hs
  rw [e, m hv]

end Iamf
