import Verif.Obu.Header
/-
  Lemmas about the OBU header and OBU framing.
-/
namespace Iamf

/-- Invert a successful `Wr.check`. -/
theorem Wr.check_bind_ok {β : Type} {g : LebGen} {c : Bool} {e : Err} {f : Unit → Wr β} {b : β} {bs : Bits}
    (h : ((Wr.check c e).bind f).eval g = (.ok b, bs)) : c = true ∧ (f ()).eval g = (.ok b, bs) := by
  cases c
  · simp [Wr.check, Wr.bind] at h
  · exact ⟨rfl, h⟩

theorem Wr.status_bind_ok {β : Type} {g : LebGen} {s : Except Err Unit} {f : Unit → Wr β} {b : β} {bs : Bits}
    (h : ((Wr.status s).bind f).eval g = (.ok b, bs)) : s = .ok () ∧ (f ()).eval g = (.ok b, bs) := by
  match s with
  | .ok () => exact ⟨rfl, h⟩
  | .error e => simp [Wr.status, Wr.bind] at h

theorem Wr.sub_bind_ok {β : Type} {g : LebGen} {p : Wr Unit} {f : WBuf → Wr β} {b : β} {bs : Bits}
    (h : ((Wr.sub p).bind f).eval g = (.ok b, bs)) : ∃ w, SubOk g p w ∧ (f w).eval g = (.ok b, bs) := by
  rw [Wr.eval_bind_ok] at h
  obtain ⟨w, b1, b2, h1, h2, rfl⟩ := h
  obtain ⟨hs, rfl⟩ := Wr.sub_ok h1
  exact ⟨w, hs, h2⟩

theorem wUleb_ok {g : LebGen} {v : UInt32} {bs : Bits} (h : (wUleb v).eval g = (.ok (), bs)) :
    g.fits v ∧ bs = bytesBits (g.enc v) := by
  rw [eval_wUleb] at h
  split at h
  next hf => simp only [Prod.mk.injEq, true_and] at h; exact ⟨hf, h.symm⟩
  next => simp at h

theorem wBytes_ok {g : LebGen} {l : List UInt8} {bs : Bits} (h : (wBytes l).eval g = (.ok (), bs)) :
    bs = bytesBits l := by
  rw [eval_wBytes] at h
  simp only [Prod.mk.injEq, true_and] at h
  exact h.symm

namespace ObuHeader

/-- Number of bytes between `obu_size` and the payload. -/
def afterLen (g : LebGen) (h : ObuHeader) : Nat :=
  (if h.trimFlag = true then g.len h.trimEnd + g.len h.trimStart else 0) +
  (match h.ext with | some l => g.len h.extSize + l.length | none => 0)

theorem wFieldsAfterSize_len (g : LebGen) (h : ObuHeader) (bs : Bits)
    (hb : h.wFieldsAfterSize.eval g = (.ok (), bs)) : bs.length = 8 * h.afterLen g := by
  simp only [wFieldsAfterSize, Wr.bind_eq, Wr.pure_eq] at hb
  rw [Wr.eval_bind_ok] at hb
  obtain ⟨_, b1, b2, h1, h2, rfl⟩ := hb
  have e1 : b1.length = 8 * (if h.trimFlag = true then g.len h.trimEnd + g.len h.trimStart else 0) := by
    by_cases ht : h.trimFlag = true
    · simp only [ht, ↓reduceIte] at h1 ⊢
      rw [Wr.eval_bind_ok] at h1
      obtain ⟨_, c1, c2, k1, k2, rfl⟩ := h1
      obtain ⟨-, rfl⟩ := wUleb_ok k1
      obtain ⟨-, rfl⟩ := wUleb_ok k2
      simp; omega
    · simp only [ht] at h1 ⊢
      simp at h1
      simp [h1]
  have e2 : b2.length = 8 * (match h.ext with | some l => g.len h.extSize + l.length | none => 0) := by
    cases hx : h.ext with
    | none => rw [hx] at h2; simp at h2; simp [h2]
    | some l =>
      rw [hx] at h2
      simp only at h2
      rw [Wr.eval_bind_ok] at h2
      obtain ⟨_, c1, c2, k1, k2, rfl⟩ := h2
      obtain ⟨-, rfl⟩ := wUleb_ok k1
      have := wBytes_ok k2
      subst this
      simp; omega
  rw [List.length_append, e1, e2]
  unfold afterLen
  omega

/-- Everything the size computation guarantees when it succeeds. -/
structure SizeOk (g : LebGen) (h : ObuHeader) (payloadSize : Int) (obuSize : UInt32) : Prop where
  nonneg : 0 ≤ payloadSize
  sum : (obuSize.toNat : Int) = h.afterLen g + payloadSize
  fits : g.fits obuSize
  bound : obuSize.toNat ≤ kEntireObuSizeMaxTwoMegabytes - 1 - g.len obuSize
  valid : h.valid = true

theorem wObuSizeAndValidate_ok {g : LebGen} {h : ObuHeader} {p : Int} {sz : UInt32} {bs : Bits}
    (hb : (h.wObuSizeAndValidate p).eval g = (.ok sz, bs)) : SizeOk g h p sz ∧ bs = [] := by
  simp only [wObuSizeAndValidate, Wr.bind_eq, Wr.pure_eq] at hb
  obtain ⟨hr, hb⟩ := Wr.check_bind_ok hb
  obtain ⟨after, hafter, hb⟩ := Wr.sub_bind_ok hb
  obtain ⟨hal, hb⟩ := Wr.check_bind_ok hb
  simp only [Bool.not_eq_true', Bool.or_eq_false_iff, decide_eq_false_iff_not] at hr
  simp only [Bool.and_eq_true, decide_eq_true_eq, WBuf.isByteAligned_iff] at hal
  have hlen := wFieldsAfterSize_len g h _ hafter.eval
  have hoff := hafter.off
  have htight := hafter.wf.tight
  have hal2 : after.bytes.length = h.afterLen g := by omega
  unfold addUint32CheckOverflow at hb
  have t1 : (UInt32.ofNat after.bytes.length).toNat = after.bytes.length := by
    rw [UInt32.toNat_ofNat']; omega
  have t2 : (UInt32.ofNat p.toNat).toNat = p.toNat := by
    rw [UInt32.toNat_ofNat']; omega
  rw [t1, t2] at hb
  by_cases hov : after.bytes.length + p.toNat > 4294967295
  · rw [if_pos hov] at hb; simp at hb
  · rw [if_neg hov] at hb
    simp only at hb
    obtain ⟨so, hso, hb⟩ := Wr.sub_bind_ok hb
    obtain ⟨hst, hb⟩ := Wr.status_bind_ok hb
    obtain ⟨hv, hb⟩ := Wr.check_bind_ok hb
    simp only [Wr.eval_ret, Prod.mk.injEq, Except.ok.injEq] at hb
    obtain ⟨rfl, rfl⟩ := hb
    obtain ⟨hfit, hsobits⟩ := wUleb_ok hso.eval
    have hsl : so.bytes.length = g.len (UInt32.ofNat (after.bytes.length + p.toNat)) := by
      have a1 := hso.off
      have a2 := hso.wf.tight
      rw [hsobits, bytesBits_length, LebGen.enc_length] at a1
      omega
    have t3 : (UInt32.ofNat (after.bytes.length + p.toNat)).toNat = after.bytes.length + p.toNat := by
      rw [UInt32.toNat_ofNat']; omega
    refine ⟨⟨by omega, by rw [t3]; omega, hfit, ?_, hv⟩, rfl⟩
    unfold validateUnderTwoMb at hst
    rw [hsl] at hst
    split at hst
    · simp at hst
    · split at hst
      · simp at hst
      · omega

theorem valid_normalized (h : ObuHeader) (hv : h.valid = true) : h.normalized.valid = true := by
  unfold normalized; split
  · exact hv
  · exact hv

theorem with_ext (h : ObuHeader) (x : Option (List UInt8)) (e : h.ext = x) : { h with ext := x } = h := by
  subst e; rfl

theorem normalized_ext (h : ObuHeader) : h.normalized.ext = h.ext := by
  unfold normalized; split <;> rfl

private theorem u64u8 (d : UInt8) : d.toUInt64.toUInt8 = d := by
  apply UInt8.toNat_inj.mp
  simp

/-- **Round trip of the OBU header.** -/
theorem rt (g : LebGen) (h : ObuHeader) (payloadSize : Int) :
    RT g (h.write payloadSize) ObuHeader.read (h.normalized, payloadSize) := by
  intro bs hb
  simp only [write, Wr.bind_eq] at hb
  rw [Wr.eval_bind_ok] at hb
  obtain ⟨sz, b0, bs, hsz, hb, rfl⟩ := hb
  obtain ⟨ok, rfl⟩ := wObuSizeAndValidate_ok hsz
  rw [List.nil_append]
  revert bs
  show RT g _ _ _
  simp only [read, Rd.bind_eq, Rd.pure_eq]
  refine (rt_U8_U64 g h.obuType 5 (by omega) (by omega)).seq ?_
  refine (rt_Bool g h.redundantCopy).seq ?_
  refine (rt_Bool g h.typeSpecificFlag).seq ?_
  refine (rt_Bool g h.extFlag).seq ?_
  refine (rt_UlebSize g sz).seq ?_
  have hst : validateUnderTwoMb sz (g.len sz) = .ok () := by
    unfold validateUnderTwoMb
    have := (g.fits_bounds sz ok.fits).2.1
    rw [if_neg (by unfold kMaxLeb128Size; omega), if_neg (by have := ok.bound; omega)]
  simp only [hst, Rd.status, Rd.bind, u64u8]
  have hflag : (ObuHeader.mk h.obuType h.redundantCopy h.typeSpecificFlag 0 0 none).trimFlag = h.trimFlag := rfl
  rw [hflag]
  simp only [wFieldsAfterSize, Wr.bind_eq, Wr.pure_eq]
  refine RT.seq (a := if h.trimFlag = true then ((h.trimEnd, g.len h.trimEnd), (h.trimStart, g.len h.trimStart))
      else ((0, 0), (0, 0))) ?_ ?_
  · by_cases ht : h.trimFlag = true
    · simp only [ht, ↓reduceIte]
      exact (rt_UlebSize g h.trimEnd).seq ((rt_UlebSize g h.trimStart).map rfl)
    · simp only [ht]
      exact RT.ret g _
  · have hsum := ok.sum
    have hnn := ok.nonneg
    have hbd := ok.bound
    have hlt := sz.toNat_lt
    simp only [kEntireObuSizeMaxTwoMegabytes] at hbd
    unfold afterLen at hsum
    -- the trimming sizes
    generalize htr : (if h.trimFlag = true then ((h.trimEnd, g.len h.trimEnd), (h.trimStart, g.len h.trimStart))
      else ((0, 0), (0, 0)) : (UInt32 × Nat) × UInt32 × Nat) = trims
    have htr2 : trims.1.2 + trims.2.2 = (if h.trimFlag = true then g.len h.trimEnd + g.len h.trimStart else 0) := by
      rw [← htr]; split <;> rfl
    have hnorm : ∀ x, (ObuHeader.mk h.obuType h.redundantCopy h.typeSpecificFlag trims.1.1 trims.2.1 x) =
        { h.normalized with ext := x } := by
      intro x
      unfold normalized
      rw [← htr]
      split <;> rfl
    rw [← htr2] at hsum
    cases hx : h.ext with
    | none =>
      have hef : h.extFlag = false := by simp [extFlag, hx]
      simp only [hef, Bool.false_eq_true, ↓reduceIte, Rd.bind]
      rw [hx] at hsum
      simp only at hsum
      have hp : payloadSizeOf sz trims.1.2 trims.2.2 0 0 = payloadSize := by
        unfold payloadSizeOf
        rw [UInt32.toNat_add, UInt32.toNat_ofNat', show (0 : UInt32).toNat = 0 from rfl]
        have : trims.1.2 + trims.2.2 < 4294967296 := by omega
        omega
      rw [hp]
      have hch : (!decide (payloadSize < 0)) = true := by simp; omega
      rw [hch]
      simp only [Rd.check, ↓reduceIte, Rd.bind]
      have hn2 : ({ h.normalized with ext := none } : ObuHeader) = h.normalized := by
        exact with_ext _ _ (by rw [normalized_ext, hx])
      rw [hnorm none, hn2, valid_normalized h ok.valid]
      exact RT.ret g _
    | some l =>
      have hef : h.extFlag = true := by simp [extFlag, hx]
      simp only [hef, ↓reduceIte]
      rw [hx] at hsum
      simp only at hsum
      refine (rt_UlebSize g h.extSize).seq ?_
      have hes : h.extSize.toNat = l.length := by
        unfold extSize; rw [hx]; simp only [UInt32.toNat_ofNat']; omega
      have hp : payloadSizeOf sz trims.1.2 trims.2.2 (g.len h.extSize) h.extSize = payloadSize := by
        unfold payloadSizeOf
        rw [UInt32.toNat_add, UInt32.toNat_ofNat', hes]
        omega
      rw [hp]
      have hch : (!decide (payloadSize < 0)) = true := by simp; omega
      rw [hch]
      simp only [Rd.check, ↓reduceIte, Rd.bind, hes]
      have hn2 : ({ h.normalized with ext := some l } : ObuHeader) = h.normalized := by
        exact with_ext _ _ (by rw [normalized_ext, hx])
      refine RT.map (a := some l) ?_ ?_
      · exact (rt_Bytes g l).map rfl
      · rw [hnorm (some l), hn2, valid_normalized h ok.valid]
        rfl

/-- The header is a whole number of bytes, and together with the payload it stays below two megabytes. -/
theorem write_len {g : LebGen} {h : ObuHeader} {p : Int} {bs : Bits} (hb : (h.write p).eval g = (.ok (), bs)) :
    ∃ sz : UInt32, SizeOk g h p sz ∧ bs.length = 8 * (1 + g.len sz + h.afterLen g) ∧
      ∃ rest, bs = natBits 5 h.obuType.toNat ++ ([h.redundantCopy] ++ ([h.typeSpecificFlag] ++ ([h.extFlag] ++
        (bytesBits (g.enc sz) ++ rest)))) ∧ h.obuType.toNat < 32 := by
  simp only [write, Wr.bind_eq] at hb
  rw [Wr.eval_bind_ok] at hb
  obtain ⟨sz, b0, bs, hsz, hb, rfl⟩ := hb
  obtain ⟨ok, rfl⟩ := wObuSizeAndValidate_ok hsz
  refine ⟨sz, ok, ?_⟩
  rw [Wr.eval_bind_ok] at hb
  obtain ⟨_, c1, d1, k1, hb, rfl⟩ := hb
  rw [Wr.eval_bind_ok] at hb
  obtain ⟨_, c2, d2, k2, hb, rfl⟩ := hb
  rw [Wr.eval_bind_ok] at hb
  obtain ⟨_, c3, d3, k3, hb, rfl⟩ := hb
  rw [Wr.eval_bind_ok] at hb
  obtain ⟨_, c4, d4, k4, hb, rfl⟩ := hb
  rw [Wr.eval_bind_ok] at hb
  obtain ⟨_, c5, d5, k5, hb, rfl⟩ := hb
  obtain ⟨-, rfl⟩ := wUleb_ok k5
  rw [eval_wBool] at k2 k3 k4
  simp only [Prod.mk.injEq, true_and] at k2 k3 k4
  have k1' := (eval_wU8 g h.obuType 5 (by omega) (by omega)).symm.trans k1
  have hl := wFieldsAfterSize_len g h _ hb
  split at k1'
  next ht =>
    simp only [Prod.mk.injEq, true_and] at k1'
    subst k2 k3 k4 k1'
    refine ⟨?_, d5, ?_, ht⟩
    · simp [hl]; omega
    · simp
  next => simp at k1'

end ObuHeader

/-! ### Whole OBUs -/

/-- A payload round trip: whatever bits the payload writer emits, the derived reader, told the size of
payload and footer in bytes, recovers `a` and consumes exactly the payload bits.  Only payloads that fit
into an OBU (2 MiB) matter. -/
def RTPayload {α : Type} (g : LebGen) (payload : Wr Unit) (derived : Int → Rd α) (footer : List UInt8) (a : α) : Prop :=
  ∀ bs, payload.eval g = (.ok (), bs) → bs.length % 8 = 0 → bs.length ≤ 8 * 2097152 →
    Reads (derived ((bs.length / 8 + footer.length : Nat) : Int)) bs a

theorem reads_obuPayload {α : Type} {derived : Int → Rd α} {bs : Bits} {footer : List UInt8} {a : α}
    (hal : bs.length % 8 = 0)
    (hr : Reads (derived ((bs.length / 8 + footer.length : Nat) : Int)) bs a) :
    Reads (rObuPayload derived ((bs.length / 8 + footer.length : Nat) : Int))
      (bs ++ bytesBits footer) (a, footer) := by
  intro s hp hs
  unfold rObuPayload
  simp only [Rd.runA]
  rw [Rd.runA_bind]
  obtain ⟨v1, e1, m1⟩ := hr { s with valid := true } hp ((List.prefix_append _ _).trans hs)
  rw [e1]
  simp only [Rd.runA]
  obtain ⟨hr2, hl2⟩ := rest_after s bs (bytesBits footer) hs hp true
  have hexp : (s.pos : Int) + ((bs.length / 8 + footer.length : Nat) : Int) * 8 =
      ((s.pos + bs.length : Nat) : Int) + 8 * footer.length := by omega
  rw [hexp]
  by_cases hf : footer = []
  · subst hf
    rw [if_pos (by simp)]
    exact ⟨true, by simp, fun _ => rfl⟩
  · have hfl : 0 < footer.length := List.length_pos_iff.mpr hf
    rw [if_neg (by omega), if_pos (by omega), if_neg (by omega)]
    have hn : ((((s.pos + bs.length : Nat) : Int) + 8 * footer.length - ((s.pos + bs.length : Nat) : Int)) / 8).toNat
        = footer.length := by omega
    rw [hn]
    have hb := (reads_bytes footer).bind (f := fun footer => Rd.ret (a, footer)) (Reads.ret (a, footer))
    rw [List.append_nil] at hb
    obtain ⟨v2, e2, m2⟩ := hb ⟨s.src, s.pos + bs.length, true⟩ hl2 hr2
    exact ⟨v2, by rw [e2]; simp [Nat.add_assoc], fun _ => m2 rfl⟩

/-- Shape of a successfully written OBU. -/
theorem wObu_len {g : LebGen} {h : ObuHeader} {payload : Wr Unit} {footer : List UInt8} {bs : Bits}
    (hb : (wObu h payload footer).eval g = (.ok (), bs)) :
    ∃ (sz : UInt32) (rest : Bits), g.fits sz ∧ h.obuType.toNat < 32 ∧ h.valid = true ∧
      sz.toNat ≤ kEntireObuSizeMaxTwoMegabytes - 1 - g.len sz ∧
      bs.length = 8 * (1 + g.len sz + sz.toNat) ∧
      bs = natBits 5 h.obuType.toNat ++ ([h.redundantCopy] ++ ([h.typeSpecificFlag] ++ ([h.extFlag] ++
        (bytesBits (g.enc sz) ++ rest)))) := by
  unfold wObu at hb
  obtain ⟨tmp, htmp, hb⟩ := Wr.sub_bind_ok hb
  obtain ⟨hal, hb⟩ := Wr.check_bind_ok hb
  rw [WBuf.isByteAligned_iff] at hal
  rw [Wr.bind_eq, Wr.eval_bind_ok] at hb
  obtain ⟨_, b1, b2, e1, e2, rfl⟩ := hb
  obtain ⟨sz, ok, hl, rest, hshape, ht⟩ := ObuHeader.write_len e1
  have := wBytes_ok e2
  subst this
  refine ⟨sz, rest ++ bytesBits tmp.bytes, ok.fits, ht, ok.valid, ok.bound, ?_, ?_⟩
  · rw [List.length_append, hl, bytesBits_length]
    have := ok.sum
    omega
  · rw [hshape]; simp

/-- **Round trip of a whole OBU**, generic in the payload. -/
theorem rt_obu {α : Type} (g : LebGen) (h : ObuHeader) (payload : Wr Unit) (footer : List UInt8)
    (derived : ObuHeader → Int → Rd α) (a : α)
    (hp : RTPayload g payload (derived h.normalized) footer a) :
    RT g (wObu h payload footer) (rObu derived) (h.normalized, a, footer) := by
  intro bs hb
  obtain ⟨sz, rest, hfit, -, -, hbd, hl, -⟩ := wObu_len hb
  have h8 := (g.fits_bounds sz hfit).2.1
  simp only [kEntireObuSizeMaxTwoMegabytes] at hbd
  unfold wObu at hb
  obtain ⟨tmp, htmp, hb⟩ := Wr.sub_bind_ok hb
  obtain ⟨hal, hb⟩ := Wr.check_bind_ok hb
  rw [WBuf.isByteAligned_iff] at hal
  have hev := htmp.eval
  rw [Wr.eval_bind_ok] at hev
  obtain ⟨_, b1, b2, e1, e2, hbits⟩ := hev
  have := wBytes_ok e2
  subst this
  have hoff := htmp.off
  have htight := htmp.wf.tight
  have hl1 : b1.length + 8 * footer.length = tmp.off := by
    rw [← hoff, hbits, List.length_append, bytesBits_length]
  have hlen : tmp.bytes.length = b1.length / 8 + footer.length := by omega
  rw [Wr.bind_eq, Wr.eval_bind_ok] at hb
  obtain ⟨_, c1, c2, d1, d2, rfl⟩ := hb
  have := wBytes_ok d2
  subst this
  rw [List.length_append, bytesBits_length] at hl
  unfold rObu
  refine (ObuHeader.rt g h _ c1 d1).bind ?_
  rw [htmp.bytes_of_aligned hal, hbits]
  have h1 := reads_obuPayload (by omega) (hp b1 e1 (by omega) (by omega))
  rw [hlen]
  have := h1.bind (f := fun af => Rd.ret (h.normalized, af.1, af.2)) (Reads.ret _)
  rw [List.append_nil] at this
  exact this

/-- Every OBU is written as whole bytes. -/
theorem wObu_aligned {g : LebGen} {h : ObuHeader} {payload : Wr Unit} {footer : List UInt8} {bs : Bits}
    (hb : (wObu h payload footer).eval g = (.ok (), bs)) : bs.length % 8 = 0 := by
  obtain ⟨sz, rest, -, -, -, -, hl, -⟩ := wObu_len hb
  omega

/-! ### Peeking -/

theorem reads_fillMetadata (t : UInt8) (a b c : Bool) (l : List UInt8) (rest : Bits) (ht : t.toNat < 32)
    (hl : IsLeb l) (h8 : l.length ≤ 8) (hv : ulebVal l < 2 ^ 32) (s : RS) (hp : s.pos ≤ s.src.length)
    (hs : natBits 5 t.toNat ++ ([a] ++ ([b] ++ ([c] ++ (bytesBits l ++ rest)))) <+: s.rest) :
    ∃ v, ObuHeader.fillMetadata.runA s =
      (.ok (t, ((UInt32.ofNat (ulebVal l) + UInt32.ofNat l.length + 1).toNat : Int)),
        ⟨s.src, s.pos + (8 + 8 * l.length), v⟩) ∧ (s.valid = true → v = true) := by
  have hb : ∀ x : Bool, Reads rBool [x] x := by
    intro x
    exact rt_Bool .minimum x [x] (eval_wBool _ x)
  have ht5 : Reads (rU64 5) (natBits 5 t.toNat) t.toUInt64 :=
    rt_U8_U64 .minimum t 5 (by omega) (by omega) _ (by
      have := eval_wU8 .minimum t 5 (by omega) (by omega)
      rw [if_pos ht] at this; exact this)
  have : Reads ObuHeader.fillMetadata (natBits 5 t.toNat ++ ([a] ++ ([b] ++ ([c] ++ (bytesBits l ++ [])))))
      (t, ((UInt32.ofNat (ulebVal l) + UInt32.ofNat l.length + 1).toNat : Int)) := by
    have e : t.toUInt64.toUInt8 = t := by
      apply UInt8.toNat_inj.mp; simp
    unfold ObuHeader.fillMetadata
    refine ht5.bind ?_
    refine (hb a).bind ?_
    refine (hb b).bind ?_
    refine (hb c).bind ?_
    refine (reads_ulebSize l hl h8 hv).bind ?_
    rw [e]
    exact Reads.ret _
  have hpre : (natBits 5 t.toNat ++ ([a] ++ ([b] ++ ([c] ++ (bytesBits l ++ []))))) <+: s.rest := by
    refine List.IsPrefix.trans ⟨rest, ?_⟩ hs
    simp
  obtain ⟨v, e, m⟩ := this s hp hpre
  refine ⟨v, ?_, m⟩
  rw [e]
  congr 3
  simp
  omega

/-- Peeking reports the type and the size and leaves the position alone. -/
theorem runA_peek (t : UInt8) (a b c : Bool) (l : List UInt8) (rest : Bits) (ht : t.toNat < 32)
    (hl : IsLeb l) (h8 : l.length ≤ 8) (hv : ulebVal l < 2 ^ 32) (s : RS) (hp : s.pos ≤ s.src.length)
    (hs : natBits 5 t.toNat ++ ([a] ++ ([b] ++ ([c] ++ (bytesBits l ++ rest)))) <+: s.rest) :
    ObuHeader.peek.runA s =
      (.ok (t, ((UInt32.ofNat (ulebVal l) + UInt32.ofNat l.length + 1).toNat : Int)), { s with valid := true }) := by
  obtain ⟨v, e, m⟩ := reads_fillMetadata t a b c l rest ht hl h8 hv { s with valid := true } hp hs
  have hv : v = true := m rfl
  subst hv
  unfold ObuHeader.peek
  simp only [Rd.runA, e]
  unfold RS.seek
  simp only [Bool.not_true, Bool.false_eq_true, ↓reduceIte, Int.toNat_natCast]
  rw [if_neg (by omega), if_neg (by omega)]

end Iamf
