import Verif.Cli.ProcessorTrace
import Verif.Obu.Stream
/-
  OBUs of temporal units that were written, in the hands of `ProcessTemporalUnitObu`.
-/
namespace Iamf

private theorem seek_to (s : RS) (p : Nat) (hv : s.valid = true) (hp : p ≤ s.src.length) :
    s.seek (p : Int) = (.ok (), ⟨s.src, p, true⟩) := by
  unfold RS.seek
  simp only [hv, Bool.not_true, Bool.false_eq_true, ↓reduceIte, Int.toNat_natCast]
  rw [if_neg (by omega), if_neg (by omega)]

private theorem ignore_to {α : Type} (s : RS) (n : Nat) (k : Rd α) (hp : s.pos + 8 * n ≤ s.src.length) :
    (rIgnoreBytes (n : Int) k).runA s = k.runA ⟨s.src, s.pos + 8 * n, true⟩ := by
  unfold rIgnoreBytes
  simp only [Rd.runA]
  have := seek_to { s with valid := true } (s.pos + 8 * n) rfl (by simp only; omega)
  rw [show (s.pos : Int) + (n : Int) * 8 = ((s.pos + 8 * n : Nat) : Int) by omega, this]

/-- An outcome that is not fatal: the OBU is consumed. -/
private theorem finish_at {src : Bits} {n q : Nat} {r : Except Err Unit} {out : Option ProcOut} {st : ProcState}
    (hq : q ≤ src.length) (hn : 8 * n ≤ src.length) (hok : r = .ok () → q = 8 * n) (hr : r = .ok () ∨ r = .error .invalidArgument) :
    (finishObu (0 : Nat) (n : Int) (r, out, st)).runA ⟨src, q, true⟩ = (.ok (true, out, st), ⟨src, 8 * n, true⟩) := by
  rcases hr with rfl | rfl
  · simp only [finishObu, Rd.runA, hok rfl]
  · simp only [finishObu]
    rw [if_neg (by decide)]
    simp only [Rd.runA]
    rw [seek_to _ _ rfl (Nat.zero_le _)]
    simp only
    rw [ignore_to _ _ _ (by simpa using hn)]
    simp [Rd.runA]

/-- The parts of a written OBU at the beginning of the data. -/
private theorem written_body {g : LebGen} {h : ObuHeader} {payload : Wr Unit} {footer : List UInt8} {bs : Bits}
    (hb : (wObu h payload footer).eval g = (.ok (), bs)) (F : Bits) (c : ProcContext) (st : ProcState) :
    ∃ c1 pb, payload.eval g = (.ok (), pb) ∧ pb.length % 8 = 0 ∧ pb.length ≤ 8 * 2097152 ∧ bs = c1 ++ (pb ++ bytesBits footer) ∧
      c1.length + (pb ++ bytesBits footer).length = 8 * (bs.length / 8) ∧
      obuAt c st (bs ++ F) =
        (((processBody c st (0 : Nat) ((bs.length / 8 : Nat) : Int) h.normalized ((pb.length / 8 + footer.length : Nat) : Int)).runA
          ⟨bs ++ F, c1.length, true⟩).1,
         ((processBody c st (0 : Nat) ((bs.length / 8 : Nat) : Int) h.normalized ((pb.length / 8 + footer.length : Nat) : Int)).runA
          ⟨bs ++ F, c1.length, true⟩).2.rest) := by
  have hal := wObu_aligned hb
  obtain ⟨c1, pb, hpay, hal2, hle, hbs, hrd⟩ := wObu_parts hb
  have hlen : c1.length + (pb ++ bytesBits footer).length = 8 * (bs.length / 8) := by
    have := congrArg List.length hbs
    rw [List.length_append] at this
    omega
  refine ⟨c1, pb, hpay, hal2, hle, hbs, hlen, ?_⟩
  have hpk := wObu_peek hb ⟨bs ++ F, 0, true⟩ (Nat.zero_le _) (by simp [RS.rest])
  obtain ⟨v, e1, m1⟩ := hrd ⟨bs ++ F, 0, true⟩ (Nat.zero_le _) (by
    show c1 <+: List.drop 0 (bs ++ F)
    rw [List.drop_zero, hbs, List.append_assoc]
    exact List.prefix_append _ _)
  rw [m1 rfl] at e1
  rw [obuAt_eq, hpk]
  simp only
  rw [if_neg (by rw [List.length_append]; omega), e1]
  simp only [Nat.zero_add]

private theorem rest_at (bs F : Bits) (h : bs.length % 8 = 0) : (⟨bs ++ F, 8 * (bs.length / 8), true⟩ : RS).rest = F := by
  have : 8 * (bs.length / 8) = bs.length := by omega
  simp [RS.rest, this]

/-- An audio frame. -/
theorem obuAt_frame {g : LebGen} {h : ObuHeader} {f : AudioFrame} {bs : Bits} (ht : h.obuType = audioFrameObuType f.substreamId)
    (hb : (wObu h (f.write h.obuType) []).eval g = (.ok (), bs)) (F : Bits) {c : ProcContext} {st st' : ProcState} {r : Except Err Unit}
    {out : Option ProcOut} (hr : r = .ok () ∨ r = .error .invalidArgument) (hs : storeFrame c h.normalized f st = (r, out, st')) :
    obuAt c st (bs ++ F) = (.ok (true, out, st'), F) := by
  have hal := wObu_aligned hb
  obtain ⟨c1, pb, hpay, hal2, hle, hbs, hlen, he⟩ := written_body hb F c st
  rw [he]
  have hhd : f.header h = h := by
    obtain ⟨t, rc, ts, te, tst, x⟩ := h
    simp only at ht
    simp only [AudioFrame.header, ← ht]
  have hread := payload_read (footer := []) hal2 (AudioFrame.rt g h f pb (by rw [hhd]; exact hpay) hal2 hle) ⟨bs ++ F, c1.length, true⟩ rfl
    (by simp only [List.length_append] at hlen ⊢; omega) (by
      show _ <+: List.drop c1.length (bs ++ F)
      rw [hbs, List.append_assoc, List.drop_left]
      exact List.prefix_append _ _)
  rw [hhd] at hread
  have htype : isAudioFrameType h.normalized.obuType = true := by
    have e : h.normalized.obuType = h.obuType := by unfold ObuHeader.normalized; split <;> rfl
    rw [e, ht]
    have key : ∀ n < 24, 5 ≤ n → isAudioFrameType (UInt8.ofNat n) = true := by decide
    unfold audioFrameObuType
    split
    · decide
    · exact key _ (by omega) (by omega)
  unfold processBody
  rw [if_pos htype]
  simp only [Rd.runA, hread, hs]
  rw [hlen, finish_at (by rw [List.length_append]; omega) (by rw [List.length_append]; omega) (fun _ => rfl) hr]
  rw [rest_at bs F hal]

private theorem peekId_at (s : RS) (hs : s.pos ≤ s.src.length) :
    peekParameterId.runA s = ((rUleb.runA { s with valid := true }).1, { s with valid := true }) := by
  unfold peekParameterId
  simp only [Rd.runA]
  have hin := Rd.runA_inside rUleb { s with valid := true } hs
  have hv := Rd.runA_valid rUleb { s with valid := true } rfl
  have hsf := Sf.uleb { s with valid := true }
  match hx : rUleb.runA { s with valid := true } with
  | (.ok m, s') =>
    rw [hx] at hin hv
    simp only
    rw [seek_to s' s.pos hv (by rw [hin.2]; exact hs), hin.2]
  | (.error e, s') =>
    rw [hx] at hin hv hsf
    simp only at hsf ⊢
    rw [if_neg (by simp [hsf])]
    rw [seek_to s' s.pos hv (by rw [hin.2]; exact hs), hin.2]

theorem normalized_type (h : ObuHeader) : h.normalized.obuType = h.obuType := by unfold ObuHeader.normalized; split <;> rfl

/-- A parameter block. -/
theorem obuAt_block {g : LebGen} {h : ObuHeader} {p : ParamDef} {aux : Option (UInt32 × List ChannelNumbers)} {b b' : ParameterBlock} {footer : List UInt8}
    {bs : Bits} (ht : h.obuType = 3) (hb : (wObu h (b.write p) footer).eval g = (.ok (), bs))
    (hrt : RTPayload g (b.write p) (ParameterBlock.read p) footer b') (F : Bits) {c : ProcContext}
    (hc : c.params.lookup b.parameterId = some (p, aux)) {st st' : ProcState} {r : Except Err Unit} {out : Option ProcOut}
    (hr : r = .ok () ∨ r = .error .invalidArgument) (hs : storeBlock h.normalized p b' st = (r, out, st')) :
    obuAt c st (bs ++ F) = (.ok (true, out, st'), F) := by
  have hal := wObu_aligned hb
  obtain ⟨c1, pb, hpay, hal2, hle, hbs, hlen, he⟩ := written_body hb F c st
  rw [he]
  have hrest : (⟨bs ++ F, c1.length, true⟩ : RS).rest = pb ++ bytesBits footer ++ F := by
    show List.drop c1.length (bs ++ F) = _
    rw [hbs, List.append_assoc, List.drop_left]
  have hp1 : (⟨bs ++ F, c1.length, true⟩ : RS).pos ≤ (bs ++ F).length := by simp only [List.length_append] at hlen ⊢; omega
  have hread := payload_read hal2 (hrt pb hpay hal2 hle) ⟨bs ++ F, c1.length, true⟩ rfl hp1 (by rw [hrest]; exact List.prefix_append _ _)
  have hid : (rUleb.runA ⟨bs ++ F, c1.length, true⟩).1 = .ok b.parameterId := by
    unfold ParameterBlock.write at hpay
    simp only [Wr.bind_eq] at hpay
    rw [Wr.eval_bind_ok] at hpay
    obtain ⟨_, b1, b2, e1, -, rfl⟩ := hpay
    obtain ⟨v, e2, -⟩ := rt_Uleb g b.parameterId b1 e1 ⟨bs ++ F, c1.length, true⟩ hp1 (by
      rw [hrest, List.append_assoc, List.append_assoc]
      exact List.prefix_append _ _)
    rw [e2]
  have hrb : (readBlock c ((pb.length / 8 + footer.length : Nat) : Int)).runA ⟨bs ++ F, c1.length, true⟩ =
      (.ok (p, b'), ⟨bs ++ F, c1.length + (pb ++ bytesBits footer).length, true⟩) := by
    unfold readBlock
    simp only [Rd.runA, peekId_at ⟨bs ++ F, c1.length, true⟩ hp1, hid, hc, Rd.runA_bind, hread]
  unfold processBody
  rw [normalized_type, ht, if_neg (by decide), if_pos (by decide)]
  simp only [Rd.runA, hrb, hs]
  rw [hlen, finish_at (by rw [List.length_append]; omega) (by rw [List.length_append]; omega) (fun _ => rfl) hr]
  rw [rest_at bs F hal]

/-- A temporal delimiter. -/
theorem obuAt_delimiter {g : LebGen} {h : ObuHeader} {footer : List UInt8} {bs : Bits} (ht : h.obuType = 4)
    (hb : (wObu h wTemporalDelimiter footer).eval g = (.ok (), bs)) (F : Bits) (c : ProcContext) (st : ProcState) :
    obuAt c st (bs ++ F) = (.ok (true, some .delimiter, st), F) := by
  have hal := wObu_aligned hb
  obtain ⟨c1, pb, hpay, hal2, hle, hbs, hlen, he⟩ := written_body hb F c st
  rw [he]
  have hrest : (⟨bs ++ F, c1.length, true⟩ : RS).rest = pb ++ bytesBits footer ++ F := by
    show List.drop c1.length (bs ++ F) = _
    rw [hbs, List.append_assoc, List.drop_left]
  have hp1 : (⟨bs ++ F, c1.length, true⟩ : RS).pos ≤ (bs ++ F).length := by simp only [List.length_append] at hlen ⊢; omega
  have hread := payload_read hal2 (temporalDelimiter_rt g footer pb hpay hal2 hle) ⟨bs ++ F, c1.length, true⟩ rfl hp1
    (by rw [hrest]; exact List.prefix_append _ _)
  unfold processBody
  rw [normalized_type, ht, if_neg (by decide), if_neg (by decide), if_pos (by decide)]
  simp only [Rd.runA, hread]
  rw [hlen, finish_at (by rw [List.length_append]; omega) (by rw [List.length_append]; omega) (fun _ => rfl) (.inl rfl)]
  rw [rest_at bs F hal]

/-- An OBU that is skipped: of a reserved type or a metadata OBU, or a redundant copy of a descriptor. -/
theorem obuAt_skipped {g : LebGen} {h : ObuHeader} {payload : Wr Unit} {footer : List UInt8} {bs : Bits}
    (ht : (24 ≤ h.obuType ∧ h.obuType ≤ 30) ∨ ((h.obuType ≤ 2 ∨ h.obuType = 31) ∧ h.redundantCopy = true))
    (hb : (wObu h payload footer).eval g = (.ok (), bs)) (F : Bits) (c : ProcContext) (st : ProcState) :
    obuAt c st (bs ++ F) = (.ok (true, none, st), F) := by
  have hal := wObu_aligned hb
  obtain ⟨c1, pb, hpay, hal2, hle, hbs, hlen, he⟩ := written_body hb F c st
  rw [he]
  have hred : h.normalized.redundantCopy = h.redundantCopy := by unfold ObuHeader.normalized; split <;> rfl
  have hk : isAudioFrameType h.obuType = false ∧ h.obuType ≠ ObuType.parameterBlock ∧ h.obuType ≠ ObuType.temporalDelimiter ∧
      (24 ≤ h.obuType ∧ h.obuType ≤ 30 → h.obuType ≠ ObuType.sequenceHeader ∧ h.obuType ≠ ObuType.codecConfig ∧
        h.obuType ≠ ObuType.audioElement ∧ h.obuType ≠ ObuType.mixPresentation) := by
    have key : ∀ n < 32, (n ≤ 2 ∨ 24 ≤ n) → isAudioFrameType (UInt8.ofNat n) = false ∧ (UInt8.ofNat n).toNat ≠ 3 ∧
        (UInt8.ofNat n).toNat ≠ 4 := by decide
    have := key h.obuType.toNat
    rw [UInt8.ofNat_toNat] at this
    have e : (24 ≤ h.obuType ∧ h.obuType ≤ 30) = (24 ≤ h.obuType.toNat ∧ h.obuType.toNat ≤ 30) := by
      simp only [UInt8.le_iff_toNat_le, UInt8.reduceToNat]
    have e2 : h.obuType = 31 → h.obuType.toNat = 31 := by intro h; rw [h]; rfl
    rw [e] at ht ⊢
    simp only [UInt8.le_iff_toNat_le, UInt8.reduceToNat] at ht
    have ht2 : h.obuType.toNat ≤ 2 ∨ (24 ≤ h.obuType.toNat ∧ h.obuType.toNat ≤ 31) := by
      rcases ht with ht | ⟨ht | ht, -⟩
      · omega
      · exact .inl ht
      · have := e2 ht; omega
    obtain ⟨a1, a2, a3⟩ := this (by omega) (by omega)
    refine ⟨a1, fun e => a2 (by rw [e]; rfl), fun e => a3 (by rw [e]; rfl), fun e => ⟨?_, ?_, ?_, ?_⟩⟩ <;> intro e3 <;>
      rw [e3] at e <;> revert e <;> decide
  obtain ⟨k1, k2, k3, k4⟩ := hk
  unfold processBody
  rw [normalized_type, hred, if_neg (by simp [k1]), if_neg k2, if_neg k3]
  have hn1 : ¬ (h.obuType = ObuType.sequenceHeader ∧ h.redundantCopy = false) := by
    rintro ⟨a, b⟩
    rcases ht with ht | ⟨-, ht⟩
    · exact (k4 ht).1 a
    · rw [ht] at b; simp at b
  have hn2 : ¬ ((h.obuType = ObuType.codecConfig ∨ h.obuType = ObuType.audioElement ∨ h.obuType = ObuType.mixPresentation) ∧
      h.redundantCopy = false) := by
    rintro ⟨a, b⟩
    rcases ht with ht | ⟨-, ht⟩
    · obtain ⟨-, a1, a2, a3⟩ := k4 ht
      exact a.elim a1 fun a => a.elim a2 a3
    · rw [ht] at b; simp at b
  rw [if_neg hn1, if_neg hn2]
  have h8 : (pb ++ bytesBits footer).length = 8 * (pb.length / 8 + footer.length) := by
    rw [List.length_append, bytesBits_length]; omega
  rw [ignore_to _ _ _ (by simp only [List.length_append] at hlen h8 ⊢; omega)]
  simp only [Rd.runA]
  rw [show c1.length + 8 * (pb.length / 8 + footer.length) = 8 * (bs.length / 8) by omega, rest_at bs F hal]

end Iamf
