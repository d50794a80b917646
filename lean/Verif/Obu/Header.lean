import Verif.Prim
/-
  `iamf/obu/obu_header.{h,cc}` and `iamf/obu/obu_base.{h,cc}`.
-/
namespace Iamf

/-! ### Temporary buffers -/

/-- A temporary `WriteBitBuffer` created with the leb generator of the enclosing buffer (the pattern of
obu_base.cc:35-40, obu_header.cc:127-128 and 151-152): run `p` on a fresh buffer and return that buffer.
The initial capacity passed to the constructor only reserves memory. -/
def Wr.sub (p : Wr Unit) : Wr WBuf :=
  .getLeb fun g => match p.run (WBuf.empty g) with
    | (.ok (), w) => .ret w
    | (.error e, _) => .fail e

theorem Wr.sub_eval (g : LebGen) (p : Wr Unit) :
    (Wr.sub p).eval g = match p.run (WBuf.empty g) with
      | (.ok (), w) => (.ok w, [])
      | (.error e, _) => (.error e, []) := by
  have : (Wr.sub p).eval g = (match p.run (WBuf.empty g) with
    | (.ok (), w) => .ret w
    | (.error e, _) => .fail e : Wr WBuf).eval g := rfl
  rw [this]
  split <;> rfl

/-- What is known about a temporary buffer that was written successfully. -/
structure SubOk (g : LebGen) (p : Wr Unit) (w : WBuf) : Prop where
  run : p.run (WBuf.empty g) = (.ok (), w)
  wf : w.WF
  eval : p.eval g = (.ok (), w.bits)

theorem SubOk.off {g : LebGen} {p : Wr Unit} {w : WBuf} (h : SubOk g p w) : w.bits.length = w.off :=
  w.bits_length h.wf.toOk

theorem SubOk.bytes_of_aligned {g : LebGen} {p : Wr Unit} {w : WBuf} (h : SubOk g p w)
    (ha : w.off % 8 = 0) : bytesBits w.bytes = w.bits := by
  have h1 := h.wf.tight
  have h2 : 8 * w.bytes.length - w.off = 0 := by omega
  rw [w.bytesBits_eq h.wf.toOk, h2]; simp

theorem Wr.sub_ok {g : LebGen} {p : Wr Unit} {w : WBuf} {bs : Bits}
    (h : (Wr.sub p).eval g = (.ok w, bs)) : SubOk g p w ∧ bs = [] := by
  rw [Wr.sub_eval] at h
  have hr := p.run_empty g
  split at h
  next w' hw =>
    simp only [Prod.mk.injEq, Except.ok.injEq] at h
    obtain ⟨rfl, rfl⟩ := h
    rw [hw] at hr
    exact ⟨⟨hw, hr.2.1, Prod.ext hr.1.symm hr.2.2.2.symm⟩, rfl⟩
  next => simp at h

theorem RT.sub {α : Type} {g : LebGen} {p : Wr Unit} {f : WBuf → Wr Unit} {r : Rd α} {a : α}
    (h : ∀ w, SubOk g p w → RT g (f w) r a) : RT g ((Wr.sub p).bind f) r a := by
  intro bs hb
  rw [Wr.eval_bind_ok] at hb
  obtain ⟨w, b1, b2, h1, h2, rfl⟩ := hb
  obtain ⟨hs, rfl⟩ := Wr.sub_ok h1
  exact h w hs b2 h2

theorem RT.ite {α : Type} {g : LebGen} {c : Prop} [Decidable c] {w1 w2 : Wr Unit} {r1 r2 : Rd α} {a : α}
    (h1 : c → RT g w1 r1 a) (h2 : ¬ c → RT g w2 r2 a) :
    RT g (if c then w1 else w2) (if c then r1 else r2) a := by
  by_cases h : c
  · simp only [h, ↓reduceIte]; exact h1 h
  · simp only [h, ↓reduceIte]; exact h2 h

/-- Append a pure continuation to the reader only. -/
theorem RT.seqR {α β : Type} {g : LebGen} {w : Wr Unit} {r : Rd α} {f : α → Rd β} {a : α} {b : β}
    (h1 : RT g w r a) (h2 : Reads (f a) [] b) : RT g w (r.bind f) b := by
  intro bs hb
  have := (h1 bs hb).bind h2
  simpa using this

theorem RT.seqAssoc {α β : Type} {g : LebGen} {w1 w2 w3 : Wr Unit} {r : Rd α} {f : α → Rd β} {a : α} {b : β}
    (h1 : RT g (w1.bind fun _ => w2) r a) (h2 : RT g w3 (f a) b) :
    RT g (w1.bind fun _ => w2.bind fun _ => w3) (r.bind f) b := by
  intro bs hb
  rw [Wr.eval_bind_ok] at hb
  obtain ⟨u, b1, b2, e1, e2, rfl⟩ := hb
  rw [Wr.eval_bind_ok] at e2
  obtain ⟨u2, b3, b4, e3, e4, rfl⟩ := e2
  have := (h1 (b1 ++ b3) (Wr.eval_bind_ok.mpr ⟨u, b1, b3, e1, e3, rfl⟩)).bind (h2 b4 e4)
  rw [List.append_assoc] at this
  exact this

theorem rt_U8_U64 (g : LebGen) (d : UInt8) (n : Nat) (hn : 0 < n) (h : n ≤ 32) :
    RT g (wU8 d n) (rU64 n) d.toUInt64 := by
  intro bs hb
  rw [eval_wU8 g d n hn h] at hb
  split at hb
  next hd =>
    simp only [Prod.mk.injEq, true_and] at hb
    subst hb
    have := reads_lit_ret 64 n d.toNat UInt64.ofNat (by omega) hd
    have e : UInt64.ofNat d.toNat = d.toUInt64 := by
      apply UInt64.toNat_inj.mp
      rw [UInt64.toNat_ofNat', UInt8.toNat_toUInt64]
      have := d.toNat_lt
      omega
    rw [e] at this
    exact this
  next => simp at hb

/-- `wb.IsByteAligned()` and `bit_buffer().size()` of a temporary buffer. -/
theorem WBuf.isByteAligned_iff (w : WBuf) : w.isByteAligned = true ↔ w.off % 8 = 0 := by
  simp [WBuf.isByteAligned]

/-! ### The OBU header -/

/-- `enum ObuType : uint8_t` (obu_header.h:34-67); kept as its number so that every value a
`static_cast` can produce is representable. -/
abbrev ObuType := UInt8

namespace ObuType
def codecConfig : ObuType := 0
def audioElement : ObuType := 1
def mixPresentation : ObuType := 2
def parameterBlock : ObuType := 3
def temporalDelimiter : ObuType := 4
def audioFrame : ObuType := 5
def audioFrameId0 : ObuType := 6
def audioFrameId17 : ObuType := 23
def metadata : ObuType := 24
def sequenceHeader : ObuType := 31
end ObuType

/-- `IsAudioFrame` (obu_header.cc:39-42). -/
def isAudioFrameType (t : ObuType) : Bool := (6 ≤ t && t ≤ 23) || t == 5

/-- `IsRedundantCopyAllowed` (obu_header.cc:46-52). -/
def isRedundantCopyAllowed (t : ObuType) : Bool :=
  if isAudioFrameType t || t == ObuType.temporalDelimiter || t == ObuType.parameterBlock then false else true

/-- `IsTypeSpecificFlagAllowed` (obu_header.cc:54-57). -/
def isTypeSpecificFlagAllowed (t : ObuType) : Bool :=
  isAudioFrameType t || t == ObuType.temporalDelimiter || t == ObuType.mixPresentation

/-- `ObuHeader::IsTemporalUnitObuType` (obu_header.cc:220-235). -/
def isTemporalUnitObuType (t : ObuType) : Bool :=
  isAudioFrameType t || t == ObuType.parameterBlock || t == ObuType.temporalDelimiter

/-- `struct ObuHeader` (obu_header.h:214-222). -/
structure ObuHeader where
  obuType : ObuType
  redundantCopy : Bool := false
  typeSpecificFlag : Bool := false
  trimEnd : UInt32 := 0
  trimStart : UInt32 := 0
  ext : Option (List UInt8) := none
  deriving DecidableEq, Repr

namespace ObuHeader

/-- `Validate` (obu_header.cc:61-77). -/
def valid (h : ObuHeader) : Bool :=
  !(h.redundantCopy && !isRedundantCopyAllowed h.obuType) &&
  !(h.typeSpecificFlag && !isTypeSpecificFlagAllowed h.obuType)

/-- `GetObuTrimmingStatusFlag` (obu_header.cc:327-334). -/
def trimFlag (h : ObuHeader) : Bool := if isAudioFrameType h.obuType then h.typeSpecificFlag else false

/-- `GetOptionalFieldsFlag` (obu_header.cc:336-343). -/
def optionalFieldsFlag (h : ObuHeader) : Bool :=
  if h.obuType == ObuType.mixPresentation then h.typeSpecificFlag else false

/-- `GetIsKeyFrame` (obu_header.cc:345-355). -/
def isKeyFrame (h : ObuHeader) : Bool :=
  if h.obuType == ObuType.temporalDelimiter then !h.typeSpecificFlag else false

/-- `GetExtensionHeaderFlag` (obu_header.cc:357-359). -/
def extFlag (h : ObuHeader) : Bool := h.ext.isSome

/-- `GetExtensionHeaderSize` (obu_header.cc:361-364): `size_t` narrowed to `uint32_t`. -/
def extSize (h : ObuHeader) : UInt32 := match h.ext with | some l => UInt32.ofNat l.length | none => 0

/-- `WriteFieldsAfterObuSize` (obu_header.cc:79-95). -/
def wFieldsAfterSize (h : ObuHeader) : Wr Unit := do
  (if h.trimFlag = true then do
    wUleb h.trimEnd
    wUleb h.trimStart
  else pure ())
  match h.ext with
  | some bytes => do
    wUleb h.extSize
    wBytes bytes
  | none => pure ()

end ObuHeader

/-- `ValidateObuIsUnderTwoMegabytes` (obu_header.cc:106-121), as a status; the `ABSL_CHECK_LE` is `abort`. -/
def validateUnderTwoMb (obuSize : UInt32) (sizeOfObuSize : Nat) : Except Err Unit :=
  if sizeOfObuSize > kMaxLeb128Size then .error .abort
  else if obuSize.toNat > kEntireObuSizeMaxTwoMegabytes - 1 - sizeOfObuSize then .error .invalidArgument
  else .ok ()

/-- Return a status from a writer program. -/
def Wr.status (s : Except Err Unit) : Wr Unit := match s with | .ok () => .ret () | .error e => .fail e
/-- Return a status from a reader program. -/
def Rd.status (s : Except Err Unit) : Rd Unit := match s with | .ok () => .ret () | .error e => .fail e

/-- `AddUint32CheckOverflow` (iamf/common/utils/numeric_utils.cc:28-39). -/
def addUint32CheckOverflow (a b : UInt32) : Except Err UInt32 :=
  if a.toNat + b.toNat > 4294967295 then .error .invalidArgument else .ok (UInt32.ofNat (a.toNat + b.toNat))

namespace ObuHeader

/-- `GetObuSizeAndValidate` (obu_header.cc:136-185) with `GetSizeOfEncodedLeb128` (123-131) inlined. -/
def wObuSizeAndValidate (h : ObuHeader) (payloadSize : Int) : Wr UInt32 := do
  Wr.check (!(decide (0 > payloadSize) || decide (payloadSize > 4294967295)))
  let after ← Wr.sub h.wFieldsAfterSize
  Wr.check (after.isByteAligned && decide (after.bytes.length ≤ 4294967295)) .unknown
  match addUint32CheckOverflow (UInt32.ofNat after.bytes.length) (UInt32.ofNat payloadSize.toNat) with
  | .error e => .fail e
  | .ok obuSize => do
    let sizeOnly ← Wr.sub (wUleb obuSize)
    Wr.status (validateUnderTwoMb obuSize sizeOnly.bytes.length)
    Wr.check h.valid
    pure obuSize

/-- `ObuHeader::ValidateAndWrite` (obu_header.cc:249-265). -/
def write (h : ObuHeader) (payloadSize : Int) : Wr Unit := do
  let obuSize ← h.wObuSizeAndValidate payloadSize
  wU8 h.obuType 5
  wBool h.redundantCopy
  wBool h.typeSpecificFlag
  wBool h.extFlag
  wUleb obuSize
  h.wFieldsAfterSize

/-- `GetObuPayloadSize` (obu_header.cc:190-198): the parenthesised sum is computed in `uint32_t`. -/
def payloadSizeOf (obuSize : UInt32) (endSize startSize extSizeSize : Nat) (extSize : UInt32) : Int :=
  (obuSize.toNat : Int) - ((UInt32.ofNat (endSize + startSize + extSizeSize) + extSize).toNat : Int)

/-- `ObuHeader::ReadAndValidate` (obu_header.cc:274-325) on a default-constructed header. -/
def read : Rd (ObuHeader × Int) := do
  let t ← rU64 5
  let redundantCopy ← rBool
  let typeSpecificFlag ← rBool
  let extensionFlag ← rBool
  let size ← rUlebSize
  Rd.status (validateUnderTwoMb size.1 size.2)
  let h : ObuHeader := { obuType := t.toUInt8, redundantCopy, typeSpecificFlag }
  let trims ← (if h.trimFlag = true then do
      let e ← rUlebSize
      let s ← rUlebSize
      pure (e, s)
    else pure ((0, 0), (0, 0)))
  let extSize ← (if extensionFlag = true then rUlebSize else pure (0, 0))
  let payload := payloadSizeOf size.1 trims.1.2 trims.2.2 extSize.2 extSize.1
  Rd.check (!decide (payload < 0))
  let ext ← (if extensionFlag = true then do
      let bytes ← rBytes extSize.1.toNat
      pure (some bytes)
    else pure none)
  let h := { h with trimEnd := trims.1.1, trimStart := trims.2.1, ext := ext }
  Rd.check h.valid
  pure (h, payload)

/-- `struct HeaderMetadata` and `FillHeaderMetadata` (obu_header.h:117-120, obu_header.cc:200-216).  The
total is a `uint32_t` sum widened to `int64_t`. -/
def fillMetadata : Rd (ObuType × Int) := do
  let t ← rU64 5
  let _ ← rBool
  let _ ← rBool
  let _ ← rBool
  let size ← rUlebSize
  pure (t.toUInt8, ((size.1 + UInt32.ofNat size.2 + 1).toNat : Int))

/-- `ObuHeader::PeekObuTypeAndTotalObuSize` (obu_header.cc:237-247). -/
def peek : Rd (ObuType × Int) :=
  .tell fun pos => .attempt fillMetadata fun r => .seek pos (match r with
    | .ok m => .ret m
    | .error e => .fail e)

/-- The header a reader can recover: trimming counts are only transmitted together with the flag. -/
def normalized (h : ObuHeader) : ObuHeader :=
  if h.trimFlag then h else { h with trimEnd := 0, trimStart := 0 }

end ObuHeader

/-! ### OBU base -/

/-- `ObuBase::ValidateAndWriteObu` (obu_base.cc:31-68).  The final consistency check (lines 52-65) is
omitted: `WriteUint8Span` appends exactly eight bits per byte (C02), so it never fires. -/
def wObu (h : ObuHeader) (payload : Wr Unit) (footer : List UInt8) : Wr Unit := do
  let tmp ← Wr.sub (payload.bind fun _ => wBytes footer)
  Wr.check tmp.isByteAligned
  h.write (tmp.bytes.length : Int)
  wBytes tmp.bytes

/-- `ObuBase::ReadAndValidatePayload` (obu_base.cc:70-97) around a derived payload reader. -/
def rObuPayload {α : Type} (derived : Int → Rd α) (payloadSize : Int) : Rd (α × List UInt8) :=
  .tell fun start =>
    (derived payloadSize).bind fun a => .tell fun fin =>
      let expected := start + payloadSize * 8
      if expected = fin then .ret (a, [])
      else if expected > fin then
        if (expected - fin) % 8 ≠ 0 then .fail .invalidArgument
        else (rBytes ((expected - fin) / 8).toNat).bind fun footer => .ret (a, footer)
      else .fail .invalidArgument

/-- Reading a complete OBU: the header, then the static `CreateFromBuffer` of the OBU class, which
calls `ReadAndValidatePayload`. -/
def rObu {α : Type} (derived : ObuHeader → Int → Rd α) : Rd (ObuHeader × α × List UInt8) := do
  let hs ← ObuHeader.read
  let af ← rObuPayload (derived hs.1) hs.2
  pure (hs.1, af.1, af.2)

end Iamf
