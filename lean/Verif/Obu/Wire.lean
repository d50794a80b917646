import Verif.Obu.Stream
import Verif.Obu.MixProofs
/-
  A small language of bitstream syntax tables, and rules to show that a writer program emits exactly a table.
  Specification language (nothing here models C++ code): `Field`, `encode`, `Fits`.
-/
namespace Iamf

/-- One row of a bitstream syntax table. -/
inductive Field where
  /-- unsigned, `width` bits, most significant first -/
  | u (width value : Nat)
  /-- signed two's complement, `width` bits -/
  | s (width : Nat) (value : Int)
  /-- unsigned leb128 -/
  | leb (value : UInt32)
  /-- NUL-terminated string -/
  | str (chars : List UInt8)
  /-- bytes -/
  | bytes (l : List UInt8)
  deriving DecidableEq, Repr

/-- The bits of one row; leb128 fields are spelled as the configured generator does. -/
def Field.bits (g : LebGen) : Field → Bits
  | .u w v => natBits w v
  | .s w v => natBits w (v % 2 ^ w).toNat
  | .leb v => bytesBits (ulebFixed (g.len v) v.toNat)
  | .str l => bytesBits (l ++ [0])
  | .bytes l => bytesBits l

/-- The value fits its field. -/
def Field.Fits (g : LebGen) : Field → Prop
  | .u w v => v < 2 ^ w
  | .s w v => -(2 ^ (w - 1)) ≤ v ∧ v < 2 ^ (w - 1)
  | .leb v => g.fits v
  | .str l => l.length ≤ 127 ∧ (0 : UInt8) ∉ l
  | .bytes _ => True

instance (g : LebGen) (f : Field) : Decidable (f.Fits g) := by
  cases f <;> unfold Field.Fits <;> infer_instance

/-- The bits of a table. -/
def encode (g : LebGen) (t : List Field) : Bits := t.flatMap (Field.bits g)

/-- Every value fits its field. -/
def Fits (g : LebGen) (t : List Field) : Prop := ∀ f ∈ t, f.Fits g

instance (g : LebGen) (t : List Field) : Decidable (Fits g t) := by
  unfold Fits; infer_instance

@[simp] theorem encode_nil (g : LebGen) : encode g [] = [] := rfl
@[simp] theorem encode_cons (g : LebGen) (f : Field) (t : List Field) : encode g (f :: t) = f.bits g ++ encode g t := rfl
@[simp] theorem encode_append (g : LebGen) (a b : List Field) : encode g (a ++ b) = encode g a ++ encode g b := by
  simp [encode]
@[simp] theorem fits_nil (g : LebGen) : Fits g [] ↔ True := by simp [Fits]
@[simp] theorem fits_cons (g : LebGen) (f : Field) (t : List Field) : Fits g (f :: t) ↔ f.Fits g ∧ Fits g t := by
  simp [Fits]
@[simp] theorem fits_append (g : LebGen) (a b : List Field) : Fits g (a ++ b) ↔ Fits g a ∧ Fits g b := by
  simp only [Fits, List.mem_append]
  constructor
  · exact fun h => ⟨fun f hf => h f (.inl hf), fun f hf => h f (.inr hf)⟩
  · rintro ⟨h1, h2⟩ f (hf | hf)
    · exact h1 f hf
    · exact h2 f hf

/-- The writer succeeds exactly when `P` holds and every value fits its field, and then emits exactly the table. -/
def Emits (g : LebGen) (w : Wr Unit) (P : Prop) (t : List Field) : Prop :=
  ∀ bs, w.eval g = (.ok (), bs) ↔ P ∧ Fits g t ∧ bs = encode g t

namespace Emits

theorem ret {g : LebGen} : Emits g (.ret ()) True [] := by
  intro bs
  simp only [Wr.eval_ret, Prod.mk.injEq, true_and, fits_nil, encode_nil]
  exact eq_comm

theorem fail {g : LebGen} {e : Err} {t : List Field} : Emits g (.fail e) False t := by
  intro bs
  simp only [false_and, iff_false]
  intro h
  simp [Wr.eval, Wr.runA] at h

theorem bind {g : LebGen} {w1 w2 : Wr Unit} {P1 P2 : Prop} {t1 t2 : List Field} (h1 : Emits g w1 P1 t1)
    (h2 : Emits g w2 P2 t2) : Emits g (w1.bind fun _ => w2) (P1 ∧ P2) (t1 ++ t2) := by
  intro bs
  rw [Wr.eval_bind_ok]
  constructor
  · rintro ⟨_, b1, b2, e1, e2, rfl⟩
    obtain ⟨p1, f1, rfl⟩ := (h1 b1).mp e1
    obtain ⟨p2, f2, rfl⟩ := (h2 b2).mp e2
    exact ⟨⟨p1, p2⟩, (fits_append _ _ _).mpr ⟨f1, f2⟩, (encode_append _ _ _).symm⟩
  · rintro ⟨⟨p1, p2⟩, f, rfl⟩
    obtain ⟨f1, f2⟩ := (fits_append _ _ _).mp f
    exact ⟨(), _, _, (h1 _).mpr ⟨p1, f1, rfl⟩, (h2 _).mpr ⟨p2, f2, rfl⟩, encode_append _ _ _⟩

/-- Change the condition; the table has to agree only when the condition holds. -/
theorem cast {g : LebGen} {w : Wr Unit} {P P' : Prop} {t t' : List Field} (h : Emits g w P t) (hp : P ↔ P')
    (ht : P → t = t') : Emits g w P' t' := by
  intro bs
  rw [h bs, ← hp]
  constructor
  · rintro ⟨p, f, e⟩
    rw [← ht p]
    exact ⟨p, f, e⟩
  · rintro ⟨p, f, e⟩
    rw [ht p]
    exact ⟨p, f, e⟩

theorem check {g : LebGen} {c : Bool} {e : Err} : Emits g (Wr.check c e) (c = true) [] := by
  unfold Wr.check
  cases c
  · exact (Emits.fail (t := [])).cast (by simp) (by simp)
  · exact ret.cast (by simp) (by simp)

theorem status {g : LebGen} {s : Except Err Unit} : Emits g (Wr.status s) (s = .ok ()) [] := by
  unfold Wr.status
  cases s with
  | error e => exact (Emits.fail (t := [])).cast (by simp) (by simp)
  | ok u => exact ret.cast (by simp) (by simp)

theorem checkBind {g : LebGen} {c : Bool} {e : Err} {w : Wr Unit} {P : Prop} {t : List Field} (h : c = true → Emits g w P t) :
    Emits g ((Wr.check c e).bind fun _ => w) (c = true ∧ P) t := by
  cases c
  · intro bs
    constructor
    · intro h; obtain ⟨h, -⟩ := Wr.check_bind_ok h; simp at h
    · rintro ⟨⟨h, -⟩, -⟩; simp at h
  · exact (check.bind (h rfl)).cast Iff.rfl (fun _ => rfl)

theorem of_if {g : LebGen} {w : Wr Unit} {P : Prop} [Decidable P] {e : Err} {b b' : Bits} {f : Field}
    (h : w.eval g = if P then (.ok (), b) else (.error e, b')) (hf : P ↔ f.Fits g) (hb : b = f.bits g) :
    Emits g w True [f] := by
  intro bs
  rw [h]
  by_cases hp : P
  · simp only [hp, ↓reduceIte, Prod.mk.injEq, true_and, fits_cons, hf.mp hp, fits_nil, and_self, encode_cons, encode_nil,
      List.append_nil, hb]
    exact eq_comm
  · simp only [hp, ↓reduceIte, Prod.mk.injEq, reduceCtorEq, false_and, fits_cons, show ¬ f.Fits g from fun x => hp (hf.mpr x), and_false]

theorem of_ok {g : LebGen} {w : Wr Unit} {b : Bits} {f : Field} (h : w.eval g = (.ok (), b)) (hf : f.Fits g)
    (hb : b = f.bits g) : Emits g w True [f] := by
  refine of_if (P := True) (e := .unknown) (b' := []) (by rw [h]; rfl) (by simpa using hf) hb

theorem u32 {g : LebGen} {d : UInt32} {n : Nat} (hn : 0 < n) (h : n ≤ 32) : Emits g (wU32 d n) True [.u n d.toNat] :=
  of_if (eval_wU32 g d n hn h) Iff.rfl rfl
theorem u16 {g : LebGen} {d : UInt16} {n : Nat} (hn : 0 < n) (h : n ≤ 32) : Emits g (wU16 d n) True [.u n d.toNat] :=
  of_if (eval_wU16 g d n hn h) Iff.rfl rfl
theorem u8 {g : LebGen} {d : UInt8} {n : Nat} (hn : 0 < n) (h : n ≤ 32) : Emits g (wU8 d n) True [.u n d.toNat] :=
  of_if (eval_wU8 g d n hn h) Iff.rfl rfl
theorem u64 {g : LebGen} {d : UInt64} {n : Nat} (hn : 0 < n) (h : n ≤ 64) : Emits g (wU64 d n) True [.u n d.toNat] :=
  of_if (eval_wU64 g d n hn h) Iff.rfl rfl

/-- A flag is one bit. -/
theorem bool {g : LebGen} {b : Bool} : Emits g (wBool b) True [.u 1 b.toNat] := by
  refine of_ok (eval_wBool g b) ?_ ?_
  · show b.toNat < 2 ^ 1
    cases b <;> decide
  · show [b] = natBits 1 b.toNat
    cases b <;> decide

theorem bytes {g : LebGen} {l : List UInt8} : Emits g (wBytes l) True [.bytes l] := of_ok (eval_wBytes g l) trivial rfl

theorem uleb {g : LebGen} {v : UInt32} : Emits g (wUleb v) True [.leb v] := of_if (eval_wUleb g v) Iff.rfl rfl

theorem string {g : LebGen} {l : List UInt8} : Emits g (wString l) True [.str l] := of_if (eval_wString g l) Iff.rfl rfl

private theorem emod_eq (n : Nat) (d : BitVec n) : (d.toInt % 2 ^ n).toNat = d.toNat := by
  rw [BitVec.toInt_eq_toNat_bmod]
  have h := d.isLt
  have e : ((2 : Int) ^ n) = ((2 ^ n : Nat) : Int) := by simp
  rw [e, Int.bmod_emod, ← Int.natCast_emod, Nat.mod_eq_of_lt h]
  rfl

theorem s16 {g : LebGen} {d : Int16} : Emits g (wS16 d) True [.s 16 d.toInt] := by
  refine of_ok (eval_wS16 g d) ⟨?_, ?_⟩ ?_
  · have := d.le_toInt; simpa using this
  · have := d.toInt_lt; simpa using this
  · show _ = natBits 16 _
    congr 1
    exact (emod_eq 16 d.toBitVec).symm

theorem s8 {g : LebGen} {d : Int8} : Emits g (wS8 d) True [.s 8 d.toInt] := by
  refine of_ok (eval_wS8 g d) ⟨?_, ?_⟩ ?_
  · have := d.le_toInt; simpa using this
  · have := d.toInt_lt; simpa using this
  · show _ = natBits 8 _
    congr 1
    exact (emod_eq 8 d.toBitVec).symm

private theorem s9_all : ∀ i : Fin 512,
    let d : Int16 := Int16.ofInt ((i.val : Int) - 256)
    (d.toInt32.toUInt32 &&& 0x1ff).toUInt64.toNat = (((i.val : Int) - 256) % 2 ^ 9).toNat := by
  decide +kernel

theorem s9 {g : LebGen} {d : Int16} : Emits g (wS9 d) True [.s 9 d.toInt] := by
  unfold wS9
  by_cases hr : d.toInt < -256 ∨ d.toInt > 255
  · rw [if_pos hr]
    intro bs
    constructor
    · intro h; simp [Wr.eval, Wr.runA] at h
    · rintro ⟨-, h, -⟩
      have h := h _ (List.mem_singleton.mpr rfl)
      simp only [Field.Fits] at h
      omega
  · rw [if_neg hr]
    have := s9_all ⟨(d.toInt + 256).toNat, by omega⟩
    have e : (((d.toInt + 256).toNat : Nat) : Int) - 256 = d.toInt := by omega
    simp only [e, Int16.ofInt_toInt] at this
    have hlt : (d.toInt32.toUInt32 &&& 0x1ff).toUInt64.toNat < 2 ^ 9 := by rw [this]; omega
    have hb2 := eval_lit g 32 (d.toInt32.toUInt32 &&& 0x1ff).toUInt64 9 (.ret ()) (by omega) (by omega) (by omega)
    rw [if_pos hlt] at hb2
    simp only [Wr.eval_ret, List.append_nil] at hb2
    refine of_ok hb2 ⟨?_, ?_⟩ ?_
    · simp; omega
    · simp; omega
    · rw [this]; rfl

theorem each {α : Type} {g : LebGen} {w : α → Wr Unit} {P : α → Prop} {t : α → List Field} {l : List α}
    (h : ∀ x ∈ l, Emits g (w x) (P x) (t x)) : Emits g (wAll w l) (∀ x ∈ l, P x) (l.flatMap t) := by
  induction l with
  | nil => exact ret.cast (by simp) (by simp)
  | cons x xs ih =>
    unfold wAll
    refine ((h x (by simp)).bind (ih fun y hy => h y (by simp [hy]))).cast (by simp) (by simp)

theorem ite {g : LebGen} {c : Prop} [Decidable c] {w1 w2 : Wr Unit} {P1 P2 : Prop} {t1 t2 : List Field}
    (h1 : c → Emits g w1 P1 t1) (h2 : ¬ c → Emits g w2 P2 t2) :
    Emits g (if c then w1 else w2) (if c then P1 else P2) (if c then t1 else t2) := by
  by_cases h : c
  · simp only [h, ↓reduceIte]; exact h1 h
  · simp only [h, ↓reduceIte]; exact h2 h

/-- The number of bytes a table takes. -/
def size (g : LebGen) (t : List Field) : Nat := (encode g t).length / 8

/-- A temporary buffer. -/
theorem sub {g : LebGen} {p : Wr Unit} {f : WBuf → Wr Unit} {P Q : Prop} {t t' : List Field} (hp : Emits g p P t)
    (hf : P → Fits g t → ∀ w, SubOk g p w → Emits g (f w) Q t') (ht : Fits g t' → Fits g t) :
    Emits g ((Wr.sub p).bind f) (P ∧ Q) t' := by
  intro bs
  rw [Wr.eval_bind_ok]
  constructor
  · rintro ⟨w, b1, b2, e1, e2, rfl⟩
    obtain ⟨hs, rfl⟩ := Wr.sub_ok e1
    obtain ⟨hP, hF, -⟩ := (hp _).mp hs.eval
    obtain ⟨hQ, hF', rfl⟩ := (hf hP hF w hs b2).mp e2
    exact ⟨⟨hP, hQ⟩, hF', rfl⟩
  · rintro ⟨⟨hP, hQ⟩, hF', rfl⟩
    have hev := (hp _).mpr ⟨hP, ht hF', rfl⟩
    obtain ⟨h1, h2, -, h4⟩ := p.run_empty g
    rw [hev] at h1 h4
    simp only at h1 h4
    have hrun : p.run (WBuf.empty g) = (.ok (), (p.run (WBuf.empty g)).2) := Prod.ext h1 rfl
    have hs : SubOk g p (p.run (WBuf.empty g)).2 := ⟨hrun, h2, by rw [h4]; exact hev⟩
    refine ⟨(p.run (WBuf.empty g)).2, [], encode g t', ?_, (hf hP (ht hF') _ hs _).mpr ⟨hQ, hF', rfl⟩, rfl⟩
    rw [Wr.sub_eval, hrun]

end Emits

/-- What a temporary buffer holds. -/
theorem SubOk.table {g : LebGen} {p : Wr Unit} {w : WBuf} {P : Prop} {t : List Field} (hs : SubOk g p w)
    (hp : Emits g p P t) : w.bits = encode g t ∧ w.off = (encode g t).length ∧
      ((encode g t).length % 8 = 0 → w.bytes.length = Emits.size g t ∧ bytesBits w.bytes = encode g t) ∧
      (w.isByteAligned = true ↔ (encode g t).length % 8 = 0) := by
  have h1 := ((hp _).mp hs.eval).2.2
  have h2 := hs.off
  rw [h1] at h2
  have h3 := hs.wf.tight
  refine ⟨h1, h2.symm, fun ha => ⟨?_, ?_⟩, ?_⟩
  · unfold Emits.size; omega
  · rw [hs.bytes_of_aligned (by omega), h1]
  · rw [WBuf.isByteAligned_iff, ← h2]

theorem Emits.pre {g : LebGen} {c : Prop} {w : Wr Unit} {P : Prop} {t : List Field}
    (hc : ∀ bs, w.eval g = (.ok (), bs) → c) (h : c → Emits g w P t) : Emits g w (c ∧ P) t := by
  intro bs
  constructor
  · intro e
    have := hc bs e
    exact ⟨⟨this, ((h this bs).mp e).1⟩, ((h this bs).mp e).2⟩
  · rintro ⟨⟨c, p⟩, r⟩
    exact (h c bs).mpr ⟨p, r⟩

/-! ### The OBU header -/

/-- The optional fields that follow `obu_size`. -/
def headerTail (h : ObuHeader) : List Field :=
  (if 5 ≤ h.obuType.toNat ∧ h.obuType.toNat ≤ 23 ∧ h.typeSpecificFlag = true then [.leb h.trimEnd, .leb h.trimStart] else []) ++
  (match h.ext with
    | some l => [.leb (UInt32.ofNat l.length), .bytes l]
    | none => [])

/-- The OBU header; `size` is the number of bytes that follow the field `obu_size`. -/
def headerTable (h : ObuHeader) (size : Nat) : List Field :=
  [.u 5 h.obuType.toNat, .u 1 h.redundantCopy.toNat, .u 1 h.typeSpecificFlag.toNat, .u 1 h.ext.isSome.toNat,
    .leb (UInt32.ofNat size)] ++ headerTail h

/-- The flags a header may have: no redundant copies of temporal unit OBUs (types 3 to 23); the type specific flag exists
only for audio frames, temporal delimiters and mix presentations. -/
def HeaderOk (h : ObuHeader) : Prop :=
  (h.redundantCopy = true → ¬ (3 ≤ h.obuType.toNat ∧ h.obuType.toNat ≤ 23)) ∧
  (h.typeSpecificFlag = true → h.obuType.toNat = 2 ∨ (4 ≤ h.obuType.toNat ∧ h.obuType.toNat ≤ 23))

instance (h : ObuHeader) : Decidable (HeaderOk h) := by unfold HeaderOk; infer_instance

theorem isAudioFrameType_iff (t : ObuType) : isAudioFrameType t = true ↔ 5 ≤ t.toNat ∧ t.toNat ≤ 23 := by
  unfold isAudioFrameType
  simp only [Bool.or_eq_true, Bool.and_eq_true, decide_eq_true_eq, beq_iff_eq, UInt8.le_iff_toNat_le, ← UInt8.toNat_inj,
    UInt8.reduceToNat]
  omega

theorem headerOk_iff (h : ObuHeader) : h.valid = true ↔ HeaderOk h := by
  unfold ObuHeader.valid HeaderOk isRedundantCopyAllowed isTypeSpecificFlagAllowed
  have ha := isAudioFrameType_iff h.obuType
  have h4 : (h.obuType == ObuType.temporalDelimiter) = true ↔ h.obuType.toNat = 4 := by
    rw [beq_iff_eq, ← UInt8.toNat_inj]; rfl
  have h3 : (h.obuType == ObuType.parameterBlock) = true ↔ h.obuType.toNat = 3 := by
    rw [beq_iff_eq, ← UInt8.toNat_inj]; rfl
  have h2 : (h.obuType == ObuType.mixPresentation) = true ↔ h.obuType.toNat = 2 := by
    rw [beq_iff_eq, ← UInt8.toNat_inj]; rfl
  generalize isAudioFrameType h.obuType = a at *
  generalize (h.obuType == ObuType.temporalDelimiter) = b at *
  generalize (h.obuType == ObuType.parameterBlock) = c at *
  generalize (h.obuType == ObuType.mixPresentation) = d at *
  cases h.redundantCopy <;> cases h.typeSpecificFlag <;> cases a <;> cases b <;> cases c <;> cases d <;> simp at * <;> omega

theorem emits_headerTail {g : LebGen} (h : ObuHeader) : Emits g h.wFieldsAfterSize True (headerTail h) := by
  unfold ObuHeader.wFieldsAfterSize headerTail
  simp only [Wr.bind_eq, Wr.pure_eq]
  refine (Emits.bind (P1 := True) (P2 := True) (t1 := if 5 ≤ h.obuType.toNat ∧ h.obuType.toNat ≤ 23 ∧ h.typeSpecificFlag = true then [.leb h.trimEnd, .leb h.trimStart] else [])
    (t2 := match h.ext with
    | some l => [.leb (UInt32.ofNat l.length), .bytes l]
    | none => []) ?_ ?_).cast (by simp) (fun _ => rfl)
  · have : h.trimFlag = true ↔ (5 ≤ h.obuType.toNat ∧ h.obuType.toNat ≤ 23 ∧ h.typeSpecificFlag = true) := by
      unfold ObuHeader.trimFlag
      have := isAudioFrameType_iff h.obuType
      generalize isAudioFrameType h.obuType = a at *
      cases a <;> simp at * <;> grind
    refine (Emits.ite (c := h.trimFlag = true) (fun _ => Emits.uleb.bind Emits.uleb) (fun _ => Emits.ret)).cast (by simp) (fun _ => ?_)
    by_cases ht : h.trimFlag = true
    · rw [if_pos ht, if_pos (this.mp ht)]; rfl
    · rw [if_neg ht, if_neg (mt this.mpr ht)]
  · unfold ObuHeader.extSize
    match h.ext with
    | some l => exact (Emits.uleb.bind Emits.bytes).cast (by simp) (fun _ => rfl)
    | none => exact Emits.ret

theorem headerTail_aligned (g : LebGen) (h : ObuHeader) : (encode g (headerTail h)).length % 8 = 0 := by
  unfold headerTail
  rw [encode_append, List.length_append]
  have h1 : (encode g (if 5 ≤ h.obuType.toNat ∧ h.obuType.toNat ≤ 23 ∧ h.typeSpecificFlag = true then [.leb h.trimEnd, .leb h.trimStart] else [])).length % 8 = 0 := by
    split
    · simp only [encode_cons, encode_nil, Field.bits, List.length_append, bytesBits_length, List.length_nil]; omega
    · rfl
  have h2 : (encode g (match h.ext with
    | some l => [.leb (UInt32.ofNat l.length), .bytes l]
    | none => [])).length % 8 = 0 := by
    split
    · simp only [encode_cons, encode_nil, Field.bits, List.length_append, bytesBits_length, List.length_nil]; omega
    · rfl
  omega

/-- The condition on the size of an OBU: with its type and size fields it takes at most two megabytes. -/
def SizeOk (g : LebGen) (size : Nat) : Prop := 1 + g.len (UInt32.ofNat size) + size ≤ 2097152

instance (g : LebGen) (n : Nat) : Decidable (SizeOk g n) := by unfold SizeOk; infer_instance

theorem emits_header {g : LebGen} (h : ObuHeader) (n : Nat) :
    Emits g (h.write (n : Int)) (HeaderOk h ∧ SizeOk g (Emits.size g (headerTail h) + n))
      (headerTable h (Emits.size g (headerTail h) + n)) := by
  unfold ObuHeader.write
  intro bs
  simp only [Wr.bind_eq]
  constructor
  · intro e
    rw [Wr.eval_bind_ok] at e
    obtain ⟨sz, b1, b2, e1, e2, rfl⟩ := e
    unfold ObuHeader.wObuSizeAndValidate at e1
    simp only [Wr.bind_eq] at e1
    obtain ⟨hc, e3⟩ := Wr.check_bind_ok e1
    obtain ⟨after, hafter, e4⟩ := Wr.sub_bind_ok e3
    obtain ⟨-, -, ha, -⟩ := hafter.table (emits_headerTail h)
    have ha := ha (headerTail_aligned g h)
    obtain ⟨hc2, e5⟩ := Wr.check_bind_ok e4
    simp only [Bool.and_eq_true, decide_eq_true_eq] at hc2
    simp only [Bool.not_eq_true', Bool.or_eq_false_iff, decide_eq_false_iff_not] at hc
    have hn : n < 4294967296 := by omega
    have hal : after.bytes.length < 4294967296 := by omega
    unfold addUint32CheckOverflow at e5
    have hu1 : (UInt32.ofNat after.bytes.length).toNat = after.bytes.length := by
      rw [UInt32.toNat_ofNat']; omega
    have hu2 : (UInt32.ofNat ((n : Int).toNat)).toNat = n := by
      rw [UInt32.toNat_ofNat', Int.toNat_natCast]; omega
    rw [hu1, hu2] at e5
    by_cases hov : after.bytes.length + n > 4294967295
    · rw [if_pos hov] at e5; simp [Wr.eval, Wr.runA] at e5
    rw [if_neg hov] at e5
    simp only at e5
    obtain ⟨so, hso, e6⟩ := Wr.sub_bind_ok e5
    obtain ⟨-, -, hs, -⟩ := hso.table Emits.uleb
    have hs := (hs (by simp [encode, Field.bits])).1
    obtain ⟨hst, e7⟩ := Wr.status_bind_ok e6
    obtain ⟨hv, e8⟩ := Wr.check_bind_ok e7
    simp only [Wr.pure_eq, Wr.eval_ret, Prod.mk.injEq, Except.ok.injEq] at e8
    obtain ⟨rfl, rfl⟩ := e8
    have hsz : so.bytes.length = g.len (UInt32.ofNat (after.bytes.length + n)) := by
      rw [hs]; simp [Emits.size, encode, Field.bits, ulebFixed_length]
    have hbody := ((Emits.u8 (n := 5) (by omega) (by omega)).bind (Emits.bool.bind (Emits.bool.bind (Emits.bool.bind
      (Emits.uleb.bind (emits_headerTail h)))))) b2 |>.mp e2
    obtain ⟨-, hF, rfl⟩ := hbody
    have hso' : SizeOk g (Emits.size g (headerTail h) + n) := by
      unfold validateUnderTwoMb kMaxLeb128Size kEntireObuSizeMaxTwoMegabytes at hst
      have hu : (UInt32.ofNat (after.bytes.length + n)).toNat = after.bytes.length + n := by
        rw [UInt32.toNat_ofNat']; omega
      rw [hu] at hst
      unfold SizeOk
      rw [← ha.1, ← hsz]
      by_cases h1 : so.bytes.length > 8
      · rw [if_pos h1] at hst; simp at hst
      · rw [if_neg h1] at hst
        by_cases h2 : after.bytes.length + n > 2097152 - 1 - so.bytes.length
        · rw [if_pos h2] at hst; simp at hst
        · omega
    refine ⟨⟨(headerOk_iff h).mp hv, hso'⟩, ?_, ?_⟩
    · rw [ha.1] at hF; exact hF
    · rw [ha.1]; rfl
  · rintro ⟨⟨hv, hso⟩, hF, rfl⟩
    have htail : Fits g (headerTail h) := ((fits_append _ _ _).mp hF).2
    have hsoF : g.fits (UInt32.ofNat (Emits.size g (headerTail h) + n)) :=
      hF (.leb (UInt32.ofNat (Emits.size g (headerTail h) + n))) (by simp [headerTable])
    have hsub : ∀ {p : Wr Unit} {t : List Field}, Emits g p True t → Fits g t →
        ∃ w, SubOk g p w ∧ (Wr.sub p).eval g = (.ok w, []) := by
      intro p t hp ht
      have hev := (hp _).mpr ⟨trivial, ht, rfl⟩
      obtain ⟨h1, h2, -, h4⟩ := p.run_empty g
      rw [hev] at h1 h4
      simp only at h1 h4
      have hrun : p.run (WBuf.empty g) = (.ok (), (p.run (WBuf.empty g)).2) := Prod.ext h1 rfl
      exact ⟨_, ⟨hrun, h2, by rw [h4]; exact hev⟩, by rw [Wr.sub_eval, hrun]⟩
    rw [Wr.eval_bind_ok]
    refine ⟨UInt32.ofNat (Emits.size g (headerTail h) + n), [], _, ?_,
      (((Emits.u8 (n := 5) (by omega) (by omega)).bind (Emits.bool.bind (Emits.bool.bind (Emits.bool.bind
      (Emits.uleb.bind (emits_headerTail h)))))) _).mpr ⟨by simp, hF, rfl⟩, rfl⟩
    unfold SizeOk at hso
    unfold ObuHeader.wObuSizeAndValidate
    obtain ⟨after, hafter, eafter⟩ := hsub (emits_headerTail h) htail
    obtain ⟨-, -, ha, hali⟩ := hafter.table (emits_headerTail h)
    have ha := ha (headerTail_aligned g h)
    have hali := hali.mpr (headerTail_aligned g h)
    obtain ⟨so, hso2, eso⟩ := hsub (Emits.uleb (v := UInt32.ofNat (Emits.size g (headerTail h) + n))) ((fits_cons _ _ _).mpr ⟨hsoF, by simp⟩)
    obtain ⟨-, -, hs, -⟩ := hso2.table Emits.uleb
    have hs := (hs (by simp [encode, Field.bits])).1
    have hsz : so.bytes.length = g.len (UInt32.ofNat (Emits.size g (headerTail h) + n)) := by
      rw [hs]; simp [Emits.size, encode, Field.bits, ulebFixed_length]
    have hn8 := (g.fits_bounds _ hsoF).2.1
    have hu1 : (UInt32.ofNat after.bytes.length).toNat = after.bytes.length := by
      rw [UInt32.toNat_ofNat']; omega
    have hu2 : (UInt32.ofNat ((n : Int).toNat)).toNat = n := by
      rw [UInt32.toNat_ofNat', Int.toNat_natCast]; omega
    have hc1 : (!(decide (0 > (n : Int)) || decide ((n : Int) > 4294967295))) = true := by
      simp only [Bool.not_eq_true', Bool.or_eq_false_iff, decide_eq_false_iff_not]; omega
    have hc2 : (after.isByteAligned && decide (after.bytes.length ≤ 4294967295)) = true := by
      rw [hali]; simp; omega
    have hadd : addUint32CheckOverflow (UInt32.ofNat after.bytes.length) (UInt32.ofNat ((n : Int).toNat)) =
        .ok (UInt32.ofNat (Emits.size g (headerTail h) + n)) := by
      unfold addUint32CheckOverflow
      rw [hu1, hu2, if_neg (by omega), ha.1]
    have hst : validateUnderTwoMb (UInt32.ofNat (Emits.size g (headerTail h) + n)) so.bytes.length = .ok () := by
      unfold validateUnderTwoMb kMaxLeb128Size kEntireObuSizeMaxTwoMegabytes
      rw [if_neg (by omega), if_neg]
      rw [UInt32.toNat_ofNat']; omega
    simp only [Wr.bind_eq, Wr.pure_eq, Wr.eval_bind, hc1, hc2, eafter, hadd, eso, hst, Wr.check, Wr.status,
      (headerOk_iff h).mpr hv, ↓reduceIte, Wr.eval_ret, List.nil_append]

/-- **A whole OBU.** -/
theorem emits_obu {g : LebGen} {h : ObuHeader} {payload : Wr Unit} {footer : List UInt8} {P : Prop} {t : List Field}
    (hp : Emits g payload P t) :
    Emits g (wObu h payload footer)
      (P ∧ (encode g t).length % 8 = 0 ∧ HeaderOk h ∧
        SizeOk g (Emits.size g (headerTail h) + (Emits.size g t + footer.length)))
      (headerTable h (Emits.size g (headerTail h) + (Emits.size g t + footer.length)) ++ (t ++ [.bytes footer])) := by
  unfold wObu
  have hp2 := hp.bind (Emits.bytes (g := g) (l := footer))
  refine ((hp2.sub (Q := (encode g t).length % 8 = 0 ∧ HeaderOk h ∧
        SizeOk g (Emits.size g (headerTail h) + (Emits.size g t + footer.length))) ?_ ?_).cast (by simp) (fun _ => rfl))
  · intro _ hF w hw
    obtain ⟨-, ho, hb, hal⟩ := hw.table hp2
    have hl : (encode g (t ++ [.bytes footer])).length = (encode g t).length + 8 * footer.length := by
      simp [encode, Field.bits, bytesBits_length]
    by_cases ha : (encode g t).length % 8 = 0
    · obtain ⟨h1, h2⟩ := hb (by omega)
      have h3 : Emits.size g (t ++ [.bytes footer]) = Emits.size g t + footer.length := by
        unfold Emits.size; omega
      rw [h3] at h1
      have hw' : w.isByteAligned = true := hal.mpr (by omega)
      have hbytes : Emits g (wBytes w.bytes) True (t ++ [.bytes footer]) := by
        intro bs
        rw [eval_wBytes]
        simp only [Prod.mk.injEq, true_and]
        constructor
        · rintro rfl; exact ⟨hF, h2⟩
        · rintro ⟨-, rfl⟩; exact h2
      rw [h1]
      exact (Emits.check.bind ((emits_header h (Emits.size g t + footer.length)).bind hbytes)).cast
        (by simp [hw', ha]) (fun _ => by simp)
    · have hw' : w.isByteAligned = false := by
        have := mt hal.mp (by omega)
        simpa using this
      intro bs
      rw [hw']
      constructor
      · intro e
        obtain ⟨hc, -⟩ := Wr.check_bind_ok e
        simp at hc
      · rintro ⟨h, -⟩
        exact absurd h.1 ha
  · intro hF
    simp only [fits_append] at hF ⊢
    exact hF.2

end Iamf
