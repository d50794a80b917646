import Verif.Prim
/-
  Property theorems for the bit-level API: `LebGenerator`, `WriteBitBuffer`, `ReadBitBuffer`.
-/
namespace Iamf.Props

/-! ## C01: ULEB128 generation -/

/-- **C01.** For every generator the factory can produce and every 32-bit value: the generator returns
a complete LEB128 byte string whose value is the input; in minimum mode no LEB128 string with that
value is shorter (and it never fails); in fixed-size mode it has exactly the requested size, and fails
with `InvalidArgument` exactly when the value needs more than that many base-128 digits. -/
theorem C01_uleb128_generation (mode : GenerationMode) (size : Int8) (g : LebGen)
    (hg : LebGen.create mode size = some g) (v : UInt32) :
    (∀ l, g.uleb v = .ok l → IsLeb l ∧ ulebVal l = v.toNat ∧ l.length ≤ kMaxLeb128Size ∧
      (mode = .kMinimum → ∀ l', IsLeb l' → ulebVal l' = v.toNat → l.length ≤ l'.length) ∧
      (mode = .kFixedSize → (l.length : Int) = size.toInt)) ∧
    (∀ e, g.uleb v = .error e → e = .invalidArgument) ∧
    ((∃ e, g.uleb v = .error e) ↔ mode = .kFixedSize ∧ 128 ^ size.toInt.toNat ≤ v.toNat) := by
  have hm : (mode = .kMinimum ∧ g = .minimum) ∨
      (mode = .kFixedSize ∧ g = .fixed size ∧ 1 ≤ size.toInt ∧ size.toInt ≤ 8) := by
    cases mode with
    | kMinimum => left; simp [LebGen.create] at hg; exact ⟨rfl, hg.symm⟩
    | kFixedSize =>
      right
      simp only [LebGen.create] at hg
      by_cases h : 1 ≤ size.toInt ∧ size.toInt ≤ ((kMaxLeb128Size : Nat) : Int)
      · rw [if_pos h] at hg
        simp only [Option.some.injEq] at hg
        exact ⟨rfl, hg.symm, h.1, h.2⟩
      · rw [if_neg h] at hg; cases hg
  by_cases hf : g.fits v
  · have hb := g.fits_bounds v hf
    rw [g.uleb_ok v hf]
    refine ⟨?_, by simp, ?_⟩
    · intro l hl
      simp only [Except.ok.injEq] at hl
      subst hl
      refine ⟨g.enc_isLeb v hf, g.enc_val v hf, by rw [g.enc_length]; exact hb.2.1, ?_, ?_⟩
      · intro hmode l' h1 h2
        have : g = .minimum := by
          rcases hm with ⟨_, h⟩ | ⟨h, _⟩
          · exact h
          · rw [hmode] at h; cases h
        subst this
        have := isLeb_length_ge l' h1
        rw [h2] at this
        simpa [LebGen.len] using this
      · intro hmode
        rcases hm with ⟨h, _⟩ | ⟨_, h, h1, h2⟩
        · rw [hmode] at h; cases h
        · subst h; simp only [LebGen.enc_length, LebGen.len]; omega
    · constructor
      · rintro ⟨e, he⟩; simp at he
      · rintro ⟨hmode, hv⟩
        rcases hm with ⟨h, _⟩ | ⟨_, h, h1, h2⟩
        · rw [hmode] at h; cases h
        · subst h; simp only [LebGen.fits] at hf; omega
  · rw [g.uleb_err v hf]
    refine ⟨by simp, by simp, ?_⟩
    rcases hm with ⟨_, h⟩ | ⟨hmode, h, h1, h2⟩
    · subst h; exact absurd trivial hf
    · subst h
      simp only [LebGen.fits, h1, h2, true_and] at hf
      constructor
      · intro _; exact ⟨hmode, by omega⟩
      · intro _; exact ⟨_, rfl⟩

example : LebGen.create .kFixedSize 2 = some (.fixed 2) := by decide +kernel
example : (LebGen.fixed 2).uleb 300 = .ok [0xac, 0x02] := by decide +kernel
example : (LebGen.fixed 1).uleb 128 = .error .invalidArgument := by decide +kernel

/-! ## C02: the write buffer is an append-only bit string -/

/-- **C02.** Take any buffer built by any earlier (successful or failed) sequence of writes, and any
further sequence of writes.  The bits that were there before are untouched; the new bits are exactly
those the bit-string semantics of the sequence prescribes, also when it stops with an error; the
status is the prescribed one; and the byte vector holds exactly those bits, zero padded to a byte. -/
theorem C02_write_buffer_appends {α β : Type} (g : LebGen) (earlier : Wr α) (p : Wr β) :
    let w := (earlier.run (WBuf.empty g)).2
    let w' := (p.run w).2
    (p.run w).1 = (p.eval g).1 ∧
    w'.bits = w.bits ++ (p.eval g).2 ∧
    w'.off = w'.bits.length ∧
    bytesBits w'.bytes = w'.bits ++ List.replicate (8 * w'.bytes.length - w'.off) false ∧
    w'.bytes.length = (w'.off + 7) / 8 := by
  intro w w'
  obtain ⟨-, hw, hl, -⟩ := earlier.run_empty g
  obtain ⟨h1, h2, h3, h4⟩ := p.run_append w hw
  have hg : w.leb = g := hl
  rw [hg] at h1 h4
  exact ⟨h1, h4, (w'.bits_length h2.toOk).symm, w'.bytesBits_eq h2.toOk, h2.tight⟩

/-- **C02, single writes.** A single literal write either appends exactly the `n` requested bits, most
significant first, or fails with `InvalidArgument` and leaves the buffer exactly as it was; it fails
iff the count is negative or above 32, or the value needs more than `n` bits. -/
theorem C02_write_literal_all_or_nothing {α : Type} (g : LebGen) (earlier : Wr α) (d : UInt32) (n : Nat)
    (hn : 0 < n) :
    let w := (earlier.run (WBuf.empty g)).2
    if n ≤ 32 ∧ d.toNat < 2 ^ n then
      ((wU32 d n).run w).1 = .ok () ∧ ((wU32 d n).run w).2.bits = w.bits ++ natBits n d.toNat
    else (wU32 d n).run w = (.error .invalidArgument, w) := by
  intro w
  obtain ⟨-, hw, hl, -⟩ := earlier.run_empty g
  split
  next h =>
    obtain ⟨h1, h2, h3, h4⟩ := (wU32 d n).run_append w hw
    rw [eval_wU32 _ _ _ hn h.1, if_pos h.2] at h1 h4
    exact ⟨h1, h4⟩
  next h =>
    have := internalWriteUnsigned_wf 32 d.toUInt64 n w hw
    have ha : Wr.litA 32 d.toUInt64 n = .error .invalidArgument := by
      unfold Wr.litA
      rw [if_neg (by omega), if_neg (by omega), if_pos]
      have e : d.toUInt64.toNat = d.toNat := by simp
      rw [e]
      simp only [Int.toNat_natCast]
      omega
    rw [ha] at this
    simp only [wU32, Wr.run, this]

example : ((wU32 5 3).run (WBuf.empty .minimum)).2.bits = [true, false, true] := by decide +kernel
example : (wU32 9 3).run (WBuf.empty .minimum) = (.error .invalidArgument, WBuf.empty .minimum) := by decide +kernel

/-! ## C03: the read buffer is a cursor over the source -/

/-- **C03.** For every source, every internal buffer capacity, and every sequence of reads, seeks and
tells: the statuses and values, and the reported position afterwards, are those of a plain cursor over
the source bits.  In particular they do not depend on the capacity (so memory-, file- and stream-based
buffers agree), and the buffer logic never aborts, loops forever or touches memory out of range. -/
theorem C03_read_buffer_is_cursor {α : Type} (p : Rd α) (src : List UInt8) (cap : Nat) (pv : Bool)
    (hcap : 0 < cap ∨ src = []) :
    let s : RS := ⟨bytesBits src, 0, pv⟩
    (p.run (RBuf.create cap src pv)).1 = (p.runA s).1 ∧
    (p.run (RBuf.create cap src pv)).2.tell = (p.runA s).2.pos ∧
    (p.run (RBuf.create cap src pv)).2.src = src := by
  have h := p.run_refines (RBuf.create cap src pv) (RBuf.wf_create cap src pv hcap)
  rw [RBuf.abs_create] at h
  refine ⟨h.1, ?_, h.2.2.2⟩
  have h3 := congrArg RS.pos h.2.2.1
  have h4 := h.2.1.tell_nonneg
  simp only [RBuf.abs] at h3
  omega

/-- **C03, corollary.** Two buffers over the same source give the same answers whatever their
capacities. -/
theorem C03_capacity_is_unobservable {α : Type} (p : Rd α) (src : List UInt8) (cap cap' : Nat) (pv : Bool)
    (h : 0 < cap) (h' : 0 < cap') :
    (p.run (RBuf.create cap src pv)).1 = (p.run (RBuf.create cap' src pv)).1 := by
  rw [(C03_read_buffer_is_cursor p src cap pv (.inl h)).1,
    (C03_read_buffer_is_cursor p src cap' pv (.inl h')).1]

example : ((rU16 12).run (RBuf.create 1 [0xab, 0xcd] false)).1 = .ok 0xabc := by decide +kernel

/-- **C03, excluded point (finding).** A stream buffer created with capacity 0 — which the factory
accepts — never returns from reading a byte-aligned whole byte once data has been pushed. -/
theorem C03_capacity_zero_diverges :
    (((rU8 8).run ((RBuf.create 0 [] true).pushBytes [1]).2).1) = .error .diverge := by decide +kernel

/-! ## C04: typed round trip -/

/-- One value as a user writes it. -/
inductive Item where
  | literal (n : Fin 32) (v : UInt32)        -- `n + 1` bits
  | literal64 (n : Fin 64) (v : UInt64)      -- `n + 1` bits
  | signed16 (v : Int16)
  | signed9 (v : Int16)
  | signed8 (v : Int8)
  | boolean (b : Bool)
  | uleb128 (v : UInt32)
  | string (s : List UInt8)
  | bytes (l : List UInt8)
  | iso14496 (v : UInt32)
  deriving DecidableEq, Repr

/-- What the reader has to know to read an item back: its kind and static width. -/
inductive Shape where
  | literal (n : Fin 32) | literal64 (n : Fin 64) | signed16 | signed9 | signed8 | boolean | uleb128
  | string | bytes (n : Nat) | iso14496
  deriving DecidableEq, Repr

def Item.shape : Item → Shape
  | .literal n _ => .literal n
  | .literal64 n _ => .literal64 n
  | .signed16 _ => .signed16
  | .signed9 _ => .signed9
  | .signed8 _ => .signed8
  | .boolean _ => .boolean
  | .uleb128 _ => .uleb128
  | .string _ => .string
  | .bytes l => .bytes l.length
  | .iso14496 _ => .iso14496

def Item.write : Item → Wr Unit
  | .literal n v => wU32 v ((n.val + 1 : Nat) : Int)
  | .literal64 n v => wU64 v ((n.val + 1 : Nat) : Int)
  | .signed16 v => wS16 v
  | .signed9 v => wS9 v
  | .signed8 v => wS8 v
  | .boolean b => wBool b
  | .uleb128 v => wUleb v
  | .string s => wString s
  | .bytes l => wBytes l
  | .iso14496 v => wIso v

def Shape.read : Shape → Rd Item
  | .literal n => do let v ← rU32 ((n.val + 1 : Nat) : Int); pure (.literal n v)
  | .literal64 n => do let v ← rU64 ((n.val + 1 : Nat) : Int); pure (.literal64 n v)
  | .signed16 => do let v ← rS16; pure (.signed16 v)
  | .signed9 => do let v ← rS9; pure (.signed9 v)
  | .signed8 => do let v ← rS8; pure (.signed8 v)
  | .boolean => do let v ← rBool; pure (.boolean v)
  | .uleb128 => do let v ← rUleb; pure (.uleb128 v)
  | .string => do let v ← rString; pure (.string v)
  | .bytes n => do let v ← rBytes n; pure (.bytes v)
  | .iso14496 => do let v ← rIso 0xffffffff; pure (.iso14496 v)

/-- Read a list of items. -/
def readItems : List Shape → Rd (List Item)
  | [] => pure []
  | s :: ss => do let i ← s.read; let is ← readItems ss; pure (i :: is)

theorem Item.rt (g : LebGen) (i : Item) : RT g i.write i.shape.read i := by
  cases i with
  | literal n v => exact (rt_U32 g v (n.val + 1) (by omega) (by omega)).map rfl
  | literal64 n v => exact (rt_U64 g v (n.val + 1) (by omega) (by omega)).map rfl
  | signed16 v => exact (rt_S16 g v).map rfl
  | signed9 v => exact (rt_S9 g v).map rfl
  | signed8 v => exact (rt_S8 g v).map rfl
  | boolean b => exact (rt_Bool g b).map rfl
  | uleb128 v => exact (rt_Uleb g v).map rfl
  | string s => exact (rt_String g s).map rfl
  | bytes l => exact (rt_Bytes g l).map rfl
  | iso14496 v => exact (rt_Iso g v 0xffffffff (by have := v.toNat_lt; simp; omega)).map rfl

theorem items_rt (g : LebGen) (l : List Item) : RT g (wAll Item.write l) (readItems (l.map Item.shape)) l := by
  induction l with
  | nil => exact RT.ret g []
  | cons i l ih =>
    simp only [wAll, List.map_cons, readItems]
    exact (Item.rt g i).seq (ih.map rfl)

theorem zeros_eq (pre : Nat) :
    wAll (fun _ => wBool false) (List.replicate pre ()) = wAll (fun b => wBool b) (List.replicate pre false) := by
  induction pre with
  | zero => rfl
  | succ n ih => simp only [List.replicate_succ, wAll, ih]

/-- **C04.** For every LEB128 generator, every bit offset at which writing starts, and every sequence
of values of the ten kinds: if writing all of them succeeds, then reading the same kinds back from the
resulting bytes — from that offset, through a buffer of any capacity, with any further bytes after
them — returns exactly the values that were written and stops exactly after them. -/
theorem C04_typed_round_trip (g : LebGen) (pre : Nat) (items : List Item) (trailing : List UInt8)
    (cap : Nat) (pv : Bool) (hcap : 0 < cap) (w : WBuf)
    (hw : (((wAll (fun _ => wBool false) (List.replicate pre ())).bind fun _ => wAll Item.write items).run
      (WBuf.empty g)) = (.ok (), w)) :
    let r := ((rRep rBool pre).bind fun _ => readItems (items.map Item.shape)).run
      (RBuf.create cap (w.bytes ++ trailing) pv)
    r.1 = .ok items ∧ r.2.tell = w.off := by
  intro r
  have hrun := (((wAll (fun _ => wBool false) (List.replicate pre ())).bind fun _ =>
    wAll Item.write items)).run_empty g
  rw [hw] at hrun
  obtain ⟨h1, hwf, -, hbits⟩ := hrun
  have hrt : RT g ((wAll (fun _ => wBool false) (List.replicate pre ())).bind fun _ => wAll Item.write items)
      ((rRep rBool pre).bind fun _ => readItems (items.map Item.shape)) items := by
    have := rt_rep g (fun b => wBool b) rBool (List.replicate pre false) (fun a _ => rt_Bool g a)
    rw [List.length_replicate] at this
    refine RT.seq (a := List.replicate pre false) ?_ (items_rt g items)
    rw [zeros_eq]; exact this
  have hreads := hrt w.bits (Prod.ext h1.symm hbits.symm)
  have hpre : w.bits <+: (⟨bytesBits (w.bytes ++ trailing), 0, pv⟩ : RS).rest := by
    simp only [RS.rest, List.drop_zero, bytesBits_append]
    rw [w.bytesBits_eq hwf.toOk, List.append_assoc]
    exact List.prefix_append _ _
  obtain ⟨v, e, -⟩ := hreads ⟨bytesBits (w.bytes ++ trailing), 0, pv⟩ (by simp) hpre
  have hc := C03_read_buffer_is_cursor ((rRep rBool pre).bind fun _ => readItems (items.map Item.shape))
    (w.bytes ++ trailing) cap pv (.inl hcap)
  simp only [e] at hc
  refine ⟨hc.1, ?_⟩
  have := hc.2.1
  rw [Nat.zero_add, w.bits_length hwf.toOk] at this
  exact this

example : ((wAll Item.write [.literal 4 17, .uleb128 300, .string [0x68, 0x69], .signed9 (-200), .boolean true]).run
    (WBuf.empty .minimum)).1 = .ok () := by decide +kernel

/-! ## C05: streaming: pushing and flushing -/

/-- The state of a user feeding a stream buffer. -/
inductive StreamOp where
  | push (bytes : List UInt8)
  | flush
  | read (n : Fin 33)                 -- read an `n`-bit literal

/-- Specification: the queue of bits not yet consumed. -/
def streamSpec : List StreamOp → Bits → List (Except Err Nat) × Bits
  | [], q => ([], q)
  | .push bs :: ops, q => streamSpec ops (q ++ bytesBits bs)
  | .flush :: ops, q => streamSpec ops q
  | .read n :: ops, q =>
    if n.val ≤ q.length then
      let r := streamSpec ops (q.drop n.val)
      (.ok (bitsNat (q.take n.val)) :: r.1, r.2)
    else
      let r := streamSpec ops q
      (.error .resourceExhausted :: r.1, r.2)

/-- The code: results of the reads, and whether every push and flush succeeded. -/
def streamRun : List StreamOp → RBuf → List (Except Err Nat) × Bool
  | [], _ => ([], true)
  | .push bs :: ops, r =>
    match r.pushBytes bs with
    | (.ok (), r') => streamRun ops r'
    | (.error _, r') => let q := streamRun ops r'; (q.1, false)
  | .flush :: ops, r =>
    match r.flush with
    | (.ok (), r') => streamRun ops r'
    | (.error _, r') => let q := streamRun ops r'; (q.1, false)
  | .read n :: ops, r =>
    let (v, r') := (Rd.lit 32 (n.val : Int) fun v => Rd.ret v).run r
    let q := streamRun ops r'
    (v :: q.1, q.2)

/-- Total number of bytes pushed. -/
def pushed : List StreamOp → Nat
  | [] => 0
  | .push bs :: ops => bs.length + pushed ops
  | _ :: ops => pushed ops

theorem stream_gen (ops : List StreamOp) (r : RBuf) (h : r.WF) (hc : 0 < r.buf.length)
    (hb : r.src.length + pushed ops ≤ 2 * kEntireObuSizeMaxTwoMegabytes) :
    (streamRun ops r).1 = (streamSpec ops r.abs.rest).1 ∧ (streamRun ops r).2 = true := by
  have htl : ∀ r : RBuf, r.WF → r.abs.pos ≤ r.abs.src.length := by
    intro r h
    have h1 := r.tell_le h
    have h2 := h.srcSize_eq
    have h3 := h.tell_nonneg
    simp only [RBuf.abs, bytesBits_length]; omega
  have hbuf : ∀ (n : Int) (r : RBuf), r.WF → ((Rd.lit 32 n fun v => Rd.ret v).run r).2.buf.length = r.buf.length := by
    intro n r h
    exact Rd.run_cap _ r
  induction ops generalizing r with
  | nil => exact ⟨rfl, rfl⟩
  | cons op ops ih =>
    cases op with
    | push bs =>
      simp only [pushed] at hb
      obtain ⟨r', e1, e2, e3, e4, e5⟩ := push_refines bs r h hc (by omega)
      simp only [streamRun, e1, streamSpec]
      have := ih r' e2 (by omega) (by rw [e3, List.length_append]; omega)
      rw [e5] at this
      have er : (⟨r.abs.src ++ bytesBits bs, r.abs.pos, r.abs.valid⟩ : RS).rest = r.abs.rest ++ bytesBits bs := by
        simp only [RS.rest]
        rw [List.drop_append_of_le_length (htl r h)]
      rw [er] at this
      exact this
    | flush =>
      simp only [pushed] at hb
      obtain ⟨r', e1, e2, e3, e4, e5, e6⟩ := flush_refines r h
      simp only [streamRun, e1, streamSpec]
      have := ih r' e2 (by omega) (by rw [e3, List.length_drop]; omega)
      rw [e6] at this
      exact this
    | read n =>
      simp only [pushed] at hb
      have href := (Rd.lit 32 (n.val : Int) fun v => Rd.ret v).run_refines r h
      have hlen := hbuf n.val r h
      simp only [streamRun, streamSpec]
      have hra : (Rd.lit 32 (n.val : Int) fun v => Rd.ret v).runA r.abs =
          if n.val ≤ r.abs.rest.length then
            (.ok (bitsNat (r.abs.rest.take n.val)), ⟨r.abs.src, r.abs.pos + n.val, true⟩)
          else (.error .resourceExhausted, ⟨r.abs.src, r.abs.pos, true⟩) := by
        have hp := htl r h
        have hn := n.isLt
        simp only [Rd.runA, RS.read, RS.rest, List.length_drop, Int.toNat_natCast]
        rw [if_neg (by omega), if_neg (by omega)]
        by_cases hx : r.abs.pos + n.val > r.abs.src.length
        · rw [if_pos hx, if_neg (by omega)]
        · rw [if_neg hx, if_pos (by omega)]
      rw [hra] at href
      obtain ⟨h1, h2, h3, h4⟩ := href
      have hih := ih _ h2 (by rw [hlen]; exact hc) (by rw [h4]; exact hb)
      rw [h3] at hih
      refine ⟨?_, hih.2⟩
      rw [hih.1, h1]
      split
      · simp only [RS.rest, List.drop_drop]
      · simp only [RS.rest]

/-- **C05.** For every stream buffer of non-zero capacity and every interleaving of pushes, flushes and
reads whose pushed bytes total at most the documented limit: the reads return exactly the next bits of
the concatenation of everything pushed so far, a read that asks for more bits than have been pushed
fails with `ResourceExhausted` and consumes nothing, and neither refilling the internal window nor
flushing is observable. -/
theorem C05_stream_is_queue (ops : List StreamOp) (cap : Nat) (pv : Bool) (hc : 0 < cap)
    (hb : pushed ops ≤ 2 * kEntireObuSizeMaxTwoMegabytes) :
    streamRun ops (RBuf.create cap [] pv) = ((streamSpec ops []).1, true) := by
  have := stream_gen ops (RBuf.create cap [] pv) (RBuf.wf_create cap [] pv (.inr rfl))
    (by simpa [RBuf.create] using hc) (by simpa [RBuf.create] using hb)
  rw [RBuf.abs_create] at this
  exact Prod.ext (by simpa [RS.rest] using this.1) this.2

example : streamRun [.push [0xff, 0x01], .read 4, .flush, .read 20, .push [0x80], .read 13] (RBuf.create 1 [] true) =
    ([.ok 15, .error .resourceExhausted, .ok 7683], true) := by decide +kernel

end Iamf.Props
