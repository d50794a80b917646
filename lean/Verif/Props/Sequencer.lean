import Verif.Cli.Sequencer
import Verif.Obu.Stream
import Verif.Props.Obu
import Verif.Props.Profile
import Verif.Props.TemporalUnit
/-
  C34: what a sequencer writes, for every history of calls and for every failure of the file it writes to.
-/
namespace Iamf.Props
open Iamf

/-! ### Specification: the bytes of a sequence -/

/-- The OBUs are written one after the other, as these bytes. -/
def WrittenInOrder (g : LebGen) (obus : List (Wr Unit)) (bytes : List UInt8) : Prop :=
  ∃ parts : List (List UInt8), bytes = parts.flatten ∧ List.Forall₂ (Writes g) obus parts

/-- The arbitrary OBUs with an insertion hook, in their order. -/
def atHook (hook : Nat) (l : List ArbitraryObu) : List (Wr Unit) := (l.filter fun o => o.insertionHook = hook).map ArbitraryObu.write

/-- The OBUs of the descriptors, with codec configs and audio elements in a given order. -/
def descriptorObus (d : SequenceObus) (codecs : List (UInt32 × Obu CodecObu)) (elements : List (UInt32 × Obu ElementWithData)) :
    List (Wr Unit) :=
  atHook 0 d.arbitrary ++
  [wObu d.sequenceHeader.header d.sequenceHeader.body.write d.sequenceHeader.footer] ++
  atHook 2 d.arbitrary ++
  d.metadata.map (fun o => wObu o.header o.body.write o.footer) ++
  codecs.map (fun c => wObu c.2.header c.2.body.config.write c.2.footer) ++
  atHook 3 d.arbitrary ++
  elements.map (fun e => wObu e.2.header e.2.body.obu.write e.2.footer) ++
  atHook 4 d.arbitrary ++
  d.mixes.map (fun m => wObu m.header (m.body.write m.header.optionalFieldsFlag) m.footer) ++
  atHook 5 d.arbitrary ++
  atHook 1 d.arbitrary

/-- The bytes of the descriptors: the sequence header first, then metadata, codec configs and audio elements in ascending order of
their ids, and mix presentations in the given order; arbitrary OBUs where their hooks say. -/
def DescriptorBytes (g : LebGen) (d : SequenceObus) (bytes : List UInt8) : Prop :=
  ∃ codecs elements, codecs.Perm d.codecs ∧ codecs.Pairwise (fun a b => a.1 ≤ b.1) ∧
    elements.Perm d.elements ∧ elements.Pairwise (fun a b => a.1 ≤ b.1) ∧ WrittenInOrder g (descriptorObus d codecs elements) bytes

/-- The OBUs of a temporal unit. -/
def unitObus (delimiters : Bool) (u : TemporalUnitView) : List (Wr Unit) :=
  (if delimiters then [wObu ⟨4, false, false, 0, 0, none⟩ (.ret ()) []] else []) ++
  atHook 6 u.arbitrary ++
  u.blocks.map (fun b => wObu b.header (b.obu.write b.definition) []) ++
  atHook 7 u.arbitrary ++
  u.frames.map (fun f => wObu f.header (f.frame.write f.header.obuType) []) ++
  atHook 8 u.arbitrary

/-- The bytes of a temporal unit: a delimiter if wanted, parameter blocks, audio frames; arbitrary OBUs where their hooks say. -/
def UnitBytes (g : LebGen) (delimiters : Bool) (u : TemporalUnitView) (bytes : List UInt8) : Prop :=
  WrittenInOrder g (unitObus delimiters u) bytes

/-! ### Proof: the bytes of a sequence -/

/-- A program that runs the given programs one after the other, provided that `P`. -/
private def Does (g : LebGen) (p : Wr Unit) (P : Prop) (obus : List (Wr Unit)) : Prop :=
  ∀ bs, p.eval g = (.ok (), bs) ↔
    P ∧ ∃ parts : List Bits, bs = parts.flatten ∧ List.Forall₂ (fun q b => q.eval g = (.ok (), b)) obus parts

private theorem forall₂_append {α β : Type} {R : α → β → Prop} {l1 l2 : List α} {r : List β} :
    List.Forall₂ R (l1 ++ l2) r ↔ ∃ r1 r2, r = r1 ++ r2 ∧ List.Forall₂ R l1 r1 ∧ List.Forall₂ R l2 r2 := by
  induction l1 generalizing r with
  | nil => exact ⟨fun h => ⟨[], r, rfl, .nil, h⟩, fun ⟨r1, r2, e, h1, h2⟩ => by cases h1; subst e; exact h2⟩
  | cons a l1 ih =>
    constructor
    · intro h
      cases h with
      | cons ha h =>
        obtain ⟨r1, r2, rfl, h1, h2⟩ := ih.mp h
        exact ⟨_ :: r1, r2, rfl, .cons ha h1, h2⟩
    · rintro ⟨r1, r2, rfl, h1, h2⟩
      cases h1 with
      | cons ha h1 => exact .cons ha (ih.mpr ⟨_, _, rfl, h1, h2⟩)

private theorem Does.bind {g : LebGen} {p : Wr Unit} {f : Unit → Wr Unit} {P Q : Prop} {l1 l2 : List (Wr Unit)} (hp : Does g p P l1)
    (hf : Does g (f ()) Q l2) : Does g (p.bind f) (P ∧ Q) (l1 ++ l2) := by
  intro bs
  rw [Wr.eval_bind_ok]
  constructor
  · rintro ⟨⟨⟩, b1, b2, h1, h2, rfl⟩
    obtain ⟨hP, p1, rfl, f1⟩ := (hp _).mp h1
    obtain ⟨hQ, p2, rfl, f2⟩ := (hf _).mp h2
    exact ⟨⟨hP, hQ⟩, p1 ++ p2, by simp, forall₂_append.mpr ⟨_, _, rfl, f1, f2⟩⟩
  · rintro ⟨⟨hP, hQ⟩, parts, rfl, h⟩
    obtain ⟨p1, p2, rfl, f1, f2⟩ := forall₂_append.mp h
    exact ⟨(), _, _, (hp _).mpr ⟨hP, _, rfl, f1⟩, (hf _).mpr ⟨hQ, _, rfl, f2⟩, by simp⟩

private theorem Does.ret {g : LebGen} : Does g (.ret ()) True [] := by
  intro bs
  simp only [Wr.eval_ret, Prod.mk.injEq, true_and]
  constructor
  · rintro rfl; exact ⟨[], rfl, .nil⟩
  · rintro ⟨parts, rfl, h⟩; cases h; rfl

private theorem Does.one {g : LebGen} (p : Wr Unit) : Does g p True [p] := by
  intro bs
  constructor
  · intro h; exact ⟨trivial, [bs], by simp, .cons h .nil⟩
  · rintro ⟨-, parts, rfl, h⟩
    cases h with
    | cons h1 h2 => cases h2; simpa using h1

private theorem Does.status {g : LebGen} (s : Except Err Unit) : Does g (Wr.status s) (s = .ok ()) [] := by
  intro bs
  match s with
  | .ok () => simp only [Wr.status, Does.ret bs, true_and]
  | .error e => simp [Wr.status]

private theorem Does.all {α : Type} {g : LebGen} {w : α → Wr Unit} {P : α → Prop} {o : α → Wr Unit} (h : ∀ a, Does g (w a) (P a) [o a])
    (l : List α) : Does g (wAll w l) (∀ a ∈ l, P a) (l.map o) := by
  induction l with
  | nil =>
    have := Does.ret (g := g)
    intro bs
    rw [wAll, this bs]
    simp
  | cons a l ih =>
    intro bs
    rw [wAll, Does.bind (h a) ih bs]
    simp

private theorem Does.all' {α : Type} {g : LebGen} (w : α → Wr Unit) (l : List α) : Does g (wAll w l) True (l.map w) := by
  intro bs
  rw [Does.all (P := fun _ => True) (fun a => Does.one (w a)) l bs]
  simp

private theorem hook_eq (hook : Nat) (l : List ArbitraryObu) :
    writeObusWithHook hook l = wAll ArbitraryObu.write (l.filter fun o => o.insertionHook = hook) := by
  induction l with
  | nil => rfl
  | cons o l ih =>
    simp only [writeObusWithHook, List.filter_cons, decide_eq_true_eq, ih]
    split <;> simp_all [wAll]

private theorem Does.hook {g : LebGen} (hook : Nat) (l : List ArbitraryObu) : Does g (writeObusWithHook hook l) True (atHook hook l) := by
  rw [hook_eq]; exact Does.all' _ _

private theorem Does.cast {g : LebGen} {p : Wr Unit} {P Q : Prop} {l l' : List (Wr Unit)} (h : Does g p P l) (hP : P ↔ Q) (hl : l = l') :
    Does g p Q l' := by
  subst hl; intro bs; rw [h bs, hP]

/-- The mixes are supported by one of the profiles of the sequence header. -/
private def Supported (d : SequenceObus) : Prop :=
  ∀ m ∈ d.mixes, mixIsSupported d.sequenceHeader.body (d.elements.map fun e => (e.1, e.2.body)) m.body = .ok ()

private theorem does_sequence {g : LebGen} (d : SequenceObus) :
    Does g (wSequenceObus d) (Supported d) (descriptorObus d (sortBy keyLe d.codecs) (sortBy keyLe d.elements)) := by
  have hm : Does g (wAll (fun m : Obu MixPresentation =>
      (Wr.status (mixIsSupported d.sequenceHeader.body (d.elements.map fun e => (e.1, e.2.body)) m.body)).bind fun _ =>
        wObu m.header (m.body.write m.header.optionalFieldsFlag) m.footer) d.mixes) (Supported d)
      (d.mixes.map fun m => wObu m.header (m.body.write m.header.optionalFieldsFlag) m.footer) :=
    Does.all (fun m => (Does.cast (Does.bind (Does.status _) (Does.one _)) (by simp) rfl)) d.mixes
  refine Does.cast (((Does.hook 0 _).bind (Does.bind ((Does.one _).bind ((Does.hook 2 _).bind ((Does.all' _ _).bind ((Does.all' _ _).bind
    ((Does.hook 3 _).bind ((Does.all' _ _).bind ((Does.hook 4 _).bind (hm.bind (Does.hook 5 _)))))))))
    (Does.hook 1 _)))) (by simp) ?_
  simp only [descriptorObus, List.append_assoc]

private theorem does_unit {g : LebGen} (delimiters : Bool) (u : TemporalUnitView) :
    Does g (wTemporalUnit delimiters u) True (unitObus delimiters u) := by
  have h0 : Does g (if delimiters then wObu delimiterHeader wTemporalDelimiter [] else pure ()) True
      (if delimiters then [wObu ⟨4, false, false, 0, 0, none⟩ (.ret ()) []] else []) := by
    cases delimiters
    · exact Does.ret
    · exact Does.one _
  refine Does.cast (h0.bind ((Does.hook 6 _).bind ((Does.all' _ _).bind ((Does.hook 7 _).bind ((Does.all' _ _).bind (Does.hook 8 _))))))
    (by simp) ?_
  simp only [unitObus, List.append_assoc]

/-- What is written by such a program if each of its parts is byte aligned. -/
private theorem Does.serialize {g : LebGen} {p : Wr Unit} {P : Prop} {l : List (Wr Unit)} (h : Does g p P l)
    (ha : ∀ q ∈ l, ∀ bs, q.eval g = (.ok (), bs) → bs.length % 8 = 0) :
    (∀ w, serialize g p = .ok w → P ∧ WrittenInOrder g l w.bytes ∧ w.isByteAligned = true) ∧
    (∀ bytes, P → WrittenInOrder g l bytes → ∃ w, serialize g p = .ok w ∧ w.bytes = bytes) := by
  have key : ∀ (l : List (Wr Unit)) (parts : List Bits), (∀ q ∈ l, ∀ bs, q.eval g = (.ok (), bs) → bs.length % 8 = 0) →
      List.Forall₂ (fun q b => q.eval g = (.ok (), b)) l parts →
      ∃ bytes : List (List UInt8), bytesBits bytes.flatten = parts.flatten ∧ List.Forall₂ (Writes g) l bytes := by
    intro l parts ha h
    induction h with
    | nil => exact ⟨[], rfl, .nil⟩
    | cons h1 _ ih =>
      rename_i q b l r _
      obtain ⟨bytes, e, hf⟩ := ih fun q hq => ha q (List.mem_cons_of_mem _ hq)
      obtain ⟨by1, hw, hl⟩ := Writes.exists (g := g) (p := q) (by rw [h1]) (by rw [h1]; exact ha q List.mem_cons_self _ h1)
      refine ⟨by1 :: bytes, ?_, .cons hw hf⟩
      have := hw.eval
      rw [h1] at this
      simp only [Prod.mk.injEq, true_and] at this
      simp [bytesBits_append, e, this]
  have back : ∀ (l : List (Wr Unit)) (parts : List (List UInt8)), List.Forall₂ (Writes g) l parts →
      List.Forall₂ (fun q b => q.eval g = (.ok (), b)) l (parts.map bytesBits) := by
    intro l parts h
    induction h with
    | nil => exact .nil
    | cons h1 _ ih => exact .cons h1.eval ih
  have flat : ∀ parts : List (List UInt8), (parts.map bytesBits).flatten = bytesBits parts.flatten := by
    intro parts
    induction parts with
    | nil => rfl
    | cons a l ih => simp [bytesBits_append, ih]
  constructor
  · intro w hw
    unfold Iamf.serialize at hw
    match hr : p.run (WBuf.empty g) with
    | (.error e, w') => rw [hr] at hw; simp at hw
    | (.ok (), w') =>
      rw [hr] at hw
      simp only [Except.ok.injEq] at hw
      subst hw
      obtain ⟨r1, r2, -, r4⟩ := p.run_empty g
      rw [hr] at r1 r2 r4
      obtain ⟨hP, parts, e, hf⟩ := (h (p.eval g).2).mp (Prod.ext r1.symm rfl)
      obtain ⟨bytes, e2, hf2⟩ := key l parts ha hf
      have hwr : Writes g p bytes.flatten := Writes.of_eval (by rw [e2, ← e]; exact Prod.ext r1.symm rfl)
      obtain ⟨w2, hw2, hb, ho⟩ := hwr
      rw [hr] at hw2
      simp only [Prod.mk.injEq, true_and] at hw2
      subst hw2
      exact ⟨hP, ⟨bytes, hb, hf2⟩, by unfold WBuf.isByteAligned; simp only [decide_eq_true_eq]; omega⟩
  · rintro bytes hP ⟨parts, rfl, hf⟩
    have := (h (bytesBits parts.flatten)).mpr ⟨hP, parts.map bytesBits, (flat parts).symm, back l parts hf⟩
    obtain ⟨w, hw, hb, ho⟩ := Writes.of_eval this
    exact ⟨w, by unfold Iamf.serialize; rw [hw], hb⟩

private theorem hook_aligned {g : LebGen} {hook : Nat} {l : List ArbitraryObu} {q : Wr Unit} (hq : q ∈ atHook hook l) {bs : Bits}
    (h : q.eval g = (.ok (), bs)) : bs.length % 8 = 0 := by
  simp only [atHook, List.mem_map] at hq
  obtain ⟨o, -, rfl⟩ := hq
  exact wObu_aligned h

private theorem keyLe_tot {α : Type} (a b : UInt32 × α) (h : keyLe a b = false) : keyLe b a = true := by
  simp only [keyLe, decide_eq_false_iff_not, decide_eq_true_eq, UInt32.le_iff_toNat_le] at h ⊢
  omega

private theorem keyLe_trans {α : Type} (a b c : UInt32 × α) (h : keyLe a b = true) (h' : keyLe b c = true) : keyLe a c = true := by
  simp only [keyLe, decide_eq_true_eq, UInt32.le_iff_toNat_le] at h h' ⊢
  omega

private theorem sorted_keys {α : Type} (l : List (UInt32 × α)) : (sortBy keyLe l).Pairwise (fun a b => a.1 ≤ b.1) :=
  (sortBy_sorted keyLe keyLe_tot keyLe_trans l).imp fun h => by simpa [keyLe] using h

private theorem serialize_sequence {g : LebGen} {d : SequenceObus} :
    (∀ w, serialize g (wSequenceObus d) = .ok w → Supported d ∧ DescriptorBytes g d w.bytes) ∧
    (∀ bytes, Supported d → WrittenInOrder g (descriptorObus d (sortBy keyLe d.codecs) (sortBy keyLe d.elements)) bytes →
      ∃ w, serialize g (wSequenceObus d) = .ok w ∧ w.bytes = bytes) := by
  obtain ⟨h1, h2⟩ := (does_sequence (g := g) d).serialize (by
    intro q hq bs h
    simp only [descriptorObus, List.mem_append, List.mem_map, List.mem_singleton] at hq
    rcases hq with (((((((((h0 | h0) | h0) | h0) | h0) | h0) | h0) | h0) | h0) | h0) | h0
    · exact hook_aligned h0 h
    · subst h0; exact wObu_aligned h
    · exact hook_aligned h0 h
    · obtain ⟨x, -, rfl⟩ := h0; exact wObu_aligned h
    · obtain ⟨x, -, rfl⟩ := h0; exact wObu_aligned h
    · exact hook_aligned h0 h
    · obtain ⟨x, -, rfl⟩ := h0; exact wObu_aligned h
    · exact hook_aligned h0 h
    · obtain ⟨x, -, rfl⟩ := h0; exact wObu_aligned h
    · exact hook_aligned h0 h
    · exact hook_aligned h0 h)
  exact ⟨fun w hw => ⟨(h1 w hw).1, _, _, sortBy_perm _ _, sorted_keys _, sortBy_perm _ _, sorted_keys _, (h1 w hw).2.1⟩, h2⟩

theorem sequence_bytes {g : LebGen} {d : SequenceObus} {w : WBuf} (h : serialize g (wSequenceObus d) = .ok w) : DescriptorBytes g d w.bytes :=
  (serialize_sequence.1 w h).2

theorem serialize_unit {g : LebGen} {delimiters : Bool} {u : TemporalUnitView} :
    (∀ w, serialize g (wTemporalUnit delimiters u) = .ok w → UnitBytes g delimiters u w.bytes ∧ w.isByteAligned = true) ∧
    (∀ bytes, UnitBytes g delimiters u bytes → ∃ w, serialize g (wTemporalUnit delimiters u) = .ok w ∧ w.bytes = bytes) := by
  obtain ⟨h1, h2⟩ := (does_unit (g := g) delimiters u).serialize (by
    intro q hq bs h
    simp only [unitObus, List.mem_append, List.mem_map] at hq
    rcases hq with ((((h0 | h0) | h0) | h0) | h0) | h0
    · split at h0
      · simp only [List.mem_singleton] at h0; subst h0; exact wObu_aligned h
      · simp at h0
    · exact hook_aligned h0 h
    · obtain ⟨x, -, rfl⟩ := h0; exact wObu_aligned h
    · exact hook_aligned h0 h
    · obtain ⟨x, -, rfl⟩ := h0; exact wObu_aligned h
    · exact hook_aligned h0 h)
  exact ⟨fun w hw => (h1 w hw).2, fun b hb => h2 b trivial hb⟩

/-! ### Specification: histories -/

/-- A call that ends the writing, if it succeeds. -/
def _root_.Iamf.SequencerCall.ends : SequencerCall → Bool
  | .updateAndClose _ => true
  | .close => true
  | .abort => true
  | _ => false

/-- All calls returned OK. -/
def Succeeded (results : List (Except Err Unit)) : Prop := ∀ r ∈ results, r = .ok ()

/-- A history of calls of a new sequencer that writes to a file, delimiters or not: the results, and the file and its stream. -/
def writing (g : LebGen) (delimiters : Bool) (f : FileOutput) (cs : List SequencerCall) : List (Except Err Unit) × Sequencer FileOutput :=
  Sequencer.calls fileSink cs (fileSequencer g delimiters f)

/-- The file after a history. -/
def fileAfter (g : LebGen) (delimiters : Bool) (f : FileOutput) (cs : List SequencerCall) : Option (List UInt8) :=
  (writing g delimiters f cs).2.sink.disk

/-! ### Proof: histories -/

private structure Fresh (g : LebGen) (dl : Bool) (f0 : FileOutput) (q : Sequencer FileOutput) : Prop where
  lebs : q.lebs = g
  delay : q.delay = false
  delimiters : q.delimiters = dl
  phase : q.phase = .initialized
  sink : q.sink = f0

/-- `D` and then the units `us` have been written. -/
private structure Writing (g : LebGen) (dl : Bool) (codecs : List CodecObu) (D : List UInt8) (us : List (TemporalUnitView × List UInt8))
    (q : Sequencer FileOutput) : Prop where
  lebs : q.lebs = g
  delay : q.delay = false
  delimiters : q.delimiters = dl
  phase : q.phase = .descriptorsPushed
  stats : ∃ s, q.statistics = some s ∧ s.bytes = D ∧ (s.firstUntrimmed.isSome = true ↔ ∃ u ∈ us, u.1.untrimmed ≠ 0) ∧
    ∃ s0, descriptorStatistics codecs D = .ok s0 ∧ s.samplesPerFrame = s0.samplesPerFrame ∧ s.sampleRate = s0.sampleRate ∧
      s.bitDepth = s0.bitDepth ∧ s.numChannels = s0.numChannels
  units : ∀ u ∈ us, UnitBytes g dl u.1 u.2
  trims : us.Pairwise (fun a b => a.1.untrimmed ≠ 0 → b.1.trimStart = 0)
  named : q.sink.named = true
  disk : q.sink.disk = some (D ++ (us.map Prod.snd).flatten)
  position : q.sink.position = some (D ++ (us.map Prod.snd).flatten).length

private structure Closed (disk : Option (List UInt8)) (q : Sequencer FileOutput) : Prop where
  phase : q.phase = .closed
  disk : q.sink.disk = disk
  position : q.sink.position = none

private theorem Closed.call {disk : Option (List UInt8)} {q : Sequencer FileOutput} (h : Closed disk q) (c : SequencerCall) :
    Closed disk (q.call fileSink c).2 ∧ ((q.call fileSink c).1 = .ok () → c = .abort) := by
  have ha : Closed disk (q.abort fileSink) := by
    refine ⟨rfl, ?_, ?_⟩
    · simp only [Sequencer.abort, fileSink, FileOutput.abort, h.position, Option.isSome_none, Bool.and_false, Bool.false_eq_true, ↓reduceIte]
      exact h.disk
    · simp only [Sequencer.abort, fileSink, FileOutput.abort, h.position, Option.isSome_none, Bool.and_false, Bool.false_eq_true, ↓reduceIte]
  cases c with
  | pushDescriptors d => simp only [Sequencer.call, Sequencer.pushDescriptors, h.phase, Sequencer.abortOnFailure]; exact ⟨ha, by simp⟩
  | pushUnit u => simp only [Sequencer.call, Sequencer.pushUnit, h.phase, Sequencer.abortOnFailure]; exact ⟨ha, by simp⟩
  | updateAndClose d => simp only [Sequencer.call, Sequencer.updateAndClose, h.phase, Sequencer.abortOnFailure]; exact ⟨ha, by simp⟩
  | close => simp only [Sequencer.call, Sequencer.close, h.phase]; exact ⟨h, by simp⟩
  | abort => exact ⟨ha, fun _ => rfl⟩

private theorem Closed.calls {disk : Option (List UInt8)} {q : Sequencer FileOutput} (h : Closed disk q) (cs : List SequencerCall) :
    Closed disk (q.calls fileSink cs).2 ∧ ∀ x ∈ cs.zip (q.calls fileSink cs).1, x.2 = .ok () → x.1 = .abort := by
  induction cs generalizing q with
  | nil => exact ⟨h, by simp [Sequencer.calls]⟩
  | cons c cs ih =>
    obtain ⟨h1, h2⟩ := h.call c
    obtain ⟨h3, h4⟩ := ih h1
    refine ⟨h3, ?_⟩
    simp only [Sequencer.calls, List.zip_cons_cons, List.mem_cons, forall_eq_or_imp]
    exact ⟨h2, h4⟩

/-- Aborting while the file is open. -/
private theorem closed_abort_open {q : Sequencer FileOutput} (hn : q.sink.named = true) (hp : q.sink.position.isSome = true) :
    Closed none (q.abort fileSink) := by
  refine ⟨rfl, ?_, ?_⟩
  all_goals simp only [Sequencer.abort, fileSink, FileOutput.abort, hn, hp, Bool.and_true, ↓reduceIte]

/-- Aborting while it is not. -/
private theorem closed_abort {q : Sequencer FileOutput} (hp : q.sink.position = none) : Closed q.sink.disk (q.abort fileSink) := by
  refine ⟨rfl, ?_, ?_⟩
  all_goals simp only [Sequencer.abort, fileSink, FileOutput.abort, hp, Option.isSome_none, Bool.and_false, Bool.false_eq_true, ↓reduceIte]

private theorem write_cases (bytes : List UInt8) (f : FileOutput) (p : Nat) (hp : f.position = some p) :
    (f.write bytes = (.ok (), ⟨f.named, some (overwriteAt (f.disk.getD []) p bytes), some (p + bytes.length), f.faults.tail⟩)) ∨
    (∃ b, f.write bytes = (.error .unknown, ⟨f.named, some (overwriteAt (f.disk.getD []) p b), some (p + b.length), f.faults.tail⟩) ∧
      f.faults ≠ []) := by
  unfold FileOutput.write
  simp only [hp]
  match f.faults with
  | [] => exact .inl rfl
  | none :: l => exact .inl rfl
  | some k :: l => exact .inr ⟨_, rfl, by simp⟩

private theorem overwriteAt_end (l b : List UInt8) : overwriteAt l l.length b = l ++ b := by
  simp [overwriteAt]

private theorem overwriteAt_start (l b c : List UInt8) (h : b.length = l.length) : overwriteAt (l ++ c) 0 b = b ++ c := by
  simp [overwriteAt, h]

private theorem Fresh.call {g : LebGen} {dl : Bool} {f0 : FileOutput} {q : Sequencer FileOutput} (h : Fresh g dl f0 q)
    (hn : f0.named = true) (hp : f0.position = none) (c : SequencerCall) :
    (∃ d D, c = .pushDescriptors d ∧ (q.call fileSink c).1 = .ok () ∧ DescriptorBytes g d D ∧ Supported d ∧
      (∃ w, serialize g (wSequenceObus d) = .ok w ∧ w.bytes = D) ∧
      Writing g dl (d.codecs.map fun c => c.2.body) D [] (q.call fileSink c).2) ∨
    ((c.ends = true ∨ (q.call fileSink c).1 ≠ .ok ()) ∧ Closed f0.disk (q.call fileSink c).2) ∨
    ((∃ d, c = .pushDescriptors d) ∧ (q.call fileSink c).1 ≠ .ok () ∧ f0.faults ≠ [] ∧ Closed none (q.call fileSink c).2) := by
  have ha : Closed f0.disk (q.abort fileSink) := by rw [← h.sink]; exact closed_abort (by rw [h.sink]; exact hp)
  cases c with
  | pushUnit u =>
    refine .inr (.inl ?_)
    simp only [Sequencer.call, Sequencer.pushUnit, h.phase, Sequencer.abortOnFailure]
    exact ⟨.inr (by simp), ha⟩
  | updateAndClose d =>
    refine .inr (.inl ?_)
    simp only [Sequencer.call, Sequencer.updateAndClose, h.phase, Sequencer.abortOnFailure]
    exact ⟨.inr (by simp), ha⟩
  | close =>
    refine .inr (.inl ?_)
    simp only [Sequencer.call, Sequencer.close, h.phase, Sequencer.closeNow]
    exact ⟨.inl rfl, rfl, by rw [← h.sink]; rfl, rfl⟩
  | abort => exact .inr (.inl ⟨.inl rfl, ha⟩)
  | pushDescriptors d =>
    simp only [Sequencer.call, Sequencer.pushDescriptors, h.phase, Sequencer.pushDescriptorsBody]
    have ha' : ∀ ph st, Closed f0.disk (({ q with phase := ph, statistics := st } : Sequencer FileOutput).abort fileSink) := by
      intro ph st
      have := closed_abort (q := ({ q with phase := ph, statistics := st } : Sequencer FileOutput)) (by simp only; rw [h.sink]; exact hp)
      exact h.sink ▸ this
    match hs : serialize q.lebs (wSequenceObus d) with
    | .error e => exact .inr (.inl ⟨.inr (by simp [Sequencer.abortOnFailure]), by simp only [Sequencer.abortOnFailure]; exact ha' _ _⟩)
    | .ok w =>
      simp only
      match hst : descriptorStatistics (d.codecs.map fun c => c.2.body) w.bytes with
      | .error e => exact .inr (.inl ⟨.inr (by simp [hst, Sequencer.abortOnFailure]), by simp only [hst, Sequencer.abortOnFailure]; exact ha' _ _⟩)
      | .ok s =>
        have hsb : s.bytes = w.bytes ∧ s.firstUntrimmed = none := by
          unfold descriptorStatistics at hst
          simp only [bind, Except.bind] at hst
          split at hst
          · simp at hst
          · split at hst
            · simp at hst
            · split at hst
              · simp at hst
              · simp only [Except.ok.injEq] at hst; subst hst; exact ⟨rfl, rfl⟩
        simp only [hst, h.delay, Bool.false_eq_true, ↓reduceIte, fileSink, FileOutput.pushDescriptors, h.sink, hn, Sequencer.onSink]
        have hw := write_cases s.bytes { f0 with named := true, disk := some [], position := some 0 } 0 rfl
        rcases hw with hw | ⟨b, hw, hf⟩
        · simp only [hw, Sequencer.abortOnFailure]
          obtain ⟨s1, -⟩ := serialize_sequence (g := g) (d := d)
          obtain ⟨hsup, hb⟩ := s1 w (by rw [← h.lebs]; exact hs)
          refine .inl ⟨d, w.bytes, by trivial, by trivial, hb, hsup, ⟨w, by rw [← h.lebs]; exact hs, rfl⟩, ⟨h.lebs, rfl, h.delimiters, rfl,
            ⟨s, rfl, hsb.1, by rw [hsb.2]; simp, s, hst, rfl, rfl, rfl, rfl⟩, by simp, .nil, rfl, ?_, ?_⟩⟩
          · simp [hsb.1, overwriteAt]
          · simp [hsb.1]
        · simp only [hw, Sequencer.abortOnFailure]
          exact .inr (.inr ⟨⟨d, rfl⟩, by simp, hf, closed_abort_open rfl rfl⟩)

private theorem Writing.call {g : LebGen} {dl : Bool} {cods : List CodecObu} {D : List UInt8} {us : List (TemporalUnitView × List UInt8)}
    {q : Sequencer FileOutput} (h : Writing g dl cods D us q) (c : SequencerCall) :
    (∃ u b, c = .pushUnit u ∧ (q.call fileSink c).1 = .ok () ∧ (∃ w, serialize g (wTemporalUnit dl u) = .ok w ∧ w.bytes = b) ∧ Writing g dl cods D (us ++ [(u, b)]) (q.call fileSink c).2) ∨
    ((q.call fileSink c).1 = .ok () ∧ c = .close ∧ Closed (some (D ++ (us.map Prod.snd).flatten)) (q.call fileSink c).2) ∨
    (∃ d D', (q.call fileSink c).1 = .ok () ∧ c = .updateAndClose d ∧ DescriptorBytes g d D' ∧ D'.length = D.length ∧
      Closed (some (D' ++ (us.map Prod.snd).flatten)) (q.call fileSink c).2) ∨
    ((c = .abort ∨ (q.call fileSink c).1 ≠ .ok ()) ∧ Closed none (q.call fileSink c).2) := by
  have hps : q.sink.position.isSome = true := by rw [h.position]; rfl
  have ha : Closed none (q.abort fileSink) := closed_abort_open h.named hps
  cases c with
  | pushDescriptors d =>
    refine .inr (.inr (.inr ?_))
    simp only [Sequencer.call, Sequencer.pushDescriptors, h.phase, Sequencer.abortOnFailure]
    exact ⟨.inr (by simp), ha⟩
  | close =>
    refine .inr (.inl ?_)
    simp only [Sequencer.call, Sequencer.close, h.phase, Sequencer.closeNow, true_and]
    exact ⟨rfl, h.disk, rfl⟩
  | abort => exact .inr (.inr (.inr ⟨.inl rfl, ha⟩))
  | pushUnit u =>
    simp only [Sequencer.call, Sequencer.pushUnit, h.phase, Sequencer.pushUnitBody]
    match hs : serialize q.lebs (wTemporalUnit q.delimiters u) with
    | .error e => exact .inr (.inr (.inr ⟨.inr (by simp [Sequencer.abortOnFailure]), by simpa only [Sequencer.abortOnFailure] using ha⟩))
    | .ok w =>
      rw [h.lebs, h.delimiters] at hs
      obtain ⟨hub, hal⟩ := serialize_unit.1 w hs
      obtain ⟨s, hst, hsb, hsf, hs0⟩ := h.stats
      simp only [hal, Bool.not_true, Bool.false_eq_true, ↓reduceIte, hst]
      have hw := write_cases w.bytes q.sink _ h.position
      have hdisk : overwriteAt (q.sink.disk.getD []) (D ++ (us.map Prod.snd).flatten).length w.bytes =
          D ++ ((us ++ [(u, w.bytes)]).map Prod.snd).flatten := by
        rw [h.disk, Option.getD_some, overwriteAt_end]; simp
      have hlen : (D ++ (us.map Prod.snd).flatten).length + w.bytes.length = (D ++ ((us ++ [(u, w.bytes)]).map Prod.snd).flatten).length := by
        simp; omega
      have htrims (ht : (∃ x ∈ us, x.1.untrimmed ≠ 0) → u.trimStart = 0) :
          (us ++ [(u, w.bytes)]).Pairwise (fun a b => a.1.untrimmed ≠ 0 → b.1.trimStart = 0) := by
        rw [List.pairwise_append]
        refine ⟨h.trims, List.pairwise_singleton _ _, ?_⟩
        intro a ha b hb hau
        simp only [List.mem_singleton] at hb; subst hb
        exact ht ⟨a, ha, hau⟩
      have hunits : ∀ x ∈ us ++ [(u, w.bytes)], UnitBytes g dl x.1 x.2 := by
        intro x hx
        rcases List.mem_append.mp hx with hx | hx
        · exact h.units x hx
        · simp only [List.mem_singleton] at hx; subst hx; exact hub
      match hfu : s.firstUntrimmed with
      | none =>
        simp only [Sequencer.handleInitial, h.delay, Bool.not_false, ↓reduceIte, fileSink, Sequencer.onSink]
        rcases hw with hw | ⟨b, hw, -⟩
        · simp only [hw, Sequencer.abortOnFailure]
          refine .inl ⟨u, w.bytes, by trivial, by trivial, ⟨w, hs, rfl⟩, h.lebs, by first | rfl | exact h.delay, h.delimiters, h.phase, ⟨_, rfl, ?_, ?_, ?_⟩, hunits,
            htrims (fun hx => by have := hsf.mpr hx; rw [hfu] at this; simp at this), h.named,
            congrArg some hdisk, congrArg some hlen⟩
          · split <;> exact hsb
          · rw [hfu] at hsf
            have hno : ¬ ∃ x ∈ us, x.1.untrimmed ≠ 0 := fun hx => by simpa using hsf.mpr hx
            by_cases hu : u.untrimmed = 0
            · simp only [hu, bne_self_eq_false, Bool.false_eq_true, ↓reduceIte, hfu, Option.isSome_none, false_iff]
              rintro ⟨x, hx, hx'⟩
              rcases List.mem_append.mp hx with hx | hx
              · exact hno ⟨x, hx, hx'⟩
              · simp only [List.mem_singleton] at hx; subst hx; exact hx' hu
            · simp only [bne_iff_ne, ne_eq, hu, not_false_eq_true, ↓reduceIte, Option.isSome_some, true_iff]
              exact ⟨(u, w.bytes), by simp, hu⟩
          · obtain ⟨s0, h0, h1, h2, h3, h4⟩ := hs0
            refine ⟨s0, h0, ?_⟩
            split <;> exact ⟨h1, h2, h3, h4⟩
        · simp only [hw, Sequencer.abortOnFailure]
          exact .inr (.inr (.inr ⟨.inr (by simp), closed_abort_open h.named rfl⟩))
      | some t =>
        simp only
        by_cases ht : u.trimStart > 0
        · rw [if_pos ht]
          exact .inr (.inr (.inr ⟨.inr (by simp [Sequencer.abortOnFailure]), by simpa only [Sequencer.abortOnFailure] using ha⟩))
        · rw [if_neg ht]
          simp only [fileSink, Sequencer.onSink]
          rcases hw with hw | ⟨b, hw, -⟩
          · simp only [hw, Sequencer.abortOnFailure]
            refine .inl ⟨u, w.bytes, by trivial, by trivial, ⟨w, hs, rfl⟩, h.lebs, by first | rfl | exact h.delay, h.delimiters, h.phase, ⟨s, hst, hsb, ?_, hs0⟩, hunits,
              htrims (fun _ => by simp only [gt_iff_lt, UInt32.lt_iff_toNat_lt, ← UInt32.toNat_inj, UInt32.reduceToNat] at ht ⊢; omega), h.named,
              congrArg some hdisk, congrArg some hlen⟩
            rw [hfu] at hsf ⊢
            simp only [Option.isSome_some, true_iff] at hsf ⊢
            obtain ⟨x, hx, hx'⟩ := hsf
            exact ⟨x, List.mem_append_left _ hx, hx'⟩
          · simp only [hw, Sequencer.abortOnFailure]
            exact .inr (.inr (.inr ⟨.inr (by simp), closed_abort_open h.named rfl⟩))
  | updateAndClose d =>
    simp only [Sequencer.call, Sequencer.updateAndClose, h.phase, Sequencer.updateBody]
    have hbad : ∀ e, (Sequencer.abortOnFailure fileSink ((.error e, q) : Except Err Unit × Sequencer FileOutput)).1 ≠ .ok () ∧
        Closed none (Sequencer.abortOnFailure fileSink ((.error e, q) : Except Err Unit × Sequencer FileOutput)).2 := fun e =>
      ⟨by simp [Sequencer.abortOnFailure], by simpa only [Sequencer.abortOnFailure] using ha⟩
    match hs : serialize q.lebs (wSequenceObus d) with
    | .error e => exact .inr (.inr (.inr ⟨.inr (hbad e).1, (hbad e).2⟩))
    | .ok w =>
      rw [h.lebs] at hs
      obtain ⟨-, hb⟩ := serialize_sequence.1 w hs
      obtain ⟨s, hst, hsb, hsf, -⟩ := h.stats
      simp only [hst]
      by_cases he : w.bytes = s.bytes
      · rw [if_pos he]
        simp only [Sequencer.close, h.phase, Sequencer.closeNow, Sequencer.abortOnFailure]
        rw [he, hsb] at hb
        exact .inr (.inr (.inl ⟨d, D, by trivial, by trivial, hb, rfl, rfl, h.disk, rfl⟩))
      · rw [if_neg he]
        match hnew : descriptorStatistics (d.codecs.map fun c => c.2.body) w.bytes with
        | .error e => rw [hnew]; exact .inr (.inr (.inr ⟨.inr (hbad e).1, (hbad e).2⟩))
        | .ok new =>
          simp only [hnew]
          split
          · exact .inr (.inr (.inr ⟨.inr (hbad _).1, (hbad _).2⟩))
          · split
            · exact .inr (.inr (.inr ⟨.inr (hbad _).1, (hbad _).2⟩))
            · rename_i hlen
              have hnb : new.bytes = w.bytes := by
                unfold descriptorStatistics at hnew
                simp only [bind, Except.bind] at hnew
                split at hnew
                · simp at hnew
                · split at hnew
                  · simp at hnew
                  · split at hnew
                    · simp at hnew
                    · simp only [Except.ok.injEq] at hnew; subst hnew; rfl
              rw [hnb, hsb] at hlen
              simp only [ne_eq, Decidable.not_not] at hlen
              simp only [fileSink, FileOutput.pushFinalized, h.position, Sequencer.onSink]
              rcases write_cases w.bytes { q.sink with position := some 0 } 0 rfl with hw | ⟨b, hw, -⟩
              · simp only [hw, Sequencer.close, Sequencer.closeNow, Sequencer.abortOnFailure]
                refine .inr (.inr (.inl ⟨d, w.bytes, by trivial, by trivial, hb, hlen.symm, rfl, ?_, rfl⟩))
                simp only [FileOutput.close, h.disk, Option.getD_some]
                rw [overwriteAt_start _ _ _ hlen.symm]
              · simp only [hw, Sequencer.abortOnFailure]
                exact .inr (.inr (.inr ⟨.inr (by simp), closed_abort_open h.named rfl⟩))

private theorem calls_cons {σ : Type} (K : Sink σ) (c : SequencerCall) (cs : List SequencerCall) (q : Sequencer σ) :
    Sequencer.calls K (c :: cs) q = ((q.call K c).1 :: (Sequencer.calls K cs (q.call K c).2).1, (Sequencer.calls K cs (q.call K c).2).2) := rfl

private theorem calls_append {σ : Type} (K : Sink σ) (a b : List SequencerCall) (q : Sequencer σ) :
    Sequencer.calls K (a ++ b) q = ((Sequencer.calls K a q).1 ++ (Sequencer.calls K b (Sequencer.calls K a q).2).1,
      (Sequencer.calls K b (Sequencer.calls K a q).2).2) := by
  induction a generalizing q with
  | nil => rfl
  | cons c a ih => rw [List.cons_append, calls_cons, calls_cons, ih]; rfl

private theorem fresh {g : LebGen} {dl : Bool} {f : FileOutput} : Fresh g dl f (fileSequencer g dl f) := ⟨rfl, rfl, rfl, rfl, rfl⟩

/-- Where a history of successful calls leads. -/
private inductive After (g : LebGen) (dl : Bool) (f : FileOutput) : List SequencerCall → Sequencer FileOutput → Prop where
  | fresh {q} : Fresh g dl f q → After g dl f [] q
  | writing {q d D us} : DescriptorBytes g d D → Supported d → Writing g dl (d.codecs.map fun c => c.2.body) D us q →
      After g dl f (.pushDescriptors d :: us.map fun u => .pushUnit u.1) q
  | closed {q cs disk} : Closed disk q → (∃ c ∈ cs, c.ends = true) → After g dl f cs q

private theorem After.step {g : LebGen} {dl : Bool} {f : FileOutput} (hn : f.named = true) (hp : f.position = none)
    {cs : List SequencerCall} {q : Sequencer FileOutput} (h : After g dl f cs q) {c : SequencerCall}
    (hc : (q.call fileSink c).1 = .ok ()) : After g dl f (cs ++ [c]) (q.call fileSink c).2 := by
  cases h with
  | fresh h =>
    rcases h.call hn hp c with ⟨d, D, rfl, -, hD, hs, -, hw⟩ | ⟨h1, h2⟩ | ⟨-, h1, -⟩
    · exact .writing (us := []) hD hs hw
    · exact .closed h2 ⟨c, by simp, h1.resolve_right (fun h => h hc)⟩
    · exact absurd hc h1
  | writing hD hs h =>
    rcases h.call c with ⟨u, b, rfl, -, -, hw⟩ | ⟨-, rfl, h2⟩ | ⟨d', D', -, rfl, -, -, h2⟩ | ⟨h1, h2⟩
    · have := After.writing hD hs hw (f := f)
      simpa using this
    · exact .closed h2 ⟨.close, by simp, rfl⟩
    · exact .closed h2 ⟨.updateAndClose d', by simp, rfl⟩
    · exact .closed h2 ⟨c, by simp, by rw [h1.resolve_right (fun h => h hc)]; rfl⟩
  | closed h h2 =>
    obtain ⟨x, hx, hx'⟩ := h2
    exact .closed (h.call c).1 ⟨x, List.mem_append_left _ hx, hx'⟩

private theorem after {g : LebGen} {dl : Bool} {f : FileOutput} (hn : f.named = true) (hp : f.position = none)
    (cs : List SequencerCall) (hok : Succeeded (writing g dl f cs).1) : After g dl f cs (writing g dl f cs).2 := by
  have key : ∀ (cs done : List SequencerCall) (q : Sequencer FileOutput), After g dl f done q → Succeeded (q.calls fileSink cs).1 →
      After g dl f (done ++ cs) (q.calls fileSink cs).2 := by
    intro cs
    induction cs with
    | nil => intro done q h _; rw [List.append_nil]; exact h
    | cons c cs ih =>
      intro done q h hs
      rw [calls_cons] at hs ⊢
      have h1 := h.step hn hp (c := c) (hs _ List.mem_cons_self)
      have h2 := ih _ _ h1 (fun r hr => hs r (List.mem_cons_of_mem _ hr))
      rwa [List.append_assoc] at h2
  exact key cs [] _ (.fresh fresh) hok

private theorem Succeeded.left {a b : List (Except Err Unit)} (h : Succeeded (a ++ b)) : Succeeded a :=
  fun r hr => h r (List.mem_append_left _ hr)

private theorem Succeeded.right {a b : List (Except Err Unit)} (h : Succeeded (a ++ b)) : Succeeded b :=
  fun r hr => h r (List.mem_append_right _ hr)

private theorem pushes_no_end {d : SequenceObus} {us : List TemporalUnitView} :
    ¬ ∃ c ∈ SequencerCall.pushDescriptors d :: us.map SequencerCall.pushUnit, c.ends = true := by
  rintro ⟨c, hc, h⟩
  simp only [List.mem_cons, List.mem_map] at hc
  rcases hc with rfl | ⟨u, -, rfl⟩ <;> simp [SequencerCall.ends] at h

/-- After descriptors and units have been pushed. -/
private theorem writing_after {g : LebGen} {dl : Bool} {f : FileOutput} (hn : f.named = true) (hp : f.position = none)
    (d : SequenceObus) (us : List TemporalUnitView)
    (hok : Succeeded (writing g dl f (.pushDescriptors d :: us.map .pushUnit)).1) :
    ∃ D bs, DescriptorBytes g d D ∧ Supported d ∧ us = bs.map Prod.fst ∧
      Writing g dl (d.codecs.map fun c => c.2.body) D bs (writing g dl f (.pushDescriptors d :: us.map .pushUnit)).2 := by
  have h := after hn hp _ hok
  generalize hcs : SequencerCall.pushDescriptors d :: us.map SequencerCall.pushUnit = cs at h
  cases h with
  | fresh h => simp at hcs
  | closed h h2 => rw [← hcs] at h2; exact absurd h2 pushes_no_end
  | writing hD hs h =>
    rename_i d' D bs
    simp only [List.cons.injEq, SequencerCall.pushDescriptors.injEq] at hcs
    obtain ⟨rfl, hcs⟩ := hcs
    refine ⟨D, bs, hD, hs, ?_, h⟩
    have : us.map SequencerCall.pushUnit = (bs.map Prod.fst).map SequencerCall.pushUnit := by rw [hcs]; simp
    clear h hcs hok
    generalize bs.map Prod.fst = vs at this
    induction us generalizing vs with
    | nil => cases vs <;> simp_all
    | cons u us ih =>
      cases vs with
      | nil => simp at this
      | cons v vs =>
        simp only [List.map_cons, List.cons.injEq, SequencerCall.pushUnit.injEq] at this
        rw [this.1, ih vs this.2]

private theorem units_of {g : LebGen} {dl : Bool} {bs : List (TemporalUnitView × List UInt8)} (h : ∀ u ∈ bs, UnitBytes g dl u.1 u.2) :
    List.Forall₂ (UnitBytes g dl) (bs.map Prod.fst) (bs.map Prod.snd) := by
  induction bs with
  | nil => exact .nil
  | cons b bs ih => exact .cons (h b List.mem_cons_self) (ih fun u hu => h u (List.mem_cons_of_mem _ hu))

/-! ### The theorems -/

/-- C34: pushing descriptors and temporal units, and closing or not: if every call succeeds, the file is exactly the descriptors
followed by the units in the order in which they were pushed. -/
theorem C34_file_of_a_sequence (g : LebGen) (delimiters : Bool) (f : FileOutput) (hn : f.named = true) (hp : f.position = none)
    (d : SequenceObus) (us : List TemporalUnitView) (last : List SequencerCall) (hlast : last = [] ∨ last = [.close])
    (hok : Succeeded (writing g delimiters f (.pushDescriptors d :: us.map .pushUnit ++ last)).1) :
    ∃ descriptors units, DescriptorBytes g d descriptors ∧ List.Forall₂ (UnitBytes g delimiters) us units ∧
      fileAfter g delimiters f (.pushDescriptors d :: us.map .pushUnit ++ last) = some (descriptors ++ units.flatten) := by
  unfold fileAfter
  unfold writing at hok ⊢
  rw [calls_append] at hok ⊢
  obtain ⟨D, bs, hD, -, rfl, h⟩ := writing_after hn hp d us hok.left
  refine ⟨D, bs.map Prod.snd, hD, units_of h.units, ?_⟩
  rcases hlast with rfl | rfl
  · exact h.disk
  · rcases h.call .close with ⟨_, _, h1, -⟩ | ⟨-, -, h2⟩ | ⟨_, _, -, h1, -⟩ | ⟨h1, -⟩
    · cases h1
    · exact h2.disk
    · cases h1
    · rcases h1 with h1 | h1
      · cases h1
      · exact absurd (hok.right _ List.mem_cons_self) h1

/-- C34: the same when the descriptors are updated at the end: the new descriptors take the place of the old ones, which have the same
length, and the units stay what they are. -/
theorem C34_file_of_an_updated_sequence (g : LebGen) (delimiters : Bool) (f : FileOutput) (hn : f.named = true) (hp : f.position = none)
    (d d' : SequenceObus) (us : List TemporalUnitView)
    (hok : Succeeded (writing g delimiters f (.pushDescriptors d :: us.map .pushUnit ++ [.updateAndClose d'])).1) :
    ∃ old new units, DescriptorBytes g d old ∧ DescriptorBytes g d' new ∧ old.length = new.length ∧
      List.Forall₂ (UnitBytes g delimiters) us units ∧
      fileAfter g delimiters f (.pushDescriptors d :: us.map .pushUnit) = some (old ++ units.flatten) ∧
      fileAfter g delimiters f (.pushDescriptors d :: us.map .pushUnit ++ [.updateAndClose d']) = some (new ++ units.flatten) := by
  unfold fileAfter
  unfold writing at hok ⊢
  rw [calls_append] at hok ⊢
  obtain ⟨D, bs, hD, -, rfl, h⟩ := writing_after hn hp d us hok.left
  have hr := hok.right
  rcases h.call (.updateAndClose d') with ⟨u, b, hc, -⟩ | ⟨-, hc, -⟩ | ⟨x, D', -, hc, hD', hl, h2⟩ | ⟨h1, -⟩
  · cases hc
  · cases hc
  · cases hc
    exact ⟨D, D', bs.map Prod.snd, hD, hD', hl.symm, units_of h.units, h.disk, h2.disk⟩
  · rcases h1 with h1 | h1
    · cases h1
    · exact absurd (hr _ List.mem_cons_self) h1

/-- C34: no file is left after a failure.  If calls have succeeded, none of which ends the writing, and then a call fails, the file is
gone, whatever is called afterwards; if it was the very first call, an earlier file of that name is untouched, unless
writing to it failed. -/
theorem C34_failure_leaves_no_file (g : LebGen) (delimiters : Bool) (f : FileOutput) (hn : f.named = true) (hp : f.position = none)
    (before after : List SequencerCall) (c : SequencerCall) (hb : Succeeded (writing g delimiters f before).1)
    (he : ∀ x ∈ before, x.ends = false) (hc : ¬ Succeeded (writing g delimiters f (before ++ [c])).1) :
    (before ≠ [] → fileAfter g delimiters f (before ++ c :: after) = none) ∧
    (before = [] → fileAfter g delimiters f (before ++ c :: after) = f.disk ∨
      (fileAfter g delimiters f (before ++ c :: after) = none ∧ f.faults ≠ [] ∧ ∃ d, c = .pushDescriptors d)) := by
  have h := Iamf.Props.after hn hp before hb
  have hc' : ((writing g delimiters f before).2.call fileSink c).1 ≠ .ok () := by
    intro h0
    apply hc
    unfold writing at h0 ⊢
    rw [calls_append]
    intro r hr
    rcases List.mem_append.mp hr with hr | hr
    · exact hb r hr
    · simp only [Sequencer.calls, List.mem_singleton] at hr
      rw [hr, h0]
  have hf : fileAfter g delimiters f (before ++ c :: after) =
      ((((writing g delimiters f before).2.call fileSink c).2).calls fileSink after).2.sink.disk := by
    unfold fileAfter writing
    rw [calls_append, calls_cons]
  rw [hf]
  generalize (writing g delimiters f before).2 = q at h hc'
  cases h with
  | fresh h =>
    refine ⟨fun h => absurd rfl h, fun _ => ?_⟩
    rcases h.call hn hp c with ⟨_, _, _, h1, -⟩ | ⟨h1, h2⟩ | ⟨h0, h1, h3, h2⟩
    · exact absurd h1 hc'
    · exact .inl (h2.calls after).1.disk
    · exact .inr ⟨(h2.calls after).1.disk, h3, h0⟩
  | closed h h2 =>
    obtain ⟨x, hx, hx'⟩ := h2
    rw [he x hx] at hx'; cases hx'
  | writing hD hs h =>
    refine ⟨fun _ => ?_, fun h => by simp at h⟩
    rcases h.call c with ⟨_, _, _, h1, -⟩ | ⟨h1, -⟩ | ⟨_, _, h1, -⟩ | ⟨h1, h2⟩
    · exact absurd h1 hc'
    · exact absurd h1 hc'
    · exact absurd h1 hc'
    · exact (h2.calls after).1.disk

/-- C34: `Close`, a successful update and `Abort` are final: nothing changes the file any more, and every later call but `Abort` fails.
`Abort` leaves no file. -/
theorem C34_closing_is_final (g : LebGen) (delimiters : Bool) (f : FileOutput) (hn : f.named = true) (hp : f.position = none)
    (before after : List SequencerCall) (hb : Succeeded (writing g delimiters f before).1) (he : ∃ x ∈ before, x.ends = true) :
    fileAfter g delimiters f (before ++ after) = fileAfter g delimiters f before ∧
    (∀ x ∈ after.zip ((writing g delimiters f (before ++ after)).1.drop before.length), x.2 = .ok () → x.1 = .abort) := by
  have h := Iamf.Props.after hn hp before hb
  have hlen : ∀ (cs : List SequencerCall) (q : Sequencer FileOutput), (q.calls fileSink cs).1.length = cs.length := by
    intro cs
    induction cs with
    | nil => intro q; rfl
    | cons c cs ih => intro q; rw [calls_cons]; simp [ih]
  unfold fileAfter
  unfold writing at h ⊢
  rw [calls_append]
  generalize hq : Sequencer.calls fileSink before (fileSequencer g delimiters f) = r at h
  have hl : r.1.length = before.length := by rw [← hq]; exact hlen _ _
  rw [List.drop_append_of_le_length (by omega), List.drop_of_length_le (by omega), List.nil_append]
  cases h with
  | fresh h => simp at he
  | writing hD hs h =>
    obtain ⟨x, hx, hx'⟩ := he
    simp only [List.mem_cons, List.mem_map] at hx
    rcases hx with rfl | ⟨u, -, rfl⟩ <;> simp [SequencerCall.ends] at hx'
  | closed h h2 =>
    obtain ⟨h3, h4⟩ := h.calls after
    exact ⟨h3.disk.trans h.disk.symm, h4⟩

/-- C34: `Abort` while writing removes the file. -/
theorem C34_abort_removes_the_file (g : LebGen) (delimiters : Bool) (f : FileOutput) (hn : f.named = true) (hp : f.position = none)
    (before after : List SequencerCall) (hb : Succeeded (writing g delimiters f before).1) (hne : before ≠ [])
    (he : ∀ x ∈ before, x.ends = false) : fileAfter g delimiters f (before ++ .abort :: after) = none := by
  have h := Iamf.Props.after hn hp before hb
  have hf : fileAfter g delimiters f (before ++ .abort :: after) =
      ((((writing g delimiters f before).2.call fileSink .abort).2).calls fileSink after).2.sink.disk := by
    unfold fileAfter writing
    rw [calls_append, calls_cons]
  rw [hf]
  generalize (writing g delimiters f before).2 = q at h
  cases h with
  | fresh h => exact absurd rfl hne
  | closed h h2 =>
    obtain ⟨x, hx, hx'⟩ := h2
    rw [he x hx] at hx'; cases hx'
  | writing hD hs h =>
    rcases h.call .abort with ⟨_, _, h1, -⟩ | ⟨-, h1, -⟩ | ⟨_, _, -, h1, -⟩ | ⟨h1, h2⟩
    · cases h1
    · cases h1
    · cases h1
    · exact (h2.calls after).1.disk

/-! ### Which sequences are accepted -/

/-- All codec configs have the same output sample rate and the same number of samples per frame. -/
def OneRate (d : SequenceObus) : Prop :=
  ∀ c ∈ d.codecs, ∀ c' ∈ d.codecs, c.2.body.outputRate = c'.2.body.outputRate ∧
    c.2.body.config.numSamplesPerFrame = c'.2.body.config.numSamplesPerFrame

private theorem asSet_aux {α : Type} [DecidableEq α] (l s : List α) :
    l.foldl (fun s a => if a ∈ s then s else s ++ [a]) s = s ++ (l.foldl (fun s a => if a ∈ s then s else s ++ [a]) s).drop s.length := by
  have : ∀ (l s : List α), ∃ t, l.foldl (fun s a => if a ∈ s then s else s ++ [a]) s = s ++ t := by
    intro l
    induction l with
    | nil => intro s; exact ⟨[], by simp⟩
    | cons a l ih =>
      intro s
      simp only [List.foldl_cons]
      split
      · exact ih s
      · obtain ⟨t, ht⟩ := ih (s ++ [a])
        exact ⟨[a] ++ t, by rw [ht, List.append_assoc]⟩
  obtain ⟨t, ht⟩ := this l s
  rw [ht]; simp

private theorem asSet_cons {α : Type} [DecidableEq α] (a : α) (l : List α) :
    (asSet (a :: l)).head? = some a ∧ ((asSet (a :: l)).tail = [] ↔ ∀ x ∈ l, x = a) := by
  have h0 : asSet (a :: l) = l.foldl (fun s a => if a ∈ s then s else s ++ [a]) [a] := by simp [asSet]
  have h1 := asSet_aux l [a]
  rw [h0, h1]
  refine ⟨rfl, ?_⟩
  simp only [List.length_singleton, List.cons_append, List.nil_append, List.tail_cons]
  induction l with
  | nil => simp
  | cons b l ih =>
    simp only [List.foldl_cons, List.mem_singleton, List.mem_cons, forall_eq_or_imp]
    by_cases hb : b = a
    · subst hb
      simp only [↓reduceIte, true_and]
      refine ih ?_ ?_
      · simp [asSet]
      · exact asSet_aux l [b]
    · simp only [hb, ↓reduceIte, false_and, iff_false]
      rw [if_neg (by simp), asSet_aux l _]
      simp

/-- The statistics in closed form. -/
private theorem statistics_eq (codecs : List CodecObu) (bytes : List UInt8) :
    descriptorStatistics codecs bytes = match codecs with
      | [] => .ok ⟨1024, 48000, 16, 2, none, bytes⟩
      | c :: cs => if cs.all fun x => x.outputRate == c.outputRate then
          if cs.all fun x => x.config.numSamplesPerFrame == c.config.numSamplesPerFrame then
            .ok ⟨c.config.numSamplesPerFrame, c.outputRate, if cs.all fun x => x.bitDepth == c.bitDepth then c.bitDepth else 16, 2, none, bytes⟩
          else .error .unknown
        else .error .unimplemented := by
  cases codecs with
  | nil => simp [descriptorStatistics, commonSamplesPerFrame, bind, Except.bind]
  | cons c cs =>
    unfold descriptorStatistics
    obtain ⟨r1, r2⟩ := asSet_cons c.outputRate (cs.map fun x => x.outputRate)
    obtain ⟨d1, d2⟩ := asSet_cons c.bitDepth (cs.map fun x => x.bitDepth)
    simp only [List.isEmpty_cons, Bool.false_eq_true, ↓reduceIte, List.map_cons]
    match hr : asSet (c.outputRate :: cs.map fun x => x.outputRate), hd : asSet (c.bitDepth :: cs.map fun x => x.bitDepth) with
    | [], _ => rw [hr] at r1; simp at r1
    | _ :: _, [] => rw [hd] at d1; simp at d1
    | r :: rs, b :: bs =>
      rw [hr] at r1 r2
      rw [hd] at d1 d2
      simp only [List.head?_cons, Option.some.injEq, List.tail_cons] at r1 r2 d1 d2
      subst r1; subst d1
      have r3 : rs.isEmpty = cs.all fun x => x.outputRate == c.outputRate := by
        rw [Bool.eq_iff_iff, List.isEmpty_iff, r2]; simp
      have d3 : bs.isEmpty = cs.all fun x => x.bitDepth == c.bitDepth := by
        rw [Bool.eq_iff_iff, List.isEmpty_iff, d2]; simp
      simp only [hr, hd, commonRateAndDepth, bind, Except.bind, r3, d3, commonSamplesPerFrame]
      cases hA : cs.all fun x => x.outputRate == c.outputRate
      · simp
      · cases hB : cs.all fun x => x.config.numSamplesPerFrame == c.config.numSamplesPerFrame <;> simp

private theorem statistics_ok (d : SequenceObus) (bytes : List UInt8) :
    (∃ s, descriptorStatistics (d.codecs.map fun c => c.2.body) bytes = .ok s) ↔ OneRate d := by
  rw [statistics_eq]
  unfold OneRate
  generalize d.codecs = l
  cases l with
  | nil => simp
  | cons c cs =>
    simp only [List.map_cons]
    constructor
    · rintro ⟨s, hs⟩
      split at hs
      · split at hs
        · rename_i h1 h2
          simp only [List.all_map, List.all_eq_true, Function.comp_apply, beq_iff_eq] at h1 h2
          have key : ∀ x ∈ c :: cs, x.2.body.outputRate = c.2.body.outputRate ∧
              x.2.body.config.numSamplesPerFrame = c.2.body.config.numSamplesPerFrame := by
            intro x hx
            rcases List.mem_cons.mp hx with rfl | hx
            · exact ⟨rfl, rfl⟩
            · exact ⟨h1 x hx, h2 x hx⟩
          intro x hx y hy
          obtain ⟨a1, a2⟩ := key x hx
          obtain ⟨b1, b2⟩ := key y hy
          exact ⟨a1.trans b1.symm, a2.trans b2.symm⟩
        · simp at hs
      · simp at hs
    · intro h
      rw [if_pos, if_pos]
      · exact ⟨_, rfl⟩
      · simp only [List.all_map, List.all_eq_true, Function.comp_apply, beq_iff_eq]
        exact fun x hx => (h x (List.mem_cons_of_mem _ hx) c List.mem_cons_self).2
      · simp only [List.all_map, List.all_eq_true, Function.comp_apply, beq_iff_eq]
        exact fun x hx => (h x (List.mem_cons_of_mem _ hx) c List.mem_cons_self).1

private theorem writtenInOrder_exists {g : LebGen} {l : List (Wr Unit)} :
    (∃ b, WrittenInOrder g l b) ↔ ∀ q ∈ l, ∃ b, Writes g q b := by
  constructor
  · rintro ⟨b, parts, -, h⟩
    induction h generalizing b with
    | nil => simp
    | cons h1 _ ih => simp only [List.mem_cons, forall_eq_or_imp]; exact ⟨⟨_, h1⟩, ih b⟩
  · intro h
    induction l with
    | nil => exact ⟨[], [], rfl, .nil⟩
    | cons q l ih =>
      obtain ⟨b, hb⟩ := h q List.mem_cons_self
      obtain ⟨-, parts, -, hp⟩ := ih fun x hx => h x (List.mem_cons_of_mem _ hx)
      exact ⟨_, b :: parts, rfl, .cons hb hp⟩

private theorem descriptorObus_mem {d : SequenceObus} {c c' : List (UInt32 × Obu CodecObu)} {e e' : List (UInt32 × Obu ElementWithData)}
    (hc : c.Perm c') (he : e.Perm e') (q : Wr Unit) : q ∈ descriptorObus d c e ↔ q ∈ descriptorObus d c' e' := by
  simp only [descriptorObus, List.mem_append, List.mem_map, List.mem_singleton]
  simp only [hc.mem_iff, he.mem_iff]

private theorem descriptorBytes_sorted {g : LebGen} {d : SequenceObus} {b : List UInt8} (h : DescriptorBytes g d b) :
    ∃ b', WrittenInOrder g (descriptorObus d (sortBy keyLe d.codecs) (sortBy keyLe d.elements)) b' := by
  obtain ⟨c, e, hc, -, he, -, hw⟩ := h
  rw [writtenInOrder_exists]
  intro q hq
  exact writtenInOrder_exists.mp ⟨b, hw⟩ q ((descriptorObus_mem (hc.trans (sortBy_perm _ _).symm) (he.trans (sortBy_perm _ _).symm) q).mpr hq)

private theorem fresh_push {g : LebGen} {dl : Bool} {f0 : FileOutput} {q : Sequencer FileOutput} (h : Fresh g dl f0 q)
    (hn : f0.named = true) (hf : f0.faults = []) {d : SequenceObus} (hs : Supported d) (hr : OneRate d)
    (hd : ∃ b, DescriptorBytes g d b) :
    (q.call fileSink (.pushDescriptors d)).1 = .ok () ∧ (q.call fileSink (.pushDescriptors d)).2.sink.faults = [] := by
  obtain ⟨b, hb⟩ := hd
  obtain ⟨b, hb⟩ := descriptorBytes_sorted hb
  obtain ⟨w, hw, hwb⟩ := serialize_sequence.2 b hs hb
  obtain ⟨s, hst⟩ := (statistics_ok d w.bytes).mpr hr
  simp only [Sequencer.call, Sequencer.pushDescriptors, h.phase, Sequencer.pushDescriptorsBody, h.lebs, hw, hst, h.delay,
    Bool.false_eq_true, ↓reduceIte, fileSink, FileOutput.pushDescriptors, h.sink, hn, Sequencer.onSink, FileOutput.write, hf,
    Sequencer.abortOnFailure, List.tail_nil, and_self]

private theorem writing_push {g : LebGen} {dl : Bool} {cods : List CodecObu} {D : List UInt8}
    {us : List (TemporalUnitView × List UInt8)} {q : Sequencer FileOutput} (h : Writing g dl cods D us q) (hf : q.sink.faults = [])
    {u : TemporalUnitView} (hu : ∃ b, UnitBytes g dl u b) (ht : ∀ x ∈ us, x.1.untrimmed ≠ 0 → u.trimStart = 0) :
    (q.call fileSink (.pushUnit u)).1 = .ok () ∧ (q.call fileSink (.pushUnit u)).2.sink.faults = [] := by
  obtain ⟨b, hb⟩ := hu
  obtain ⟨w, hw, hwb⟩ := serialize_unit.2 b hb
  obtain ⟨-, hal⟩ := serialize_unit.1 w hw
  obtain ⟨s, hst, -, hsf, -⟩ := h.stats
  have hwr : q.sink.write w.bytes = (.ok (), ⟨q.sink.named, some (overwriteAt (q.sink.disk.getD []) (D ++ (us.map Prod.snd).flatten).length w.bytes),
      some ((D ++ (us.map Prod.snd).flatten).length + w.bytes.length), []⟩) := by
    simp only [FileOutput.write, h.position, hf, List.tail_nil]
  simp only [Sequencer.call, Sequencer.pushUnit, h.phase, Sequencer.pushUnitBody, h.lebs, h.delimiters, hw, hal, hst, Bool.not_true,
    Bool.false_eq_true, ↓reduceIte]
  match hfu : s.firstUntrimmed with
  | none =>
    simp only [Sequencer.handleInitial, h.delay, Bool.not_false, ↓reduceIte, fileSink, Sequencer.onSink, hwr, Sequencer.abortOnFailure, and_self]
  | some t =>
    rw [hfu] at hsf
    obtain ⟨x, hx, hx'⟩ := hsf.mp rfl
    have h0 := ht x hx hx'
    simp only [h0, gt_iff_lt, UInt32.lt_irrefl, ↓reduceIte, fileSink, Sequencer.onSink, hwr, Sequencer.abortOnFailure, and_self]

/-- The mixes are allowed in the primary or in the additional profile (C24). -/
def MixesAllowed (d : SequenceObus) : Prop :=
  ∀ m ∈ d.mixes, MixAllowed (d.elements.map fun e => (e.1, e.2.body)) m.body d.sequenceHeader.body.primaryProfile ∨
    MixAllowed (d.elements.map fun e => (e.1, e.2.body)) m.body d.sequenceHeader.body.additionalProfile

private theorem supported_iff {d : SequenceObus} (hw : ∀ m ∈ d.mixes, WellFormed (d.elements.map fun e => (e.1, e.2.body)) m.body)
    (h1 : d.sequenceHeader.body.primaryProfile ≤ 5) (h2 : d.sequenceHeader.body.additionalProfile ≤ 5) : Supported d ↔ MixesAllowed d := by
  refine forall_congr' fun m => forall_congr' fun hm => ?_
  unfold mixIsSupported
  rw [C24_succeeds_iff_supported _ _ (hw m hm) _ (by
    intro p hp
    split at hp
    · simp only [List.mem_singleton] at hp; subst hp; exact h1
    · simp only [List.mem_cons, List.not_mem_nil, or_false] at hp; rcases hp with rfl | rfl <;> assumption)]
  split
  · rename_i he
    simp only [List.mem_singleton, exists_eq_left, ← he, or_self]
  · simp

/-- C34: when the file can be written, the calls that push a sequence and close it all succeed exactly if every OBU can be written,
every mix is allowed in one of the two profiles of the sequence header, the codec configs agree on the output sample rate and on the
samples per frame, and after a unit with samples that are not trimmed no unit is trimmed at its start. -/
theorem C34_accepted_iff (g : LebGen) (delimiters : Bool) (f : FileOutput) (hn : f.named = true) (hp : f.position = none)
    (hf : f.faults = []) (d : SequenceObus) (us : List TemporalUnitView)
    (hw : ∀ m ∈ d.mixes, WellFormed (d.elements.map fun e => (e.1, e.2.body)) m.body)
    (h1 : d.sequenceHeader.body.primaryProfile ≤ 5) (h2 : d.sequenceHeader.body.additionalProfile ≤ 5) :
    Succeeded (writing g delimiters f (.pushDescriptors d :: us.map .pushUnit ++ [.close])).1 ↔
      (∃ bytes, DescriptorBytes g d bytes) ∧ MixesAllowed d ∧ OneRate d ∧ (∀ u ∈ us, ∃ bytes, UnitBytes g delimiters u bytes) ∧
      us.Pairwise (fun a b => a.untrimmed ≠ 0 → b.trimStart = 0) := by
  rw [← supported_iff hw h1 h2]
  constructor
  · intro hok
    unfold writing at hok
    rw [calls_append] at hok
    obtain ⟨D, bs, hD, hs, rfl, h⟩ := writing_after hn hp d us hok.left
    refine ⟨⟨D, hD⟩, hs, ?_, ?_, ?_⟩
    · obtain ⟨-, -, -, -, s0, hs0, -⟩ := h.stats
      exact (statistics_ok d D).mp ⟨s0, hs0⟩
    · intro u hu
      obtain ⟨x, hx, rfl⟩ := List.mem_map.mp hu
      exact ⟨_, h.units x hx⟩
    · rw [List.pairwise_map]; exact h.trims
  · rintro ⟨hD, hs, hr, hu, ht⟩
    have key : ∀ (us : List TemporalUnitView), (∀ u ∈ us, ∃ bytes, UnitBytes g delimiters u bytes) →
        us.Pairwise (fun a b => a.untrimmed ≠ 0 → b.trimStart = 0) →
        Succeeded (writing g delimiters f (.pushDescriptors d :: us.map .pushUnit)).1 ∧
        (writing g delimiters f (.pushDescriptors d :: us.map .pushUnit)).2.sink.faults = [] := by
      intro us hu ht
      have main : ∀ n, n ≤ us.length → Succeeded (writing g delimiters f (.pushDescriptors d :: (us.take n).map .pushUnit)).1 ∧
          (writing g delimiters f (.pushDescriptors d :: (us.take n).map .pushUnit)).2.sink.faults = [] := by
        intro n
        induction n with
        | zero =>
          intro _
          obtain ⟨a, b⟩ := fresh_push (g := g) (dl := delimiters) (fresh (f := f)) hn hf hs hr hD
          refine ⟨?_, b⟩
          intro r hr
          simp only [List.take_zero, List.map_nil, writing, Sequencer.calls, List.mem_singleton] at hr
          rw [hr, a]
        | succ n ih =>
          intro hn'
          obtain ⟨i1, i2⟩ := ih (by omega)
          obtain ⟨D, bs, hD, -, hbs, h⟩ := writing_after hn hp d _ i1
          have hlt : n < us.length := by omega
          rw [List.take_succ_eq_append_getElem hlt, List.map_append, ← List.cons_append]
          obtain ⟨a, b⟩ := writing_push h i2 (hu us[n] (List.getElem_mem hlt)) (by
            intro x hx
            have hx1 : x.1 ∈ us.take n := by rw [hbs]; exact List.mem_map_of_mem hx
            rw [List.pairwise_iff_getElem] at ht
            obtain ⟨i, hi, he⟩ := List.mem_iff_getElem.mp hx1
            rw [List.getElem_take] at he
            rw [← he]
            simp only [List.length_take] at hi
            exact ht i n (by omega) hlt (by omega))
          unfold writing at i1 i2 a b ⊢
          rw [calls_append]
          refine ⟨?_, b⟩
          intro r hr
          rcases List.mem_append.mp hr with hr | hr
          · exact i1 r hr
          · simp only [List.map_cons, List.map_nil, Sequencer.calls, List.mem_singleton] at hr
            exact hr.trans a
      have := main us.length (Nat.le_refl _)
      rwa [List.take_length] at this
    obtain ⟨k1, -⟩ := key us hu ht
    obtain ⟨D, bs, -, -, -, h⟩ := writing_after hn hp d us k1
    unfold writing at h k1 ⊢
    rw [calls_append]
    intro r hr
    rcases List.mem_append.mp hr with hr | hr
    · exact k1 r hr
    · simp only [Sequencer.calls, List.mem_singleton] at hr
      refine hr.trans ?_
      have hph := h.phase
      show (Sequencer.close fileSink _).1 = _
      rw [Sequencer.close]
      split
      · rfl
      · rename_i hx; exact absurd (hph.symm.trans hx) (by simp)
      · rfl
      · rename_i hx; exact absurd (hph.symm.trans hx) (by simp)

/-! ### The order of the maps does not matter -/

private theorem sortBy_keys_eq {α : Type} {l l' : List (UInt32 × α)} (h : l.Perm l') (hn : (l.map Prod.fst).Nodup) :
    sortBy keyLe l = sortBy keyLe l' := by
  have hp : (sortBy keyLe l).Perm (sortBy keyLe l') := (sortBy_perm _ _).trans (h.trans (sortBy_perm _ _).symm)
  refine hp.eq_of_pairwise ?_ (sorted_keys l) (sorted_keys l')
  intro a b ha hb h1 h2
  have ha := (sortBy_perm keyLe l).mem_iff.mp ha
  have hb := (h.symm.mem_iff).mp ((sortBy_perm keyLe l').mem_iff.mp hb)
  exact eq_of_nodup_map hn ha hb (UInt32.le_antisymm h1 h2)

private theorem lookup_perm {α : Type} {l l' : List (UInt32 × α)} (h : l.Perm l') (hn : (l.map Prod.fst).Nodup) (i : UInt32) :
    l.lookup i = l'.lookup i := by
  induction h with
  | nil => rfl
  | cons x h ih =>
    simp only [List.map_cons, List.nodup_cons] at hn
    obtain ⟨k, v⟩ := x
    simp only [List.lookup, ih hn.2]
  | swap x y l =>
    simp only [List.map_cons, List.nodup_cons, List.mem_cons, not_or] at hn
    obtain ⟨k, v⟩ := x
    obtain ⟨k', v'⟩ := y
    simp only at hn
    simp only [List.lookup]
    by_cases h1 : (i == k) = true
    · by_cases h2 : (i == k') = true
      · exact absurd ((beq_iff_eq.mp h2).symm.trans (beq_iff_eq.mp h1)) hn.1.1
      · simp [h1, h2]
    · simp [h1]
  | trans h1 h2 ih1 ih2 => rw [ih1 hn, ih2 ((h1.map _).nodup_iff.mp hn)]

private theorem filterMix_lookup {a b : List (UInt32 × ElementWithData)} (h : ∀ i, a.lookup i = b.lookup i) (m : MixPresentation) :
    filterMix a m = filterMix b m := by
  have h1 : ∀ es r, gatherElements a es r = gatherElements b es r := by
    intro es
    induction es with
    | nil => intro r; rfl
    | cons e es ih => intro r; simp only [gatherElements, h, ih]
  have h2 : ∀ ss i r, gatherSubMixes a ss i r = gatherSubMixes b ss i r := by
    intro ss
    induction ss with
    | nil => intro i r; rfl
    | cons e es ih => intro i r; simp only [gatherSubMixes, h1, ih]
  have h3 : filterReferenced a = filterReferenced b := by
    funext e; simp only [filterReferenced, h]
  simp only [filterMix, filterCodecs, h2, h3, countChannels, h]

private theorem statistics_perm {a b : List CodecObu} (h : a.Perm b) (bytes : List UInt8) :
    descriptorStatistics a bytes = descriptorStatistics b bytes := by
  rw [statistics_eq, statistics_eq]
  match a, b, h with
  | [], [], _ => rfl
  | [], _ :: _, h => exact absurd h.length_eq (by simp)
  | _ :: _, [], h => exact absurd h.length_eq (by simp)
  | c :: cs, d :: ds, h =>
    have hall : ∀ {β : Type} [BEq β] [LawfulBEq β] (f : CodecObu → β),
        (cs.all fun x => f x == f c) = (ds.all fun x => f x == f d) ∧ ((cs.all fun x => f x == f c) = true → f c = f d) := by
      intro β _ _ f
      have key : ∀ {c d : CodecObu} {cs ds : List CodecObu}, (c :: cs).Perm (d :: ds) → (cs.all fun x => f x == f c) = true →
          (ds.all fun x => f x == f d) = true ∧ f c = f d := by
        intro c d cs ds h h1
        simp only [List.all_eq_true, beq_iff_eq] at h1 ⊢
        have h2 : ∀ x ∈ d :: ds, f x = f c := by
          intro x hx
          rcases List.mem_cons.mp (h.mem_iff.mpr hx) with rfl | hx
          · rfl
          · exact h1 x hx
        exact ⟨fun x hx => (h2 x (List.mem_cons_of_mem _ hx)).trans (h2 d List.mem_cons_self).symm, (h2 d List.mem_cons_self).symm⟩
      exact ⟨Bool.eq_iff_iff.mpr ⟨fun h1 => (key h h1).1, fun h1 => (key h.symm h1).1⟩, fun h1 => (key h h1).2⟩
    obtain ⟨a1, a2⟩ := hall (fun x => x.outputRate)
    obtain ⟨b1, b2⟩ := hall (fun x => x.config.numSamplesPerFrame)
    obtain ⟨c1, c2⟩ := hall (fun x => x.bitDepth)
    simp only at a1 a2 b1 b2 c1 c2 ⊢
    rw [← a1, ← b1, ← c1]
    split
    · rename_i ha
      split
      · rename_i hb
        rw [a2 ha, b2 hb]
        split
        · rename_i hc; rw [c2 hc]
        · rfl
      · rfl
    · rfl

/-- Two arguments that hold the same OBUs, but whose hash maps are iterated in different orders. -/
structure SameObus (d d' : SequenceObus) : Prop where
  sequenceHeader : d.sequenceHeader = d'.sequenceHeader
  metadata : d.metadata = d'.metadata
  codecs : d.codecs.Perm d'.codecs
  elements : d.elements.Perm d'.elements
  mixes : d.mixes = d'.mixes
  arbitrary : d.arbitrary = d'.arbitrary

private theorem wSequenceObus_same {d d' : SequenceObus} (h : SameObus d d') (hc : (d.codecs.map Prod.fst).Nodup)
    (he : (d.elements.map Prod.fst).Nodup) : wSequenceObus d = wSequenceObus d' := by
  have h1 := sortBy_keys_eq h.codecs hc
  have h2 := sortBy_keys_eq h.elements he
  have h3 : mixIsSupported d.sequenceHeader.body (d.elements.map fun e => (e.1, e.2.body)) =
      mixIsSupported d'.sequenceHeader.body (d'.elements.map fun e => (e.1, e.2.body)) := by
    funext m
    unfold mixIsSupported
    rw [filterMix_lookup (lookup_perm (h.elements.map _) (by rw [List.map_map]; exact he)), h.sequenceHeader]
  unfold wSequenceObus wDescriptorObus
  rw [h1, h2, h3, h.sequenceHeader, h.metadata, h.mixes, h.arbitrary]

/-- C34: neither the result nor anything that is written depends on the iteration order of the hash maps, for any sequencer. -/
theorem C34_independent_of_map_order {σ : Type} (K : Sink σ) (q : Sequencer σ) (d d' : SequenceObus) (h : SameObus d d')
    (hc : (d.codecs.map Prod.fst).Nodup) (he : (d.elements.map Prod.fst).Nodup) :
    q.call K (.pushDescriptors d) = q.call K (.pushDescriptors d') ∧ q.call K (.updateAndClose d) = q.call K (.updateAndClose d') := by
  have hw := wSequenceObus_same h hc he
  have hs := statistics_perm (h.codecs.map fun c => c.2.body)
  refine ⟨?_, ?_⟩
  · simp only [Sequencer.call, Sequencer.pushDescriptors, Sequencer.pushDescriptorsBody, hw, hs]
  · simp only [Sequencer.call, Sequencer.updateAndClose, Sequencer.updateBody, hw, hs]

/-! ### Different sequencers -/

/-- Two derived classes that answer alike, whatever they do with the data: `R` relates their states. -/
structure Alike {σ τ : Type} (K : Sink σ) (L : Sink τ) (R : σ → τ → Prop) : Prop where
  descriptors : ∀ s a b, R a b → (K.pushDescriptors s a).1 = (L.pushDescriptors s b).1 ∧ R (K.pushDescriptors s a).2 (L.pushDescriptors s b).2
  unit : ∀ t n k bytes a b, R a b → (K.pushUnit t n k bytes a).1 = (L.pushUnit t n k bytes b).1 ∧
    R (K.pushUnit t n k bytes a).2 (L.pushUnit t n k bytes b).2
  finalized : ∀ bytes a b, R a b → (K.pushFinalized bytes a).1 = (L.pushFinalized bytes b).1 ∧
    R (K.pushFinalized bytes a).2 (L.pushFinalized bytes b).2
  close : ∀ a b, R a b → R (K.close a) (L.close b)
  abort : ∀ a b, R a b → R (K.abort a) (L.abort b)

/-- The states of two sequencers agree but for their derived classes, which are related. -/
private structure SameBase {σ τ : Type} (R : σ → τ → Prop) (q : Sequencer σ) (q' : Sequencer τ) : Prop where
  lebs : q.lebs = q'.lebs
  delay : q.delay = q'.delay
  delimiters : q.delimiters = q'.delimiters
  phase : q.phase = q'.phase
  statistics : q.statistics = q'.statistics
  delayed : q.delayed = q'.delayed
  sink : R q.sink q'.sink

/-- Results that agree. -/
private def SameResult {σ τ : Type} (R : σ → τ → Prop) (r : Except Err Unit × Sequencer σ) (r' : Except Err Unit × Sequencer τ) : Prop :=
  r.1 = r'.1 ∧ SameBase R r.2 r'.2

private theorem SameResult.abort {σ τ : Type} {K : Sink σ} {L : Sink τ} {R : σ → τ → Prop} (hA : Alike K L R)
    {r : Except Err Unit × Sequencer σ} {r' : Except Err Unit × Sequencer τ} (h : SameResult R r r') :
    SameResult R (Sequencer.abortOnFailure K r) (Sequencer.abortOnFailure L r') := by
  obtain ⟨a, q⟩ := r
  obtain ⟨b, q'⟩ := r'
  obtain ⟨h1, h2⟩ := h
  simp only at h1 h2
  subst h1
  match a with
  | .ok () => exact ⟨rfl, h2⟩
  | .error e => exact ⟨rfl, ⟨h2.lebs, h2.delay, h2.delimiters, rfl, h2.statistics, h2.delayed, hA.abort _ _ h2.sink⟩⟩

private theorem SameResult.next {σ τ : Type} {R : σ → τ → Prop} {r : Except Err Unit × Sequencer σ} {r' : Except Err Unit × Sequencer τ}
    (h : SameResult R r r') {k : Sequencer σ → Except Err Unit × Sequencer σ} {k' : Sequencer τ → Except Err Unit × Sequencer τ}
    (hk : ∀ q q', SameBase R q q' → SameResult R (k q) (k' q')) :
    SameResult R (match (generalizing := false) r with | (.error e, q) => (.error e, q) | (.ok (), q) => k q)
      (match (generalizing := false) r' with | (.error e, q) => (.error e, q) | (.ok (), q) => k' q) := by
  obtain ⟨a, q⟩ := r
  obtain ⟨b, q'⟩ := r'
  obtain ⟨h1, h2⟩ := h
  simp only at h1 h2
  subst h1
  match a with
  | .ok () => exact hk _ _ h2
  | .error e => exact ⟨rfl, h2⟩

private theorem same_delayed {σ τ : Type} {K : Sink σ} {L : Sink τ} {R : σ → τ → Prop} (hA : Alike K L R) (l : List DelayedUnit) :
    ∀ a b, R a b → (Sequencer.pushDelayed K l a).1 = (Sequencer.pushDelayed L l b).1 ∧
      R (Sequencer.pushDelayed K l a).2 (Sequencer.pushDelayed L l b).2 := by
  induction l with
  | nil => intro a b h; exact ⟨rfl, h⟩
  | cons u l ih =>
    intro a b h
    obtain ⟨h1, h2⟩ := hA.unit u.start u.untrimmed u.isKeyFrame u.bytes a b h
    simp only [Sequencer.pushDelayed]
    generalize K.pushUnit u.start u.untrimmed u.isKeyFrame u.bytes a = r at h1 h2
    generalize L.pushUnit u.start u.untrimmed u.isKeyFrame u.bytes b = r' at h1 h2
    obtain ⟨x, s⟩ := r
    obtain ⟨y, s'⟩ := r'
    simp only at h1 h2
    subst h1
    match x with
    | .ok () => exact ih _ _ h2
    | .error e => exact ⟨rfl, h2⟩

private theorem SameBase.elim {σ τ : Type} {R : σ → τ → Prop} {q : Sequencer σ} {q' : Sequencer τ} (h : SameBase R q q') :
    ∃ l d m p st dl s s', q = ⟨l, d, m, p, st, dl, s⟩ ∧ q' = ⟨l, d, m, p, st, dl, s'⟩ ∧ R s s' := by
  obtain ⟨l, d, m, p, st, dl, s⟩ := q
  obtain ⟨l', d', m', p', st', dl', s'⟩ := q'
  obtain ⟨h1, h2, h3, h4, h5, h6, h7⟩ := h
  simp only at h1 h2 h3 h4 h5 h6 h7
  subst h1 h2 h3 h4 h5 h6
  exact ⟨_, _, _, _, _, _, _, _, rfl, rfl, h7⟩

private theorem same_on {σ τ : Type} {R : σ → τ → Prop} {l : LebGen} {dy m : Bool} {p : SequencerPhase} {st : Option DescriptorStatistics}
    {dl : List DelayedUnit} {s : σ} {s' : τ} {r : Except Err Unit × σ} {r' : Except Err Unit × τ} (hr : r.1 = r'.1 ∧ R r.2 r'.2) :
    SameResult R (Sequencer.onSink ⟨l, dy, m, p, st, dl, s⟩ r) (Sequencer.onSink ⟨l, dy, m, p, st, dl, s'⟩ r') :=
  ⟨hr.1, rfl, rfl, rfl, rfl, rfl, rfl, hr.2⟩

private theorem same_now {σ τ : Type} {K : Sink σ} {L : Sink τ} {R : σ → τ → Prop} (hA : Alike K L R) {q : Sequencer σ} {q' : Sequencer τ}
    (h : SameBase R q q') : SameResult R (q.closeNow K) (q'.closeNow L) := by
  obtain ⟨l, d, m, p, st, dl, s, s', rfl, rfl, hR⟩ := h.elim
  exact ⟨rfl, rfl, rfl, rfl, rfl, rfl, rfl, hA.close _ _ hR⟩

private theorem same_close {σ τ : Type} {K : Sink σ} {L : Sink τ} {R : σ → τ → Prop} (hA : Alike K L R) {q : Sequencer σ} {q' : Sequencer τ}
    (h : SameBase R q q') : SameResult R (q.close K) (q'.close L) := by
  obtain ⟨l, d, m, p, st, dl, s, s', rfl, rfl, hR⟩ := h.elim
  unfold Sequencer.close
  match p with
  | .initialized => exact same_now hA ⟨rfl, rfl, rfl, rfl, rfl, rfl, hR⟩
  | .descriptorsPushed => exact same_now hA ⟨rfl, rfl, rfl, rfl, rfl, rfl, hR⟩
  | .closed => exact ⟨rfl, rfl, rfl, rfl, rfl, rfl, rfl, hR⟩
  | .descriptorsCalled =>
    match st with
    | none => exact ⟨rfl, rfl, rfl, rfl, rfl, rfl, rfl, hR⟩
    | some x =>
      refine SameResult.next (same_on (hA.descriptors _ _ _ hR)) ?_
      intro q q' h
      obtain ⟨l, d, m, p, st, dl, s, s', rfl, rfl, hR⟩ := h.elim
      exact same_now hA ⟨rfl, rfl, rfl, rfl, rfl, rfl, hR⟩

private theorem same_call {σ τ : Type} {K : Sink σ} {L : Sink τ} {R : σ → τ → Prop} (hA : Alike K L R) {q : Sequencer σ} {q' : Sequencer τ}
    (h : SameBase R q q') (c : SequencerCall) : SameResult R (q.call K c) (q'.call L c) := by
  obtain ⟨l, dy, m, p, st, dl, s, s', rfl, rfl, hR⟩ := h.elim
  have done : ∀ {r : Except Err Unit} {l dy m p st dl s s'}, R s s' →
      SameResult R (r, (⟨l, dy, m, p, st, dl, s⟩ : Sequencer σ)) (r, (⟨l, dy, m, p, st, dl, s'⟩ : Sequencer τ)) :=
    fun h => ⟨rfl, rfl, rfl, rfl, rfl, rfl, rfl, h⟩
  cases c with
  | abort => exact done (hA.abort _ _ hR)
  | close => exact same_close hA ⟨rfl, rfl, rfl, rfl, rfl, rfl, hR⟩
  | pushDescriptors d =>
    refine SameResult.abort hA ?_
    match p with
    | .descriptorsCalled => exact done hR
    | .descriptorsPushed => exact done hR
    | .closed => exact done hR
    | .initialized =>
      simp only [Sequencer.pushDescriptorsBody]
      match serialize l (wSequenceObus d) with
      | .error e => exact done hR
      | .ok w =>
        simp only
        match hx : descriptorStatistics (d.codecs.map fun c => c.2.body) w.bytes with
        | .error e => simp only [hx]; exact done hR
        | .ok x =>
          simp only [hx]
          split
          · exact done hR
          · refine SameResult.next (same_on (hA.descriptors _ _ _ hR)) ?_
            intro q q' h
            obtain ⟨l, d, m, p, st, dl, s, s', rfl, rfl, hR⟩ := h.elim
            exact done hR
  | pushUnit u =>
    refine SameResult.abort hA ?_
    have body : SameResult R (Sequencer.pushUnitBody K u ⟨l, dy, m, p, st, dl, s⟩) (Sequencer.pushUnitBody L u ⟨l, dy, m, p, st, dl, s'⟩) := by
      simp only [Sequencer.pushUnitBody]
      match serialize l (wTemporalUnit m u) with
      | .error e => exact done hR
      | .ok w =>
        simp only
        split
        · exact done hR
        · match st with
          | none => exact done hR
          | some x =>
            simp only
            match x.firstUntrimmed with
            | some t =>
              simp only
              split
              · exact done hR
              · exact same_on (hA.unit _ _ _ _ _ _ hR)
            | none =>
              simp only [Sequencer.handleInitial]
              split
              · exact same_on (hA.unit _ _ _ _ _ _ hR)
              · split
                · exact done hR
                · refine SameResult.next (same_on (hA.descriptors _ _ _ hR)) ?_
                  intro q q' h
                  obtain ⟨l, d, m, p, st, dl, s, s', rfl, rfl, hR⟩ := h.elim
                  refine SameResult.next (same_on (same_delayed hA _ _ _ hR)) ?_
                  intro q q' h
                  obtain ⟨l, d, m, p, st, dl, s, s', rfl, rfl, hR⟩ := h.elim
                  exact same_on (hA.unit _ _ _ _ _ _ hR)
    match p with
    | .initialized => exact done hR
    | .closed => exact done hR
    | .descriptorsCalled => exact body
    | .descriptorsPushed => exact body
  | updateAndClose d =>
    refine SameResult.abort hA ?_
    have body : SameResult R (Sequencer.updateBody K d ⟨l, dy, m, p, st, dl, s⟩) (Sequencer.updateBody L d ⟨l, dy, m, p, st, dl, s'⟩) := by
      simp only [Sequencer.updateBody]
      match serialize l (wSequenceObus d) with
      | .error e => exact done hR
      | .ok w =>
        simp only
        match st with
        | none => exact done hR
        | some x =>
          simp only
          split
          · exact same_close hA ⟨rfl, rfl, rfl, rfl, rfl, rfl, hR⟩
          · match hx : descriptorStatistics (d.codecs.map fun c => c.2.body) w.bytes with
            | .error e => simp only [hx]; exact done hR
            | .ok new =>
              simp only [hx]
              split
              · exact done hR
              · split
                · exact done hR
                · refine SameResult.next (same_on (hA.finalized _ _ _ hR)) ?_
                  intro q q' h
                  obtain ⟨l, d, m, p, st, dl, s, s', rfl, rfl, hR⟩ := h.elim
                  exact same_close hA ⟨rfl, rfl, rfl, rfl, rfl, rfl, hR⟩
    match p with
    | .initialized => exact done hR
    | .closed => exact done hR
    | .descriptorsCalled => exact body
    | .descriptorsPushed => exact body

private theorem same_calls {σ τ : Type} {K : Sink σ} {L : Sink τ} {R : σ → τ → Prop} (hA : Alike K L R) (cs : List SequencerCall) :
    ∀ {q : Sequencer σ} {q' : Sequencer τ}, SameBase R q q' → (q.calls K cs).1 = (q'.calls L cs).1 ∧
      SameBase R (q.calls K cs).2 (q'.calls L cs).2 := by
  induction cs with
  | nil => intro q q' h; exact ⟨rfl, h⟩
  | cons c cs ih =>
    intro q q' h
    obtain ⟨h1, h2⟩ := same_call hA h c
    obtain ⟨h3, h4⟩ := ih h2
    rw [calls_cons, calls_cons]
    exact ⟨by rw [h1, h3], h4⟩

/-- C34: two sequencers whose derived classes answer alike give the same results, for every history. -/
theorem C34_results_do_not_depend_on_the_sink {σ τ : Type} (K : Sink σ) (L : Sink τ) (R : σ → τ → Prop) (hA : Alike K L R) (g : LebGen)
    (delimiters delay : Bool) (s : σ) (t : τ) (hst : R s t) (cs : List SequencerCall) :
    (Sequencer.calls K cs (.create g delimiters delay s)).1 = (Sequencer.calls L cs (.create g delimiters delay t)).1 ∧
    R (Sequencer.calls K cs (.create g delimiters delay s)).2.sink (Sequencer.calls L cs (.create g delimiters delay t)).2.sink := by
  obtain ⟨h1, h2⟩ := same_calls hA cs (q := .create g delimiters delay s) (q' := .create g delimiters delay t) ⟨rfl, rfl, rfl, rfl, rfl, rfl, hst⟩
  exact ⟨h1, h2.sink⟩

private theorem file_like_streaming : Alike fileSink streamingSink (fun f _ => f.faults = []) := by
  have hw : ∀ bytes (f : FileOutput), f.faults = [] → (f.write bytes).1 = .ok () ∧ (f.write bytes).2.faults = [] := by
    intro bytes f hf
    unfold FileOutput.write
    match f.position with
    | none => exact ⟨rfl, hf⟩
    | some p => simp only [hf, List.tail_nil, and_self]
  refine ⟨?_, ?_, ?_, ?_, ?_⟩
  · intro s a b h
    exact hw _ _ (by split <;> exact h)
  · intro t n k bytes a b h
    exact hw _ _ h
  · intro bytes a b h
    simp only [fileSink, FileOutput.pushFinalized, streamingSink]
    match a.position with
    | none => exact ⟨rfl, h⟩
    | some p =>
      obtain ⟨h1, h2⟩ := hw bytes { a with position := some 0 } h
      generalize FileOutput.write bytes { a with position := some 0 } = r at h1 h2
      obtain ⟨x, f⟩ := r
      simp only at h1 h2
      subst h1
      exact ⟨rfl, h2⟩
  · intro a b h; exact h
  · intro a b h
    simp only [fileSink, FileOutput.abort]
    split <;> exact h

/-- What a user of the streaming sequencer gets who asks for the descriptors after pushing them, and for the previous temporal unit
after pushing each. -/
def streamed (g : LebGen) (delimiters : Bool) (cs : List SequencerCall) : List UInt8 := go cs (streamingSequencer g delimiters)
where
  go : List SequencerCall → Sequencer StreamingOutput → List UInt8
    | [], _ => []
    | c :: cs, q =>
      (match c with
        | .pushDescriptors _ => (q.call streamingSink c).2.sink.descriptors
        | .pushUnit _ => (q.call streamingSink c).2.sink.previousUnit
        | _ => []) ++ go cs (q.call streamingSink c).2

private theorem streamed_append (a b : List SequencerCall) (q : Sequencer StreamingOutput) :
    streamed.go (a ++ b) q = streamed.go a q ++ streamed.go b (q.calls streamingSink a).2 := by
  induction a generalizing q with
  | nil => rfl
  | cons c a ih => cases c <;> simp only [List.cons_append, streamed.go, ih, List.append_assoc, calls_cons]

theorem streamed_descriptors {g : LebGen} {dl : Bool} {d : SequenceObus} {w : WBuf} (hw : serialize g (wSequenceObus d) = .ok w)
    (hok : ((streamingSequencer g dl).call streamingSink (.pushDescriptors d)).1 = .ok ()) :
    ((streamingSequencer g dl).call streamingSink (.pushDescriptors d)).2.sink.descriptors = w.bytes := by
  simp only [Sequencer.call, Sequencer.pushDescriptors, streamingSequencer, Sequencer.create, Sequencer.pushDescriptorsBody, hw] at hok ⊢
  match hst : descriptorStatistics (d.codecs.map fun c => c.2.body) w.bytes with
  | .error e => simp [hst, Sequencer.abortOnFailure] at hok
  | .ok s =>
    have hsb : s.bytes = w.bytes := by
      rw [statistics_eq] at hst
      split at hst
      · simp only [Except.ok.injEq] at hst; subst hst; rfl
      · split at hst
        · split at hst
          · simp only [Except.ok.injEq] at hst; subst hst; rfl
          · simp at hst
        · simp at hst
    simp only [hst, Bool.false_eq_true, ↓reduceIte, streamingSink, Sequencer.onSink, Sequencer.abortOnFailure]
    exact hsb

theorem streamed_unit {g : LebGen} {dl : Bool} {q : Sequencer StreamingOutput} (h1 : q.lebs = g) (h2 : q.delimiters = dl)
    (h3 : q.delay = false) {u : TemporalUnitView} {w : WBuf} (hw : serialize g (wTemporalUnit dl u) = .ok w)
    (hok : (q.call streamingSink (.pushUnit u)).1 = .ok ()) : (q.call streamingSink (.pushUnit u)).2.sink.previousUnit = w.bytes := by
  have body : (Sequencer.abortOnFailure streamingSink (q.pushUnitBody streamingSink u)).1 = .ok () →
      (Sequencer.abortOnFailure streamingSink (q.pushUnitBody streamingSink u)).2.sink.previousUnit = w.bytes := by
    intro hok
    simp only [Sequencer.pushUnitBody, h1, h2, hw] at hok ⊢
    split at hok
    · simp [Sequencer.abortOnFailure] at hok
    · rename_i ha
      rw [if_neg ha]
      match hs : q.statistics with
      | none => simp [hs, Sequencer.abortOnFailure] at hok
      | some s =>
        simp only [hs] at hok ⊢
        match hf : s.firstUntrimmed with
        | none =>
          simp only [Sequencer.handleInitial, h3, Bool.not_false, ↓reduceIte, streamingSink, Sequencer.onSink, Sequencer.abortOnFailure]
        | some t =>
          simp only [hf] at hok ⊢
          split at hok
          · simp [Sequencer.abortOnFailure] at hok
          · rename_i ht
            rw [if_neg ht]
            simp only [streamingSink, Sequencer.onSink, Sequencer.abortOnFailure]
  simp only [Sequencer.call, Sequencer.pushUnit] at hok ⊢
  match hp : q.phase with
  | .initialized => simp [hp, Sequencer.abortOnFailure] at hok
  | .closed => simp [hp, Sequencer.abortOnFailure] at hok
  | .descriptorsCalled => simp only [hp] at hok; exact body hok
  | .descriptorsPushed => simp only [hp] at hok; exact body hok

/-- C34: the streaming sequencer answers every history of calls like one that writes to a file that can be written. -/
theorem C34_streaming_answers_alike (g : LebGen) (delimiters : Bool) (f : FileOutput) (hf : f.faults = []) (cs : List SequencerCall) :
    (Sequencer.calls streamingSink cs (streamingSequencer g delimiters)).1 = (writing g delimiters f cs).1 :=
  (C34_results_do_not_depend_on_the_sink _ _ _ file_like_streaming g delimiters false f ⟨[], []⟩ hf cs).1.symm

/-- C34: ... and the descriptors and temporal units it hands out are, one after the other, exactly the file. -/
theorem C34_streaming_gives_the_file (g : LebGen) (delimiters : Bool) (f : FileOutput) (hn : f.named = true) (hp : f.position = none)
    (hf : f.faults = []) (d : SequenceObus) (us : List TemporalUnitView)
    (hok : Succeeded (Sequencer.calls streamingSink (.pushDescriptors d :: us.map .pushUnit) (streamingSequencer g delimiters)).1) :
    fileAfter g delimiters f (.pushDescriptors d :: us.map .pushUnit) = some (streamed g delimiters (.pushDescriptors d :: us.map .pushUnit)) := by
  have main : ∀ n, n ≤ us.length → ∃ D bs, (us.take n) = bs.map Prod.fst ∧
      Writing g delimiters (d.codecs.map fun c => c.2.body) D bs (writing g delimiters f (.pushDescriptors d :: (us.take n).map .pushUnit)).2 ∧
      streamed g delimiters (.pushDescriptors d :: (us.take n).map .pushUnit) = D ++ (bs.map Prod.snd).flatten := by
    intro n
    induction n with
    | zero =>
      intro _
      have h0 := hok _ List.mem_cons_self
      have h1 := C34_streaming_answers_alike g delimiters f hf [.pushDescriptors d]
      have h2 : ((fileSequencer g delimiters f).call fileSink (.pushDescriptors d)).1 = .ok () := by
        have h3 : [((streamingSequencer g delimiters).call streamingSink (.pushDescriptors d)).1] =
            [((fileSequencer g delimiters f).call fileSink (.pushDescriptors d)).1] := h1
        simp only [List.cons.injEq, and_true] at h3
        rw [← h3]; exact h0
      rcases (fresh (g := g) (dl := delimiters) (f := f)).call hn hp (.pushDescriptors d) with ⟨d', D, hd, -, -, -, ⟨w, hw, rfl⟩, hW⟩ | ⟨h1, -⟩ | ⟨-, h1, -⟩
      · cases hd
        refine ⟨w.bytes, [], rfl, hW, ?_⟩
        simp only [List.take_zero, List.map_nil, List.flatten_nil, List.append_nil, streamed, streamed.go]
        exact streamed_descriptors hw h0
      · exact absurd h2 (h1.resolve_left (by simp [SequencerCall.ends]))
      · exact absurd h2 h1
    | succ n ih =>
      intro hn'
      obtain ⟨D, bs, i1, i2, i3⟩ := ih (by omega)
      have hlt : n < us.length := by omega
      obtain ⟨hbase, hsame⟩ := same_calls file_like_streaming (.pushDescriptors d :: (us.take n).map .pushUnit)
        (q := fileSequencer g delimiters f) (q' := streamingSequencer g delimiters) ⟨rfl, rfl, rfl, rfl, rfl, rfl, hf⟩
      have hcall := same_call file_like_streaming hsame (.pushUnit us[n])
      have hstr : (((streamingSequencer g delimiters).calls streamingSink (.pushDescriptors d :: (us.take n).map .pushUnit)).2.call streamingSink
          (.pushUnit us[n])).1 = .ok () := by
        have hsplit : SequencerCall.pushDescriptors d :: us.map SequencerCall.pushUnit =
            (.pushDescriptors d :: (us.take n).map .pushUnit) ++ .pushUnit us[n] :: (us.drop (n + 1)).map .pushUnit := by
          have : us = us.take n ++ us[n] :: us.drop (n + 1) := by rw [← List.drop_eq_getElem_cons hlt, List.take_append_drop]
          rw [show us.map SequencerCall.pushUnit = (us.take n ++ us[n] :: us.drop (n + 1)).map .pushUnit from congrArg _ this]
          simp only [List.map_append, List.map_cons, List.cons_append]
        rw [hsplit, calls_append, calls_cons] at hok
        exact hok _ (List.mem_append_right _ List.mem_cons_self)
      rcases i2.call (.pushUnit us[n]) with ⟨u, b, hu, -, ⟨w, hw, rfl⟩, hW⟩ | ⟨-, h1, -⟩ | ⟨_, _, -, h1, -⟩ | ⟨h1, -⟩
      · simp only [SequencerCall.pushUnit.injEq] at hu
        subst hu
        have e : SequencerCall.pushDescriptors d :: (us.take (n + 1)).map SequencerCall.pushUnit =
            (.pushDescriptors d :: (us.take n).map .pushUnit) ++ [.pushUnit us[n]] := by
          rw [List.take_succ_eq_append_getElem hlt]; simp only [List.map_append, List.map_cons, List.cons_append, List.map_nil]
        refine ⟨D, bs ++ [(us[n], w.bytes)], ?_, ?_, ?_⟩
        · rw [List.take_succ_eq_append_getElem hlt, i1]; simp
        · rw [e]; unfold writing; rw [calls_append]; exact hW
        · rw [e]
          unfold streamed at i3 ⊢
          rw [streamed_append, i3]
          simp only [streamed.go]
          rw [streamed_unit ?_ ?_ ?_ hw hstr]
          · simp
          · rw [← hsame.lebs]; exact i2.lebs
          · rw [← hsame.delimiters]; exact i2.delimiters
          · rw [← hsame.delay]; exact i2.delay
      · cases h1
      · cases h1
      · rcases h1 with h1 | h1
        · cases h1
        · exact absurd (hcall.1.trans hstr) h1
  obtain ⟨D, bs, -, h2, h3⟩ := main us.length (Nat.le_refl _)
  rw [List.take_length] at h2 h3
  rw [h3]
  exact h2.disk

/-! ### Sequencers that want to know the first timestamp -/

/-- What a derived class is told. -/
inductive SinkEvent where
  | descriptors (s : DescriptorStatistics)
  | unit (u : DelayedUnit)
  | finalized (bytes : List UInt8)
  | close
  | abort
  deriving DecidableEq, Repr

/-- A derived class that remembers what it is told. -/
def recordingSink : Sink (List SinkEvent) where
  pushDescriptors := fun s l => (.ok (), l ++ [.descriptors s])
  pushUnit := fun t n k b l => (.ok (), l ++ [.unit ⟨t, n, k, b⟩])
  pushFinalized := fun b l => (.ok (), l ++ [.finalized b])
  close := fun l => l ++ [.close]
  abort := fun l => l ++ [.abort]

/-- A history of calls of a new sequencer with that class. -/
def recording (g : LebGen) (delimiters delay : Bool) (cs : List SequencerCall) : List (Except Err Unit) × Sequencer (List SinkEvent) :=
  Sequencer.calls recordingSink cs (.create g delimiters delay [])

/-- How a unit should be reported: its timestamp, its samples, whether it is a key frame, and its bytes. -/
structure Reported (g : LebGen) (delimiters : Bool) (u : TemporalUnitView) (r : DelayedUnit) : Prop where
  start : r.start = u.start
  untrimmed : r.untrimmed = u.untrimmed
  isKeyFrame : r.isKeyFrame = u.arbitrary.any fun o => o.header.isKeyFrame
  bytes : UnitBytes g delimiters u r.bytes

/-- The timestamp of the first sample that is not trimmed. -/
def firstTimestamp (us : List TemporalUnitView) : Option Int :=
  (us.find? fun u => u.untrimmed != 0).map fun u => u.start + u.trimStart.toNat

/-- What has been told after descriptors and units have been pushed. -/
private structure Delaying (g : LebGen) (dl : Bool) (s : DescriptorStatistics) (us : List TemporalUnitView) (rs : List DelayedUnit)
    (q : Sequencer (List SinkEvent)) : Prop where
  lebs : q.lebs = g
  delay : q.delay = true
  delimiters : q.delimiters = dl
  phase : q.phase = if (firstTimestamp us).isSome then .descriptorsPushed else .descriptorsCalled
  statistics : q.statistics = some { s with firstUntrimmed := firstTimestamp us }
  reported : List.Forall₂ (Reported g dl) us rs
  delayed : q.delayed = if (firstTimestamp us).isSome then [] else rs
  sink : q.sink = if (firstTimestamp us).isSome then .descriptors { s with firstUntrimmed := firstTimestamp us } :: rs.map .unit else []

private theorem firstTimestamp_append (us : List TemporalUnitView) (u : TemporalUnitView) :
    firstTimestamp (us ++ [u]) = if (firstTimestamp us).isSome then firstTimestamp us
      else if u.untrimmed != 0 then some (u.start + u.trimStart.toNat) else none := by
  unfold firstTimestamp
  rw [List.find?_append]
  cases h : us.find? fun u => u.untrimmed != 0 with
  | some x => simp
  | none =>
    simp only [Option.none_or, Option.map_none, Option.isSome_none, Bool.false_eq_true, ↓reduceIte, List.find?_cons, List.find?_nil]
    cases hu : (u.untrimmed != 0) <;> simp

private theorem pushDelayed_recording (l : List DelayedUnit) (e : List SinkEvent) :
    Sequencer.pushDelayed recordingSink l e = (.ok (), e ++ l.map .unit) := by
  induction l generalizing e with
  | nil => simp [Sequencer.pushDelayed]
  | cons u l ih =>
    show Sequencer.pushDelayed recordingSink l (e ++ [.unit ⟨u.start, u.untrimmed, u.isKeyFrame, u.bytes⟩]) = _
    rw [ih]
    simp

private theorem forall₂_snoc {α β : Type} {R : α → β → Prop} {l : List α} {r : List β} (h : List.Forall₂ R l r) {a : α} {b : β} (hab : R a b) :
    List.Forall₂ R (l ++ [a]) (r ++ [b]) := by
  induction h with
  | nil => exact .cons hab .nil
  | cons h1 _ ih => exact .cons h1 ih

private theorem Delaying.push {g : LebGen} {dl : Bool} {s : DescriptorStatistics} {us : List TemporalUnitView} {rs : List DelayedUnit}
    {q : Sequencer (List SinkEvent)} (h : Delaying g dl s us rs q) {u : TemporalUnitView}
    (hok : (q.call recordingSink (.pushUnit u)).1 = .ok ()) :
    ∃ r, Delaying g dl s (us ++ [u]) (rs ++ [r]) (q.call recordingSink (.pushUnit u)).2 := by
  have hc : q.call recordingSink (.pushUnit u) = Sequencer.abortOnFailure recordingSink (q.pushUnitBody recordingSink u) := by
    simp only [Sequencer.call, Sequencer.pushUnit, h.phase]
    split <;> rename_i hx <;> first | rfl | (split at hx <;> cases hx)
  rw [hc] at hok ⊢
  simp only [Sequencer.pushUnitBody] at hok ⊢
  match hs : serialize q.lebs (wTemporalUnit q.delimiters u) with
  | .error e => simp [hs, Sequencer.abortOnFailure] at hok
  | .ok w =>
    simp only [hs] at hok ⊢
    rw [h.lebs, h.delimiters] at hs
    obtain ⟨hub, hal⟩ := serialize_unit.1 w hs
    simp only [hal, Bool.not_true, Bool.false_eq_true, ↓reduceIte, h.statistics] at hok ⊢
    have hrep := forall₂_snoc h.reported (a := u)
      (b := ⟨u.start, u.untrimmed, u.arbitrary.any fun o => o.header.isKeyFrame, w.bytes⟩) ⟨rfl, rfl, rfl, hub⟩
    refine ⟨⟨u.start, u.untrimmed, u.arbitrary.any fun o => o.header.isKeyFrame, w.bytes⟩, ?_⟩
    have happ := firstTimestamp_append us u
    have hph := h.phase
    have hdl := h.delayed
    have hsk := h.sink
    match hf : firstTimestamp us with
    | some t =>
      rw [hf] at happ hph hdl hsk
      simp only [hf, Option.isSome_some, ↓reduceIte] at hok happ hph hdl hsk ⊢
      split at hok
      · simp [Sequencer.abortOnFailure] at hok
      · rename_i ht
        rw [if_neg ht]
        simp only [recordingSink, Sequencer.onSink, Sequencer.abortOnFailure]
        refine ⟨h.lebs, h.delay, h.delimiters, ?_, ?_, hrep, ?_, ?_⟩
        · simp [happ, hph]
        · simp [happ, h.statistics, hf]
        · simp [happ, hdl]
        · simp [happ, hsk]
    | none =>
      rw [hf] at happ hph hdl hsk
      simp only [hf, Option.isSome_none, Bool.false_eq_true, ↓reduceIte] at hok happ hph hdl hsk ⊢
      simp only [Sequencer.handleInitial, h.delay, Bool.not_true, Bool.false_eq_true, ↓reduceIte]
      cases hu : (u.untrimmed != 0)
      · rw [hu] at happ
        simp only [Bool.not_false, ↓reduceIte, Sequencer.abortOnFailure, Bool.false_eq_true] at happ ⊢
        refine ⟨h.lebs, rfl, h.delimiters, ?_, ?_, hrep, ?_, ?_⟩
        · simp [happ, hph]
        · simp [happ]
        · simp [happ, hdl]
        · simp [happ, hsk]
      · rw [hu] at happ
        simp only [Bool.not_true, Bool.false_eq_true, ↓reduceIte] at happ ⊢
        have hd : recordingSink.pushDescriptors = fun s l => (.ok (), l ++ [.descriptors s]) := rfl
        have hp : recordingSink.pushUnit = fun t n k b l => (.ok (), l ++ [.unit ⟨t, n, k, b⟩]) := rfl
        simp only [hd, hp, Sequencer.onSink, pushDelayed_recording, Sequencer.abortOnFailure]
        refine ⟨h.lebs, rfl, h.delimiters, ?_, ?_, hrep, ?_, ?_⟩
        · simp [happ]
        · simp [happ]
        · simp [happ]
        · simp [happ, hsk, hdl]

private theorem delaying {g : LebGen} {dl : Bool} {d : SequenceObus} (us : List TemporalUnitView)
    (hok : Succeeded (recording g dl true (.pushDescriptors d :: us.map .pushUnit)).1) :
    ∃ s rs, DescriptorBytes g d s.bytes ∧ descriptorStatistics (d.codecs.map fun c => c.2.body) s.bytes = .ok s ∧
      Delaying g dl s us rs (recording g dl true (.pushDescriptors d :: us.map .pushUnit)).2 := by
  have base : ((Sequencer.create g dl true ([] : List SinkEvent)).call recordingSink (.pushDescriptors d)).1 = .ok () →
      ∃ s, DescriptorBytes g d s.bytes ∧ descriptorStatistics (d.codecs.map fun c => c.2.body) s.bytes = .ok s ∧
        Delaying g dl s [] [] ((Sequencer.create g dl true ([] : List SinkEvent)).call recordingSink (.pushDescriptors d)).2 := by
    intro hok
    simp only [Sequencer.call, Sequencer.pushDescriptors, Sequencer.create, Sequencer.pushDescriptorsBody] at hok ⊢
    match hs : serialize g (wSequenceObus d) with
    | .error e => simp [hs, Sequencer.abortOnFailure] at hok
    | .ok w =>
      obtain ⟨-, hb⟩ := serialize_sequence.1 w hs
      simp only [hs] at hok ⊢
      match hst : descriptorStatistics (d.codecs.map fun c => c.2.body) w.bytes with
      | .error e => simp [hst, Sequencer.abortOnFailure] at hok
      | .ok s =>
        have hsb : s.bytes = w.bytes ∧ s.firstUntrimmed = none := by
          have hst := hst
          rw [statistics_eq] at hst
          split at hst
          · simp only [Except.ok.injEq] at hst; subst hst; exact ⟨rfl, rfl⟩
          · split at hst
            · split at hst
              · simp only [Except.ok.injEq] at hst; subst hst; exact ⟨rfl, rfl⟩
              · simp at hst
            · simp at hst
        simp only [hst, ↓reduceIte, Sequencer.abortOnFailure]
        refine ⟨s, by rw [hsb.1]; exact hb, by rw [hsb.1]; exact hst, ⟨rfl, rfl, rfl, rfl, ?_, .nil, rfl, rfl⟩⟩
        simp only [firstTimestamp, List.find?_nil, Option.map_none, ← hsb.2]
  have key : ∀ (us done : List TemporalUnitView) (rs : List DelayedUnit) (s : DescriptorStatistics) (q : Sequencer (List SinkEvent)),
      Delaying g dl s done rs q → Succeeded (q.calls recordingSink (us.map .pushUnit)).1 →
      ∃ rs', Delaying g dl s (done ++ us) rs' (q.calls recordingSink (us.map .pushUnit)).2 := by
    intro us
    induction us with
    | nil => intro done rs s q h _; exact ⟨rs, by rw [List.append_nil]; exact h⟩
    | cons u us ih =>
      intro done rs s q h hok
      rw [List.map_cons, calls_cons] at hok ⊢
      obtain ⟨r, h1⟩ := h.push (hok _ List.mem_cons_self)
      obtain ⟨rs', h2⟩ := ih _ _ s _ h1 (fun r hr => hok r (List.mem_cons_of_mem _ hr))
      exact ⟨rs', by rw [List.append_assoc] at h2; exact h2⟩
  obtain ⟨s, h1, h2, h3⟩ := base (hok _ List.mem_cons_self)
  obtain ⟨rs, h4⟩ := key us [] [] s _ h3 (fun r hr => hok r (List.mem_cons_of_mem _ hr))
  exact ⟨s, rs, h1, h2, h4⟩

/-- C34: a derived class that wants the descriptors only when the first timestamp is known gets nothing before a unit with samples that
are not trimmed has been pushed; then it gets the descriptors, with that timestamp, and all units in order, the earlier ones too. -/
theorem C34_delayed_descriptors (g : LebGen) (delimiters : Bool) (d : SequenceObus) (us : List TemporalUnitView)
    (hok : Succeeded (recording g delimiters true (.pushDescriptors d :: us.map .pushUnit)).1) :
    ∃ s units, DescriptorBytes g d s.bytes ∧ descriptorStatistics (d.codecs.map fun c => c.2.body) s.bytes = .ok s ∧
      List.Forall₂ (Reported g delimiters) us units ∧
      (recording g delimiters true (.pushDescriptors d :: us.map .pushUnit)).2.sink =
        (if (∃ u ∈ us, u.untrimmed ≠ 0) then .descriptors { s with firstUntrimmed := firstTimestamp us } :: units.map .unit else []) := by
  obtain ⟨s, rs, h1, h2, h3⟩ := delaying us hok
  refine ⟨s, rs, h1, h2, h3.reported, ?_⟩
  rw [h3.sink]
  have : (firstTimestamp us).isSome = true ↔ ∃ u ∈ us, u.untrimmed ≠ 0 := by
    simp [firstTimestamp, List.find?_isSome]
  simp only [this]

/-- C34: when it is closed, a class that has not got the descriptors gets them then, with timestamp 0.  (Finding: the units pushed
before, all of whose samples are trimmed, are never passed on.) -/
theorem C34_delayed_close (g : LebGen) (delimiters : Bool) (d : SequenceObus) (us : List TemporalUnitView)
    (hok : Succeeded (recording g delimiters true (.pushDescriptors d :: us.map .pushUnit)).1) :
    ∃ s units, DescriptorBytes g d s.bytes ∧ descriptorStatistics (d.codecs.map fun c => c.2.body) s.bytes = .ok s ∧
      List.Forall₂ (Reported g delimiters) us units ∧
      Succeeded (recording g delimiters true (.pushDescriptors d :: us.map .pushUnit ++ [.close])).1 ∧
      (recording g delimiters true (.pushDescriptors d :: us.map .pushUnit ++ [.close])).2.sink =
        (if (∃ u ∈ us, u.untrimmed ≠ 0) then .descriptors { s with firstUntrimmed := firstTimestamp us } :: units.map .unit ++ [.close]
         else [.descriptors { s with firstUntrimmed := some 0 }, .close]) := by
  obtain ⟨s, rs, h1, h2, h3⟩ := delaying us hok
  refine ⟨s, rs, h1, h2, h3.reported, ?_⟩
  have hiff : (firstTimestamp us).isSome = true ↔ ∃ u ∈ us, u.untrimmed ≠ 0 := by
    simp [firstTimestamp, List.find?_isSome]
  unfold recording at h3 hok ⊢
  rw [calls_append]
  generalize Sequencer.calls recordingSink (.pushDescriptors d :: us.map .pushUnit) (.create g delimiters true []) = r at h3 hok
  have hcl : (r.2.close recordingSink).1 = .ok () ∧ (r.2.close recordingSink).2.sink =
      (if (∃ u ∈ us, u.untrimmed ≠ 0) then .descriptors { s with firstUntrimmed := firstTimestamp us } :: rs.map .unit ++ [.close]
         else [.descriptors { s with firstUntrimmed := some 0 }, .close]) := by
    rw [Sequencer.close]
    have hp := h3.phase
    have hs := h3.sink
    by_cases hx : (firstTimestamp us).isSome = true
    · rw [if_pos hx] at hp hs
      rw [if_pos (hiff.mp hx)]
      simp only [hp]
      exact ⟨rfl, by simp only [Sequencer.closeNow, recordingSink, hs]⟩
    · rw [if_neg hx] at hp hs
      rw [if_neg (fun h => hx (hiff.mpr h))]
      simp only [hp, h3.statistics]
      exact ⟨rfl, by simp only [Sequencer.closeNow, Sequencer.onSink, recordingSink, hs]; rfl⟩
  refine ⟨?_, hcl.2⟩
  intro x hx
  rcases List.mem_append.mp hx with hx | hx
  · exact hok x hx
  · simp only [Sequencer.calls, List.mem_singleton] at hx
    exact hx.trans hcl.1

end Iamf.Props
