import Verif.Props.GeneratorElement
/-
  Lemmas for C44: the state of the generator between calls, and what samples for one audio element do to it.
-/
namespace Iamf.Props
open Iamf

/-! ### What does not change -/

/-- What a generator was created for: the audio elements, the listed labels of each, the down-mixing of each, the substreams, the zeros at the
start (by audio element for what goes to the encoders), and what the user asked to be trimmed. -/
structure World where
  elements : List (UInt32 × ElementWithData)
  labels : IdMap (List Label)
  downMixing : IdMap DownmixingConfig
  order : List UInt32
  delay : Nat
  start : UInt32 → Nat
  userEnd : Nat
  startTotal : Nat
  addPadding : Bool
  linear : Int16 → Rat
  added : BlockWithData → Prop

/-- The number of samples per frame of an audio element. -/
def frameSizeOf (e : ElementWithData) : UInt32 := match e.codec with
  | none => 0
  | some c => c.config.numSamplesPerFrame

/-- The output gains of an audio element. -/
def World.gains (W : World) (id : UInt32) : LabelGains := match W.downMixing id with
  | none => []
  | some c => c.gains

def World.spot (W : World) (x : UInt32 × ElementWithData) : Spot :=
  ⟨frameSizeOf x.2, W.delay, W.start x.1, W.linear, W.gains x.1, x.1⟩

/-- All substreams. -/
def World.substreams (W : World) : List UInt32 := W.elements.flatMap fun x => x.2.data.labels.map Prod.fst

/-- One audio element can be encoded. -/
structure SaneElement (W : World) (x : UInt32 × ElementWithData) : Prop where
  codec : ∃ c, x.2.codec = some c
  size : 0 < (frameSizeOf x.2).toNat
  some_substream : x.2.data.labels ≠ []
  some_label : ∀ y ∈ x.2.data.labels, y.2 ≠ []
  listed : ∃ ls, W.labels x.1 = some ls ∧ ls ≠ []
  mixing : ∃ cfg, W.downMixing x.1 = some cfg ∧ cfg.substreams = x.2.data.labels ∧ ∀ d ∈ cfg.mixers, d.inputs ≠ []
  start : W.start x.1 ≤ W.delay

/-- The audio elements can be encoded, no two share a substream, and no number of samples overflows. -/
structure Sane (W : World) : Prop where
  keys : (W.elements.map Prod.fst).Nodup
  ids : W.substreams.Nodup
  order : W.order.Nodup ∧ ∀ i, i ∈ W.order ↔ i ∈ W.substreams
  element : ∀ x ∈ W.elements, SaneElement W x
  delay : W.delay ≤ W.startTotal
  startTotal : W.startTotal < 4294967296

/-! ### What the state stands for -/

/-- The history: the rounds of each audio element; the frames taken from each encoder, as they were before trimming; what became of them; the
samples that wait for others to complete a round; and how many frames were taken from each encoder before the end was announced. -/
structure History where
  rounds : UInt32 → List Round
  sent : UInt32 → List (GenFrame × List UInt8)
  out : UInt32 → List (GenFrame × List UInt8)
  pending : UInt32 → Label → Samples
  before : UInt32 → Nat

/-- What is to be trimmed at the end, in all. -/
def World.endTotal (W : World) (S : Spot) (H : List Round) : Nat := if W.addPadding then W.userEnd + S.pads H else W.userEnd

/-- What is to be trimmed, after `k` frames. -/
def World.trim (W : World) (S : Spot) (H : List Round) (k : Nat) : TrimmingState :=
  ⟨W.addPadding, (W.endTotal S H : Nat), (W.startTotal - k * S.n.toNat : Nat)⟩

/-- A substream takes samples; or it has ended, and frames are left in its encoder; or all its frames are out. -/
inductive Stage {L : EncoderLib} (C : EncoderSpec L) (W : World) (g : FrameGenerator L.State) (S : Spot) (H : List Round)
    (sent : List (GenFrame × List UInt8)) (s : UInt32) (ls : List Label) : Prop where
  | opened : OpenAfter C S g H s ls sent (W.trim S H sent.length) → Stage C W g S H sent s ls
  | closed (x : Encoder L.State) : g.data s = none → S.left H = 0 → g.phase = .flushing → g.encoders s = some x → x.finished = true →
      List.Forall₂ C.Answers (S.framesFrom s ls [] H) (sent ++ x.done) →
      (x.done ≠ [] → g.trimming s = some (W.trim S H sent.length)) → Stage C W g S H sent s ls
  | gone : g.data s = none → S.left H = 0 → g.phase = .flushing → g.encoders s = none →
      List.Forall₂ C.Answers (S.framesFrom s ls [] H) sent → Stage C W g S H sent s ls

/-- The state only matters where the substream is concerned. -/
theorem Stage.transport {L : EncoderLib} {C : EncoderSpec L} {W : World} {g g' : FrameGenerator L.State} {S : Spot} {H : List Round}
    {sent : List (GenFrame × List UInt8)} {s : UInt32} {ls : List Label} (h : Stage C W g S H sent s ls) (h1 : g'.data s = g.data s)
    (h2 : g'.encoders s = g.encoders s) (h3 : g'.trimming s = g.trimming s) (h4 : g'.timing.frames.lookup s = g.timing.frames.lookup s)
    (h5 : g.phase = .flushing → g'.phase = .flushing) : Stage C W g' S H sent s ls := by
  cases h with
  | opened h =>
    exact .opened ⟨by rw [h1]; exact h.data, by rw [h2]; exact h.enc, by rw [h4]; exact h.stamp, by rw [h3]; exact h.trim⟩
  | closed x a b c d e f t => exact .closed x (h1.trans a) b (h5 c) (h2.trans d) e f fun hd => h3.trans (t hd)
  | gone a b c d e => exact .gone (h1.trans a) b (h5 c) (h2.trans d) e

theorem Stage.outside {L : EncoderLib} {C : EncoderSpec L} {W : World} {g g' : FrameGenerator L.State} {S : Spot} {H : List Round}
    {sent : List (GenFrame × List UInt8)} {s : UInt32} {ls : List Label} (h : Stage C W g S H sent s ls) {ids : List UInt32}
    (ho : Outside ids g g') (hs : s ∉ ids) : Stage C W g' S H sent s ls :=
  h.transport (ho.data s hs) (ho.encoders s hs) (ho.trimming s hs) (ho.stamps s hs) fun hp => ho.phase.trans hp

/-- The samples that are kept for an audio element. -/
structure Waits (m : LabeledSamples) (listed : List Label) (pending : Label → Samples) : Prop where
  keys : (m.map Prod.fst).Nodup
  known : ∀ y ∈ m, y.1 ∈ listed
  values : ∀ l ∈ listed, (m.lookup l).getD [] = pending l

/-- The frame that is put out: the user's trimming is added. -/
def finalFrame (n : UInt32) (startTotal endTotal : Nat) (j : Nat) (isLast : Bool) (f : GenFrame) : GenFrame :=
  ⟨f.substream, (if isLast then UInt32.ofNat endTotal else f.trimEnd) ≠ 0 || UInt32.ofNat (min n.toNat (startTotal - j * n.toNat)) ≠ 0,
    if isLast then UInt32.ofNat endTotal else f.trimEnd, UInt32.ofNat (min n.toNat (startTotal - j * n.toNat)), f.start, f.stop, f.samples, f.mixing,
    f.element⟩

/-- No more frames come from this encoder. -/
def isOver {σ : Type} : Option (Encoder σ) → Bool
  | none => true
  | some e => e.isFinished

/-- Whether the frame with this index is trimmed at its end as the last one. -/
def isLastFrame {σ : Type} (e : Option (Encoder σ)) (before total j : Nat) : Bool := isOver e && decide (before ≤ j) && decide (j + 1 = total)

/-- All frames that were put out. -/
def World.outputs (W : World) {σ : Type} (S : Spot) (H : List Round) (e : Option (Encoder σ)) (before : Nat) (sent : List (GenFrame × List UInt8)) :
    List (GenFrame × List UInt8) :=
  sent.mapIdx fun j a => (finalFrame S.n W.startTotal (W.endTotal S H) j (isLastFrame e before H.length j) a.1, a.2)

/-- The state between two steps. -/
structure Core {L : EncoderLib} (C : EncoderSpec L) (W : World) (g : FrameGenerator L.State) (G : History) : Prop where
  labels : g.labels = W.labels
  elements : g.elements = some W.elements
  order : g.order = W.order
  downMixing : g.downMixing = W.downMixing
  safe : SafeParams g.parameters
  filed : Filed W.added g.parameters
  mixes : ∀ x ∈ W.elements, MixState g.parameters x.1 (demixingDefinition x.2.obu) ((G.rounds x.1).map Round.demixing) ∧
    MixingsFor (demixingDefinition x.2.obu) (W.spot x).n.toNat ((G.rounds x.1).map Round.demixing) ((G.rounds x.1).map Round.mixing) ∧
    ∀ r ∈ G.rounds x.1, ∀ b, r.demixing = some b → W.added b
  even : ∀ x ∈ W.elements, Even (x.2.data.labels.flatMap Prod.snd) (G.rounds x.1)
  stage : ∀ x ∈ W.elements, ∀ y ∈ x.2.data.labels, Stage C W g (W.spot x) (G.rounds x.1) (G.sent y.1) y.1 y.2
  waits : ∀ x ∈ W.elements, ∀ ls, W.labels x.1 = some ls → Waits ((g.samples x.1).getD []) ls (G.pending x.1)
  before : ∀ i, G.before i ≤ (G.sent i).length ∧ (g.phase ≠ .flushing → G.before i = (G.sent i).length)
  late : ∀ x ∈ W.elements, ∀ y ∈ x.2.data.labels, isOver (g.encoders y.1) = false →
    G.before y.1 = (G.sent y.1).length ∨ (G.sent y.1).length < (G.rounds x.1).length ∨ (W.spot x).left (G.rounds x.1) ≠ 0
  out : ∀ x ∈ W.elements, ∀ y ∈ x.2.data.labels,
    G.out y.1 = W.outputs (W.spot x) (G.rounds x.1) (g.encoders y.1) (G.before y.1) (G.sent y.1)
  fits : ∀ x ∈ W.elements, ∀ y ∈ x.2.data.labels, ∀ f ∈ G.out y.1, f.1.trimEnd ≤ (W.spot x).n

/-- All samples that are complete were encoded. -/
def Incomplete (W : World) (G : History) : Prop := ∀ x ∈ W.elements, ∀ ls, W.labels x.1 = some ls → ∀ k, (∀ l ∈ ls, (G.pending x.1 l).length = k) → k = 0

/-- Substreams that take samples still have some, if the end was announced. -/
def Busy {σ : Type} (g : FrameGenerator σ) (x : UInt32 × ElementWithData) (left : Nat) : Prop :=
  g.phase = .flushing → ∀ y ∈ x.2.data.labels, (g.data y.1).isSome → left ≠ 0

/-! ### Samples that wait -/

theorem lookup_mem {m : LabeledSamples} (h : (m.map Prod.fst).Nodup) {y : Label × Samples} (hy : y ∈ m) : m.lookup y.1 = some y.2 := by
  induction m with
  | nil => cases hy
  | cons x m ih =>
    rw [List.map_cons, List.nodup_cons] at h
    rw [List.lookup_cons]
    rcases List.mem_cons.mp hy with rfl | hy
    · simp
    · have : (y.1 == x.1) = false := by
        rw [beq_eq_false_iff_ne]
        intro he
        have hm := List.mem_map_of_mem (f := Prod.fst) hy
        rw [he] at hm
        exact h.1 hm
      rw [this]
      exact ih h.2 hy

theorem lookup_mem_of {m : LabeledSamples} {l : Label} {s : Samples} (h : m.lookup l = some s) : (l, s) ∈ m := by
  induction m with
  | nil => cases h
  | cons x m ih =>
    rw [List.lookup_cons] at h
    split at h
    next he =>
      rw [beq_iff_eq] at he
      rw [Option.some.injEq] at h
      rw [he, ← h]; simp
    · exact List.mem_cons_of_mem _ (ih h)

theorem set_keys (m : LabeledSamples) (l : Label) (s : Samples) :
    ∀ k, k ∈ (LabeledSamples.set m l s).map Prod.fst ↔ k = l ∨ k ∈ m.map Prod.fst := by
  induction m with
  | nil => intro k; simp [LabeledSamples.set]
  | cons x m ih =>
    intro k
    obtain ⟨a, b⟩ := x
    unfold LabeledSamples.set
    split
    next he => subst he; simp
    next he =>
      simp only [List.map_cons, List.mem_cons, ih k]
      constructor
      · rintro (h | h | h)
        · exact .inr (.inl h)
        · exact .inl h
        · exact .inr (.inr h)
      · rintro (h | h | h)
        · exact .inr (.inl h)
        · exact .inl h
        · exact .inr (.inr h)

theorem set_nodup {m : LabeledSamples} (h : (m.map Prod.fst).Nodup) (l : Label) (s : Samples) : ((LabeledSamples.set m l s).map Prod.fst).Nodup := by
  induction m with
  | nil => simp [LabeledSamples.set]
  | cons x m ih =>
    obtain ⟨a, b⟩ := x
    rw [List.map_cons, List.nodup_cons] at h
    unfold LabeledSamples.set
    split
    next he => rw [List.map_cons, List.nodup_cons]; exact h
    next he =>
      rw [List.map_cons, List.nodup_cons]
      refine ⟨fun hc => ?_, ih h.2⟩
      rcases (set_keys m l s a).mp hc with hc | hc
      · exact he hc
      · exact h.1 hc

theorem set_lookup (m : LabeledSamples) (l : Label) (s : Samples) (k : Label) :
    (LabeledSamples.set m l s).lookup k = if k = l then some s else m.lookup k := by
  induction m with
  | nil =>
    simp only [LabeledSamples.set, List.lookup_cons]
    by_cases h : k = l
    · simp [h]
    · have : (k == l) = false := by rw [beq_eq_false_iff_ne]; exact h
      simp [h, this]
  | cons x m ih =>
    obtain ⟨a, b⟩ := x
    unfold LabeledSamples.set
    by_cases he : a = l
    · rw [if_pos he]
      subst he
      simp only [List.lookup_cons]
      by_cases h : k = a
      · simp [h]
      · have : (k == a) = false := by rw [beq_eq_false_iff_ne]; exact h
        simp [h, this]
    · rw [if_neg he]
      simp only [List.lookup_cons, ih]
      by_cases h : k = a
      · subst h; simp [he]
      · have : (k == a) = false := by rw [beq_eq_false_iff_ne]; exact h
        simp [this]

/-- One label gets new samples. -/
def withSamples (p : Label → Samples) (l : Label) (s : Samples) : Label → Samples := fun k => if k = l then s else p k

theorem waits_set {m : LabeledSamples} {listed : List Label} {p : Label → Samples} (h : Waits m listed p) {l : Label} (hl : l ∈ listed) (s : Samples) :
    Waits (LabeledSamples.set m l s) listed (withSamples p l s) := by
  refine ⟨set_nodup h.keys l s, fun y hy => ?_, fun k hk => ?_⟩
  · rcases (set_keys m l s y.1).mp (List.mem_map_of_mem (f := Prod.fst) hy) with hc | hc
    · rw [hc]; exact hl
    · obtain ⟨z, hz, he⟩ := List.mem_map.mp hc
      rw [← he]; exact h.known z hz
  · rw [set_lookup]
    unfold withSamples
    split
    · rfl
    · exact h.values k hk

theorem lookup_empties (m : LabeledSamples) (l : Label) :
    ((m.map fun x => (x.1, ([] : Samples))).lookup l).getD [] = [] := by
  induction m with
  | nil => rfl
  | cons x m ih =>
    rw [List.map_cons, List.lookup_cons]
    split
    · rfl
    · exact ih

theorem waits_empties {m : LabeledSamples} {listed : List Label} {p : Label → Samples} (h : Waits m listed p) :
    Waits (m.map fun x => (x.1, ([] : Samples))) listed fun _ => [] := by
  refine ⟨?_, fun y hy => ?_, fun l _ => lookup_empties m l⟩
  · rw [List.map_map]; exact h.keys
  · obtain ⟨x, hx, rfl⟩ := List.mem_map.mp hy
    exact h.known x hx

theorem samplesReady_iff (m : LabeledSamples) {ls : List Label} (hls : ls ≠ []) :
    samplesReady m ls = true ↔ ∃ k, ∀ l ∈ ls, ∃ s, m.lookup l = some s ∧ s.length = k := by
  cases ls with
  | nil => exact absurd rfl hls
  | cons l ls =>
    unfold samplesReady
    cases hl : m.lookup l with
    | none =>
      simp only [hl, Bool.false_eq_true, false_iff]
      rintro ⟨k, hk⟩
      obtain ⟨s, hs, -⟩ := hk l (by simp)
      rw [hl] at hs; cases hs
    | some s =>
      simp only [hl, List.all_eq_true]
      constructor
      · intro h
        refine ⟨s.length, fun l' hl' => ?_⟩
        rcases List.mem_cons.mp hl' with rfl | hl'
        · exact ⟨s, hl, rfl⟩
        · have := h l' hl'
          cases hm : m.lookup l' with
          | none => rw [hm] at this; cases this
          | some t => rw [hm] at this; exact ⟨t, rfl, by simpa using this⟩
      · rintro ⟨k, hk⟩ l' hl'
        obtain ⟨t, ht, htk⟩ := hk l' (by simp [hl'])
        obtain ⟨s', hs', hsk⟩ := hk l (by simp)
        rw [hl, Option.some.injEq] at hs'
        subst hs'
        rw [ht]
        simp [htk, hsk]

/-- Samples that are ready, seen as a whole. -/
theorem ready_map {m : LabeledSamples} {listed : List Label} {p : Label → Samples} (h : Waits m listed p) {k : Nat}
    (hk : ∀ l ∈ listed, ∃ s, m.lookup l = some s ∧ s.length = k) :
    (∀ y ∈ m, y.2.length = k) ∧ m.toMap = (fun l => if l ∈ listed then some (p l) else none) ∧ ∀ l ∈ listed, (p l).length = k := by
  have hv : ∀ l ∈ listed, m.lookup l = some (p l) ∧ (p l).length = k := by
    intro l hl
    obtain ⟨s, hs, hsk⟩ := hk l hl
    have := h.values l hl
    rw [hs] at this
    simp only [Option.getD_some] at this
    rw [hs, ← this]; exact ⟨rfl, hsk⟩
  refine ⟨fun y hy => ?_, funext fun l => ?_, fun l hl => (hv l hl).2⟩
  · have h1 := lookup_mem h.keys hy
    have h2 := hv y.1 (h.known y hy)
    rw [h1, Option.some.injEq] at h2
    rw [h2.1]; exact h2.2
  · unfold LabeledSamples.toMap
    by_cases hl : l ∈ listed
    · rw [if_pos hl]; exact (hv l hl).1
    · rw [if_neg hl]
      cases hm : m.lookup l with
      | none => rfl
      | some s => exact absurd (h.known _ (lookup_mem_of hm)) hl

end Iamf.Props
