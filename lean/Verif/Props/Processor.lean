import Verif.Cli.ProcessorWritten
import Verif.Cli.ProcessorWhole
import Verif.Props.Descriptors
import Verif.Props.Parameters
import Verif.Props.Params
import Verif.Props.Sequencer
import Verif.Props.Timing
/-
  C35: temporal units that were written come back out of the processor.
-/
namespace Iamf.Props
open Iamf

/-! ### Specification -/

/-- The ids of all substreams of all audio elements. -/
def substreamIds (d : Descriptors) : List UInt32 := d.elements.flatMap fun x => x.2.obu.substreamIds

/-- The parameter definitions that blocks can be for: demixing and recon gain of the audio elements, and all of the mix
presentations.  A recon gain definition is completed with the layers of its audio element that have recon gains. -/
def definitions (d : Descriptors) : List ParamDef :=
  (d.elements.flatMap fun x => x.2.obu.params.filterMap fun p => match p.spec, x.2.obu.config with
    | .demixing _, _ => some p
    | .reconGain _, .scalable c => some ⟨p.base, .reconGain (c.layers.map (·.reconGainPresent))⟩
    | _, _ => none) ++
  d.mixes.flatMap fun m => m.subMixes.flatMap fun s =>
    (s.elements.flatMap fun e => e.rendering.params.map (·.definition) ++ [e.mixGain]) ++ [s.outputMixGain]

/-- Descriptors of a sequence in which every audio frame has `n` samples.  Every substream has channel labels (C27), and defaults for
down-mixing are ones that the specification knows. -/
structure Playable (d : Descriptors) (n : UInt32) : Prop where
  streams : substreamIds d ≠ []
  frameSize : ∀ x ∈ d.elements, ∀ c, x.2.codec = some c → c.config.numSamplesPerFrame = n
  labels : ∀ x ∈ d.elements, ∀ s ∈ x.2.obu.substreamIds, s ∈ x.2.data.labels.map Prod.fst
  layers : ∀ x ∈ d.elements, x.2.data.layers.length ≤ 255 ∧ ∀ c, x.2.obu.config = .scalable c → c.layers.length ≤ 255
  defaults : ∀ x ∈ d.elements, MixingDefault x.2.obu

/-- An OBU that has nothing to do with the temporal unit: of a reserved type or a metadata OBU, or a redundant copy of a descriptor. -/
def Skipped (h : ObuHeader) : Prop :=
  (24 ≤ h.obuType ∧ h.obuType ≤ 30) ∨ ((h.obuType ≤ 2 ∨ h.obuType = 31) ∧ h.redundantCopy = true)

/-- An audio frame of the `k`-th temporal unit. -/
structure FrameOf (d : Descriptors) (n : UInt32) (k : Nat) (f : FrameWithData) : Prop where
  /-- The OBU type says which substream the frame is for. -/
  type : f.header.obuType = if f.frame.substreamId.toNat > 17 then 5 else UInt8.ofNat (6 + f.frame.substreamId.toNat)
  /-- Samples are trimmed only if the flag for that is set. -/
  trims : f.header.typeSpecificFlag = true ∨ (f.header.trimEnd = 0 ∧ f.header.trimStart = 0)
  time : f.start = (k * n.toNat : Nat) ∧ f.stop = ((k + 1) * n.toNat : Nat)
  element : ∃ x ∈ d.elements, f.frame.substreamId ∈ x.2.obu.substreamIds ∧ f.element = some (x.1, some n)

/-- A parameter block of the `k`-th temporal unit. -/
structure BlockOf (d : Descriptors) (n : UInt32) (k : Nat) (b : BlockWithData) : Prop where
  type : b.header.obuType = 3
  trims : b.header.trimEnd = 0 ∧ b.header.trimStart = 0
  time : b.start = (k * n.toNat : Nat) ∧ b.stop = (k * n.toNat + (b.obu.durationIn b.definition).toNat : Nat)
  defined : b.definition ∈ definitions d
  data : ∃ data, IsBlockFor b.definition b.obu data

/-- The `k`-th temporal unit of a sequence: one frame for every substream, and at most one block for any parameter. -/
structure UnitOf (d : Descriptors) (n : UInt32) (k : Nat) (u : TemporalUnitView) : Prop where
  frames : (u.frames.map (·.frame.substreamId)).Perm (substreamIds d)
  frame : ∀ f ∈ u.frames, FrameOf d n k f
  blocks : (u.blocks.map (·.obu.parameterId)).Nodup
  block : ∀ b ∈ u.blocks, BlockOf d n k b
  arbitrary : ∀ o ∈ u.arbitrary, Skipped o.header

/-- How far the blocks of a parameter have come. -/
def elapsed (id : UInt32) (blocks : List BlockWithData) : Nat :=
  ((blocks.filter fun b => b.obu.parameterId = id).map fun b => (b.obu.durationIn b.definition).toNat).sum

/-- What comes back for an audio frame: the frame, and parameters for demixing as if there were no parameter blocks. -/
def frameBack (d : Descriptors) (f : FrameWithData) : ProcFrame :=
  match d.elements.lookup f.elementId with
  | some e => ⟨f, defaultMixing e.obu, List.replicate e.data.layers.length (some ⟨0, List.replicate 12 255⟩)⟩
  | none => ⟨f, ⟨0, 0, 0, 0, 0, 0, 0, false⟩, []⟩

/-- What comes back for a parameter block: all of it that the bitstream carries (C12). -/
def blockBack (b : BlockWithData) : BlockWithData := { b with obu := { b.obu with subblocks := b.obu.subblocks.map (Option.map carried) } }

/-- What comes back for the temporal units from the `k`-th on: the audio frames, and of the parameter blocks those whose parameter is in
time: all `earlier` blocks of it together have lasted until now. -/
def unitsBack (d : Descriptors) (n : UInt32) : Nat → List BlockWithData → List TemporalUnitView → List OutputUnit
  | _, _, [] => []
  | k, earlier, u :: us =>
    ⟨u.frames.map (frameBack d),
      (u.blocks.filter fun b => elapsed b.obu.parameterId earlier = k * n.toNat).map blockBack, (k * n.toNat : Nat)⟩ ::
    unitsBack d n (k + 1) (earlier ++ u.blocks) us

/-- What `ProcessTemporalUnit` gives out when it is called, with all data there, until it says that there is no more. -/
def processedUnits (c : ProcContext) : Nat → ProcState → RBuf → Option (List OutputUnit)
  | 0, _, _ => none
  | calls + 1, st, r => match (processUnit c true st).run r with
    | (.ok (.ok (u, true), st'), r') => (processedUnits c calls st' r').map (u.toList ++ ·)
    | (.ok (.ok (u, false), _), _) => some u.toList
    | _ => none

/-! ### Proof: OBU by OBU -/

/-- What has not been given out yet. -/
private def Open (st : ProcState) (pend : Option OutputUnit) : Prop :=
  st.next = .empty ∧ match pend with
  | none => st.current.frames = [] ∧ st.current.blocks = [] ∧ st.current.timestamp = none
  | some u => st.current.frames = u.frames ∧ st.current.blocks = u.blocks ∧ st.current.timestamp = some u.timestamp ∧
      ¬ (u.frames = [] ∧ u.blocks = [])

/-- Within the unit of time `t`: the units before it are `T`, of which `em` has been given out, and `fs` and `bs` have been collected. -/
private def Within (st : ProcState) (em T : List OutputUnit) (fs : List ProcFrame) (bs : List BlockWithData) (t : Int) : Prop :=
  (fs = [] ∧ bs = [] ∧ ∃ pend, Open st pend ∧ (∀ u, pend = some u → u.timestamp ≠ t) ∧ em ++ pend.toList = T) ∨
  (¬ (fs = [] ∧ bs = []) ∧ Open st (some ⟨fs, bs, t⟩) ∧ em = T)

private theorem Within.good {st : ProcState} {em T : List OutputUnit} {fs : List ProcFrame} {bs : List BlockWithData} {t : Int}
    (h : Within st em T fs bs t) : st.Good := by
  rcases h with ⟨-, -, pend, ⟨o1, o2⟩, -⟩ | ⟨-, ⟨o1, o2, o3, -, o4⟩, -⟩
  · refine ⟨o1, ?_⟩
    match pend with
    | none => rw [o2.2.2]; simp
    | some v =>
      obtain ⟨e1, e2, -, e4⟩ := o2
      rw [e1, e2]
      exact fun _ => by simpa using e4
  · refine ⟨o1, ?_⟩
    rw [o2, o3]
    exact fun _ => by simpa using o4

/-- A temporal delimiter that has been seen belongs to a unit that has begun. -/
private def Fresh (st : ProcState) : Prop :=
  st.current.delimiter = true → ¬ (st.current.frames.isEmpty && st.current.blocks.isEmpty) = true

private theorem Open.congr {st st' : ProcState} {p : Option OutputUnit} (h : Open st p) (h1 : st'.current = st.current)
    (h2 : st'.next = st.next) : Open st' p := by
  unfold Open at h ⊢; rw [h1, h2]; exact h

private theorem Within.congr {st st' : ProcState} {em T : List OutputUnit} {fs : List ProcFrame} {bs : List BlockWithData} {t : Int}
    (h : Within st em T fs bs t) (h1 : st'.current = st.current) (h2 : st'.next = st.next) : Within st' em T fs bs t := by
  rcases h with ⟨a, b, p, h, c⟩ | ⟨a, h, b⟩
  · exact .inl ⟨a, b, p, h.congr h1 h2, c⟩
  · exact .inr ⟨a, h.congr h1 h2, b⟩

private theorem empty_iff {α β : Type} (a : List α) (b : List β) : (a.isEmpty && b.isEmpty) = true ↔ a = [] ∧ b = [] := by
  cases a <;> cases b <;> simp

/-- Collecting data of the unit: `af` and `ab` of which one is a single thing. -/
private theorem within_add {out : Option ProcOut} {st : ProcState} {em T : List OutputUnit} {fs : List ProcFrame}
    {bs : List BlockWithData} {t : Int} (af : List ProcFrame) (ab : List BlockWithData) (hne : ¬ (af = [] ∧ ab = []))
    (hout : collectOut out st = (addData t (fun u => { u with frames := u.frames ++ af, blocks := u.blocks ++ ab }) st, false))
    (h : Within st em T fs bs t) :
    Within (advanceUnit out st).2.2 (em ++ (advanceUnit out st).2.1.toList) T (fs ++ af) (bs ++ ab) t := by
  obtain ⟨tm, pm, ⟨cf, cb, cd, ct⟩, nx⟩ := st
  have hne2 : ¬ (fs ++ af = [] ∧ bs ++ ab = []) := by
    simp only [List.append_eq_nil_iff]; rintro ⟨⟨-, a⟩, -, b⟩; exact hne ⟨a, b⟩
  unfold advanceUnit
  rw [hout]
  rcases h with ⟨rfl, rfl, pend, ⟨o1, o2⟩, hp, rfl⟩ | ⟨a, ⟨o1, o2, o3, o4, o5⟩, rfl⟩
  · cases pend with
    | none =>
      simp only at o1 o2
      obtain ⟨rfl, rfl, rfl⟩ := o2
      subst o1
      right
      refine ⟨hne2, ?_⟩
      simp [addData, UnitData.empty, Open, hne]
    | some u =>
      simp only at o1 o2
      obtain ⟨rfl, rfl, rfl, o5⟩ := o2
      subst o1
      right
      refine ⟨hne2, ?_⟩
      have ht : u.timestamp ≠ t := hp u rfl
      simp only [addData, UnitData.empty, Option.isNone_some, Bool.false_eq_true, ↓reduceIte, Option.some.injEq, ht, Option.isSome_some,
        Bool.or_false, List.nil_append, Option.getD_some]
      rw [if_neg (by rw [empty_iff]; exact o5)]
      simp [Open, UnitData.empty, hne]
  · simp only at o1 o2 o3 o4
    subst o1 o2 o3 o4
    right
    refine ⟨hne2, ?_⟩
    simp only [addData, Option.isNone_some, Bool.false_eq_true, ↓reduceIte, UnitData.empty, Option.isSome_none, Bool.or_false]
    refine ⟨⟨rfl, rfl, rfl, rfl, hne2⟩, by simp⟩

private theorem within_frame {st : ProcState} {em T : List OutputUnit} {fs : List ProcFrame} {bs : List BlockWithData} {t : Int}
    (f : ProcFrame) (hf : f.frame.start = t) (h : Within st em T fs bs t) :
    Within (advanceUnit (some (.frame f)) st).2.2 (em ++ (advanceUnit (some (.frame f)) st).2.1.toList) T (fs ++ [f]) bs t := by
  have := within_add (out := some (.frame f)) [f] [] (by simp) (by simp [collectOut, hf]) h
  rwa [List.append_nil] at this

private theorem within_block {st : ProcState} {em T : List OutputUnit} {fs : List ProcFrame} {bs : List BlockWithData} {t : Int}
    (b : BlockWithData) (hf : b.start = t) (h : Within st em T fs bs t) :
    Within (advanceUnit (some (.block b)) st).2.2 (em ++ (advanceUnit (some (.block b)) st).2.1.toList) T fs (bs ++ [b]) t := by
  have := within_add (out := some (.block b)) [] [b] (by simp) (by simp [collectOut, hf]) h
  rwa [List.append_nil] at this

private theorem within_none {st : ProcState} {em T : List OutputUnit} {fs : List ProcFrame} {bs : List BlockWithData} {t : Int}
    (h : Within st em T fs bs t) :
    Within (advanceUnit none st).2.2 (em ++ (advanceUnit none st).2.1.toList) T fs bs t := by
  have hn : st.next = .empty := by
    rcases h with ⟨-, -, p, ⟨h, -⟩, -⟩ | ⟨-, ⟨h, -⟩, -⟩ <;> exact h
  simpa [advanceUnit, collectOut, hn, UnitData.empty] using h

private theorem within_delimiter {st : ProcState} {em T : List OutputUnit} {t : Int} (h : Within st em T [] [] t) :
    Within (advanceUnit (some .delimiter) st).2.2 (em ++ (advanceUnit (some .delimiter) st).2.1.toList) T [] [] t := by
  obtain ⟨tm, pm, ⟨cf, cb, cd, ct⟩, nx⟩ := st
  rcases h with ⟨-, -, pend, ⟨o1, o2⟩, hp, rfl⟩ | ⟨a, -⟩
  · left
    refine ⟨rfl, rfl, ?_⟩
    cases pend with
    | none =>
      simp only at o1 o2
      obtain ⟨rfl, rfl, rfl⟩ := o2
      subst o1
      refine ⟨none, ?_, by simp, ?_⟩
      · cases cd <;> simp [advanceUnit, collectOut, UnitData.empty, Open]
      · cases cd <;> simp [advanceUnit, collectOut, UnitData.empty]
    | some u =>
      simp only at o1 o2
      obtain ⟨rfl, rfl, rfl, o5⟩ := o2
      subst o1
      have h5 : ¬ (u.frames.isEmpty && u.blocks.isEmpty) = true := by rw [empty_iff]; exact o5
      cases cd with
      | false => exact ⟨some u, by simp [advanceUnit, collectOut, UnitData.empty, Open]; exact fun h h' => o5 ⟨h, h'⟩, hp, by
          simp [advanceUnit, collectOut, UnitData.empty]⟩
      | true =>
        refine ⟨none, ?_, by simp, ?_⟩
        · simp only [advanceUnit, collectOut, UnitData.empty, Option.isSome_none, Bool.or_true, ↓reduceIte, h5]
          simp [Open, UnitData.empty]
        · simp only [advanceUnit, collectOut, UnitData.empty, Option.isSome_none, Bool.or_true, ↓reduceIte, h5]
          simp
  · exact absurd ⟨rfl, rfl⟩ a

/-! ### Proof: clocks -/

private def tab (l : List (UInt32 × UInt32)) (ts : UInt32 → Int) : List (UInt32 × TimingData) := l.map fun x => (x.1, ⟨x.2, ts x.1⟩)

private theorem tab_lookup {l : List (UInt32 × UInt32)} {ts : UInt32 → Int} {i : UInt32} (h : i ∈ l.map Prod.fst) :
    ∃ r, (tab l ts).lookup i = some ⟨r, ts i⟩ := by
  induction l with
  | nil => simp at h
  | cons x l ih =>
    obtain ⟨a, r⟩ := x
    unfold tab at ih ⊢
    simp only [List.map_cons, List.lookup]
    by_cases hi : i = a
    · subst hi; simp
    · rw [show (i == a) = false by simpa using hi]
      simp only [List.map_cons, List.mem_cons] at h
      exact ih (h.resolve_left hi)

private theorem tab_advance {l : List (UInt32 × UInt32)} {ts : UInt32 → Int} {i : UInt32} {d : Int} (hn : (l.map Prod.fst).Nodup) :
    advance i d (tab l ts) = tab l (fun j => if j = i then ts j + d else ts j) := by
  induction l with
  | nil => rfl
  | cons x l ih =>
    obtain ⟨a, r⟩ := x
    simp only [List.map_cons, List.nodup_cons] at hn
    unfold tab at ih ⊢
    simp only [List.map_cons, advance]
    by_cases hi : a = i
    · subst hi
      simp only [↓reduceIte, List.cons.injEq, true_and]
      apply List.map_congr_left
      intro y hy
      have : y.1 ≠ a := fun e => hn.1 (e ▸ List.mem_map.mpr ⟨y, hy, rfl⟩)
      simp [this]
    · simp only [hi, ↓reduceIte, ih hn.2]

private theorem tab_global {l : List (UInt32 × UInt32)} {ts : UInt32 → Int} {b : List (UInt32 × TimingData)} (hne : l ≠ []) :
    (∃ o, (⟨tab l ts, b⟩ : TimingModule).globalTimestamp = .ok o) ∧
    ∀ t, (∀ x ∈ l, ts x.1 = t) → (⟨tab l ts, b⟩ : TimingModule).globalTimestamp = .ok (some t) := by
  cases l with
  | nil => exact absurd rfl hne
  | cons x l =>
    refine ⟨⟨_, rfl⟩, fun t ht => ?_⟩
    have h0 := ht x List.mem_cons_self
    simp only [TimingModule.globalTimestamp, tab, List.map_cons, h0]
    rw [if_pos]
    simp only [List.all_cons, h0, BEq.rfl, Bool.true_and, List.all_map, List.all_eq_true, Function.comp_apply, beq_iff_eq]
    exact fun y hy => (ht y (List.mem_cons_of_mem _ hy)).symm

private theorem init_tab {l : List (UInt32 × UInt32)} {r : List (UInt32 × TimingData)} (h : initTiming l [] = .ok r) :
    (l.map Prod.fst).Nodup ∧ r = tab l (fun _ => 0) := by
  have gen : ∀ (l : List (UInt32 × UInt32)) (m : List (UInt32 × TimingData)) (r : List (UInt32 × TimingData)),
      (m.map Prod.fst).Nodup → initTiming l m = .ok r →
      (m.map Prod.fst ++ l.map Prod.fst).Nodup ∧ r = m ++ tab l (fun _ => 0) := by
    intro l
    induction l with
    | nil => intro m r hm h; simp only [initTiming, Except.ok.injEq] at h; subst h; simpa [tab] using hm
    | cons x l ih =>
      intro m r hm h
      obtain ⟨id, rate⟩ := x
      simp only [initTiming] at h
      split at h
      · simp at h
      · split at h
        · simp at h
        next hl =>
          have hnot : id ∉ m.map Prod.fst := by
            intro hmem
            obtain ⟨y, hy, rfl⟩ := List.mem_map.mp hmem
            have : m.lookup y.1 = none := by
              cases hx : m.lookup y.1 with
              | none => rfl
              | some z => rw [hx] at hl; simp at hl
            rw [List.lookup_eq_none_iff] at this
            have := this y hy
            simp at this
          obtain ⟨h1, h2⟩ := ih (m ++ [(id, ⟨rate, 0⟩)]) r (by
            rw [List.map_append, List.nodup_append]
            exact ⟨hm, by simp, fun a ha b hb => by
              simp only [List.map_cons, List.map_nil, List.mem_singleton] at hb
              subst hb; rintro rfl; exact hnot ha⟩) h
          refine ⟨by simpa using h1, ?_⟩
          rw [h2]; simp [tab]
  have := gen l [] r (by simp) h
  simpa using this

/-! ### Proof: the processor -/

private theorem quiet_update {pm : ParametersManager} (hq : Quiet pm) (t : Int) (l : List (UInt32 × ElementWithData)) :
    updateParameterStates t l pm = (.ok (), pm) := by
  induction l with
  | nil => rfl
  | cons x l ih =>
    obtain ⟨id, e⟩ := x
    have h1 : pm.updateDemixing id t = (.ok (), pm) := by
      unfold ParametersManager.updateDemixing
      split
      · rfl
      next st hst => rw [hq.1 id st hst]
    have h2 : pm.updateReconGain id t = (.ok (), pm) := by
      unfold ParametersManager.updateReconGain
      split
      · rfl
      next st hst => rw [hq.2 id st hst]
    simp only [updateParameterStates, h1, h2, ih]

private theorem quiet_recon {pm : ParametersManager} (hq : Quiet pm) (e : UInt32) (n : Nat) (hn : n ≤ 255) :
    pm.getReconGain e (Int32.ofNat n) = .ok (List.replicate n (some ⟨0, List.replicate 12 255⟩)) := by
  have hi : (Int32.ofNat n).toInt.toNat = n := by
    have : (Int32.ofNat n).toInt = n := by
      rw [Int32.toInt_ofNat']
      have h1 : Int32.size = 4294967296 := rfl
      simp only [Int.bmod_def, h1]
      omega
    rw [this]; simp
  unfold ParametersManager.getReconGain
  split
  · rw [hi]; rfl
  next st hst => rw [hq.2 e st hst]; simp only [hi]; rfl

/-- Between OBUs: unit `k`, of which the substreams `done` have had their frames, when the blocks `earlier` have been seen. -/
private structure Phase (ids pids : List (UInt32 × UInt32)) (pm : ParametersManager) (n : UInt32) (k : Nat) (done : List UInt32)
    (earlier : List BlockWithData) (st : ProcState) : Prop where
  frames : st.timing.frames = tab ids (fun i => if i ∈ done then ((k + 1) * n.toNat : Nat) else (k * n.toNat : Nat))
  blocks : st.timing.blocks = tab pids (fun i => (elapsed i earlier : Nat))
  params : st.params = pm

private theorem Phase.units {ids pids : List (UInt32 × UInt32)} {pm : ParametersManager} {n : UInt32} {k : Nat} {done : List UInt32}
    {earlier : List BlockWithData} {st st' : ProcState} (h : Phase ids pids pm n k done earlier st) (h1 : st'.timing = st.timing)
    (h2 : st'.params = st.params) : Phase ids pids pm n k done earlier st' :=
  ⟨by rw [h1]; exact h.frames, by rw [h1]; exact h.blocks, by rw [h2]; exact h.params⟩

private theorem advance_keeps (out : Option ProcOut) (st : ProcState) :
    (advanceUnit out st).2.2.timing = st.timing ∧ (advanceUnit out st).2.2.params = st.params := by
  have h1 : (collectOut out st).1.timing = st.timing ∧ (collectOut out st).1.params = st.params := by
    unfold collectOut
    split
    · exact ⟨rfl, rfl⟩
    · unfold addData; dsimp only; split <;> split <;> exact ⟨rfl, rfl⟩
    · unfold addData; dsimp only; split <;> split <;> exact ⟨rfl, rfl⟩
    · exact ⟨rfl, rfl⟩
  unfold advanceUnit
  simp only
  split
  · split <;> exact h1
  · exact h1

private theorem store_frame {c : ProcContext} {ids pids : List (UInt32 × UInt32)} {pm : ParametersManager} {n : UInt32} {k : Nat}
    {done : List UInt32} {earlier : List BlockWithData} {st : ProcState} (h : Phase ids pids pm n k done earlier st) (hq : Quiet pm)
    (hids : (ids.map Prod.fst).Nodup) {f : AudioFrame} {hd : ObuHeader} {e : ElementWithData} {cc : CodecObu}
    (hi : f.substreamId ∈ ids.map Prod.fst) (hdone : f.substreamId ∉ done) (hlk : c.substreams.lookup f.substreamId = some e)
    (hlab : f.substreamId ∈ e.data.labels.map Prod.fst) (hcc : e.codec = some cc) (hn : cc.config.numSamplesPerFrame = n)
    (hmix : pm.getDownMixing e.obu.elementId = (.ok (defaultMixing e.obu), pm)) (hlay : e.data.layers.length ≤ 255) :
    ∃ st', storeFrame c hd f st = (.ok (), some (.frame ⟨⟨hd, f, (k * n.toNat : Nat), ((k + 1) * n.toNat : Nat),
        some (e.obu.elementId, some n)⟩, defaultMixing e.obu, List.replicate e.data.layers.length (some ⟨0, List.replicate 12 255⟩)⟩), st') ∧
      st'.current = st.current ∧ st'.next = st.next ∧ Phase ids pids pm n k (f.substreamId :: done) earlier st' := by
  obtain ⟨⟨fr, bl⟩, pa, cu, nx⟩ := st
  obtain ⟨h1, h2, h3⟩ := h
  simp only at h1 h2 h3
  subst h1 h2 h3
  have hlab2 : (e.data.labels.lookup f.substreamId).isNone = false := by
    obtain ⟨y, hy, he⟩ := List.mem_map.mp hlab
    rw [Option.isNone_eq_false_iff, ← Option.ne_none_iff_isSome]
    intro hx
    rw [List.lookup_eq_none_iff] at hx
    have := hx y hy
    simp [he] at this
  obtain ⟨r, hr⟩ := tab_lookup (l := ids) (ts := fun i => if i ∈ done then (((k + 1) * n.toNat : Nat) : Int) else ((k * n.toNat : Nat) : Int)) hi
  have hfun : tab ids (fun j => if j = f.substreamId then
        (if j ∈ done then (((k + 1) * n.toNat : Nat) : Int) else ((k * n.toNat : Nat) : Int)) + (n.toNat : Int)
        else if j ∈ done then (((k + 1) * n.toNat : Nat) : Int) else ((k * n.toNat : Nat) : Int)) =
      tab ids (fun i => if i ∈ f.substreamId :: done then (((k + 1) * n.toNat : Nat) : Int) else ((k * n.toNat : Nat) : Int)) := by
    congr 1
    funext j
    by_cases hj : j = f.substreamId
    · subst hj
      simp only [↓reduceIte, hdone, List.mem_cons, true_or, Nat.add_mul, Nat.one_mul, Int.natCast_add]
    · simp only [hj, ↓reduceIte, List.mem_cons, false_or]
  have hstop : ((k * n.toNat : Nat) : Int) + (n.toNat : Int) = (((k + 1) * n.toNat : Nat) : Int) := by
    simp only [Nat.add_mul, Nat.one_mul, Int.natCast_add]
  have hgen : generateFrame e hd f ⟨⟨tab ids (fun i => if i ∈ done then (((k + 1) * n.toNat : Nat) : Int) else ((k * n.toNat : Nat) : Int)),
        tab pids (fun i => ((elapsed i earlier : Nat) : Int))⟩, pa, cu, nx⟩ =
      (.ok ⟨⟨hd, f, (k * n.toNat : Nat), ((k + 1) * n.toNat : Nat),
        some (e.obu.elementId, some n)⟩, defaultMixing e.obu, List.replicate e.data.layers.length (some ⟨0, List.replicate 12 255⟩)⟩,
       ⟨⟨tab ids (fun i => if i ∈ f.substreamId :: done then (((k + 1) * n.toNat : Nat) : Int) else ((k * n.toNat : Nat) : Int)),
        tab pids (fun i => ((elapsed i earlier : Nat) : Int))⟩, pa, cu, nx⟩) := by
    unfold generateFrame
    rw [hlab2, hcc]
    simp only [Bool.false_eq_true, ↓reduceIte, TimingModule.nextFrame, timestampsForId, hr, hn, hmix, quiet_recon hq _ _ hlay,
      tab_advance hids, hfun, hdone, hstop]
  unfold storeFrame
  rw [hlk]
  simp only [hgen]
  have hne : ids ≠ [] := by rintro rfl; simp at hi
  obtain ⟨⟨o, ho⟩, -⟩ := tab_global (l := ids)
    (ts := fun i => if i ∈ f.substreamId :: done then (((k + 1) * n.toNat : Nat) : Int) else ((k * n.toNat : Nat) : Int))
    (b := tab pids (fun i => ((elapsed i earlier : Nat) : Int))) hne
  unfold updateIfNeeded
  simp only [ho]
  cases o with
  | none => exact ⟨_, rfl, rfl, rfl, ⟨rfl, rfl, rfl⟩⟩
  | some t =>
    simp only [quiet_update hq]
    exact ⟨_, rfl, rfl, rfl, ⟨rfl, rfl, rfl⟩⟩

/-- What a block is about is the same for what comes back. -/
private theorem store_block {ids pids : List (UInt32 × UInt32)} {pm : ParametersManager} {n : UInt32} {k : Nat}
    {earlier : List BlockWithData} {st : ProcState} (h : Phase ids pids pm n k [] earlier st) (hne : ids ≠ [])
    (hpids : (pids.map Prod.fst).Nodup) {b : BlockWithData} {hd : ObuHeader} {b' : ParameterBlock} (hid : b'.parameterId = b.obu.parameterId)
    (hdur : b'.durationIn b.definition = b.obu.durationIn b.definition) (hi : b.obu.parameterId ∈ pids.map Prod.fst) :
    ∃ st', storeBlock hd b.definition b' st = (if elapsed b.obu.parameterId earlier = k * n.toNat
        then (.ok (), some (.block ⟨b', (k * n.toNat : Nat), (k * n.toNat + (b.obu.durationIn b.definition).toNat : Nat), hd, b.definition⟩), st')
        else (.error .invalidArgument, none, st')) ∧
      st'.current = st.current ∧ st'.next = st.next ∧ Phase ids pids pm n k [] (earlier ++ [b]) st' := by
  obtain ⟨⟨fr, bl⟩, pa, cu, nx⟩ := st
  obtain ⟨h1, h2, h3⟩ := h
  simp only at h1 h2 h3
  subst h1 h2 h3
  obtain ⟨r, hr⟩ := tab_lookup (l := pids) (ts := fun i => ((elapsed i earlier : Nat) : Int)) hi
  have hg := (tab_global (l := ids) (ts := fun i => if i ∈ ([] : List UInt32) then (((k + 1) * n.toNat : Nat) : Int) else ((k * n.toNat : Nat) : Int))
    (b := tab pids (fun i => ((elapsed i earlier : Nat) : Int))) hne).2 ((k * n.toNat : Nat) : Int) (fun x _ => by simp)
  have hfun : tab pids (fun j => if j = b.obu.parameterId then ((elapsed j earlier : Nat) : Int) + ((b.obu.durationIn b.definition).toNat : Int)
      else ((elapsed j earlier : Nat) : Int)) = tab pids (fun i => ((elapsed i (earlier ++ [b]) : Nat) : Int)) := by
    congr 1
    funext j
    unfold elapsed
    by_cases hj : j = b.obu.parameterId
    · subst hj
      simp [List.filter_append, Int.natCast_add]
    · have : ¬ b.obu.parameterId = j := fun e => hj e.symm
      simp [hj, this, List.filter_append]
  refine ⟨⟨⟨tab ids (fun i => if i ∈ ([] : List UInt32) then (((k + 1) * n.toNat : Nat) : Int) else ((k * n.toNat : Nat) : Int)),
    tab pids (fun i => ((elapsed i (earlier ++ [b]) : Nat) : Int))⟩, pa, cu, nx⟩, ?_, rfl, rfl, ⟨rfl, rfl, rfl⟩⟩
  unfold storeBlock
  simp only [hg, TimingModule.nextBlock, timestampsForId, hid, hdur, hr, tab_advance hpids, hfun]
  by_cases he : elapsed b.obu.parameterId earlier = k * n.toNat
  · rw [if_pos he, if_pos (by rw [he])]
    simp only [he, Int.natCast_add]
  · rw [if_neg he, if_neg (fun e => he (by omega))]

/-! ### Proof: initialization -/

private theorem except_bind_ok {ε α β : Type} {x : Except ε α} {f : α → Except ε β} {b : β} (h : (x >>= f) = .ok b) :
    ∃ a, x = .ok a ∧ f a = .ok b := by
  cases x with
  | error e => simp [bind, Except.bind] at h
  | ok a => exact ⟨a, rfl, h⟩

private theorem insert_spec {t t' : List (UInt32 × ParamEntry)} {p : ParamEntry} (h : insertParam t p = .ok t') :
    t'.lookup p.1.base.id = some p ∧ ∀ k q, t.lookup k = some q → t'.lookup k = some q := by
  unfold insertParam at h
  split at h
  next hl =>
    simp only [Except.ok.injEq] at h
    subst h
    have app : ∀ (t : List (UInt32 × ParamEntry)) k q, t.lookup k = some q → (t ++ [(p.1.base.id, p)]).lookup k = some q := by
      intro t k q hq
      induction t with
      | nil => simp at hq
      | cons x t ih =>
        obtain ⟨a, y⟩ := x
        simp only [List.cons_append, List.lookup] at hq ⊢
        split
        · next e => simp only [e] at hq; exact hq
        · next e => simp only [e] at hq; exact ih hq
    have app2 : ∀ (t : List (UInt32 × ParamEntry)), t.lookup p.1.base.id = none →
        (t ++ [(p.1.base.id, p)]).lookup p.1.base.id = some p := by
      intro t hq
      induction t with
      | nil => simp [List.lookup]
      | cons x t ih =>
        obtain ⟨a, y⟩ := x
        simp only [List.cons_append, List.lookup] at hq ⊢
        split
        · next e => simp only [e] at hq; simp at hq
        · next e => simp only [e] at hq; exact ih hq
    exact ⟨app2 t hl, app t⟩
  next q hl =>
    split at h
    next he =>
      simp only [Except.ok.injEq] at h
      subst h he
      exact ⟨hl, fun _ _ => _root_.id⟩
    · simp at h

private theorem fold_spec {α : Type} {f : List (UInt32 × ParamEntry) → α → Except Err (List (UInt32 × ParamEntry))} {G : α → ParamEntry → Prop}
    (hf : ∀ t t' a, f t a = .ok t' → (∀ k q, t.lookup k = some q → t'.lookup k = some q) ∧ ∀ p, G a p → t'.lookup p.1.base.id = some p)
    {l : List α} {t t' : List (UInt32 × ParamEntry)} (h : l.foldlM f t = .ok t') :
    (∀ k q, t.lookup k = some q → t'.lookup k = some q) ∧ ∀ a ∈ l, ∀ p, G a p → t'.lookup p.1.base.id = some p := by
  induction l generalizing t with
  | nil =>
    simp only [List.foldlM, pure, Except.pure, Except.ok.injEq] at h
    subst h
    exact ⟨fun _ _ => _root_.id, by simp⟩
  | cons a l ih =>
    rw [List.foldlM_cons] at h
    obtain ⟨t1, h1, h2⟩ := except_bind_ok h
    obtain ⟨m1, g1⟩ := hf _ _ _ h1
    obtain ⟨m2, g2⟩ := ih h2
    refine ⟨fun k q hq => m2 k q (m1 k q hq), fun x hx p hp => ?_⟩
    rcases List.mem_cons.mp hx with rfl | hx
    · exact m2 _ _ (g1 p hp)
    · exact g2 x hx p hp

/-- The definition that a parameter of an audio element makes. -/
private def made (e : ElementWithData) (p : ParamDef) : Option ParamDef :=
  match p.spec, e.obu.config with
  | .demixing _, _ => some p
  | .reconGain _, .scalable c => some ⟨p.base, .reconGain (c.layers.map (·.reconGainPresent))⟩
  | _, _ => none

private theorem collect_element {t t' : List (UInt32 × ParamEntry)} {e : ElementWithData} {p : ParamDef}
    (hl : ∀ c, e.obu.config = .scalable c → c.layers.length ≤ 255) (h : collectElementParam e t p = .ok t') :
    (∀ k q, t.lookup k = some q → t'.lookup k = some q) ∧
    ∀ q, made e p = some q → ∃ aux, t'.lookup q.base.id = some (q, aux) := by
  unfold collectElementParam at h
  unfold made
  obtain ⟨b, s⟩ := p
  cases s with
  | demixing x =>
    rw [if_pos (show (ParamSpecific.demixing x).type = 1 from rfl)] at h
    obtain ⟨h1, h2⟩ := insert_spec h
    refine ⟨h2, fun q hq => ?_⟩
    simp only [Option.some.injEq] at hq
    subst hq
    exact ⟨none, h1⟩
  | reconGain x =>
    rw [if_neg (show ¬ (ParamSpecific.reconGain x).type = 1 by simp [ParamSpecific.type]), if_pos (show (ParamSpecific.reconGain x).type = 2 from rfl)] at h
    obtain ⟨aux, ha, h⟩ := except_bind_ok h
    obtain ⟨h1, h2⟩ := insert_spec h
    refine ⟨h2, fun q hq => ?_⟩
    unfold reconGainAux at ha
    cases hc : e.obu.config with
    | scalable c =>
      rw [hc] at ha
      simp only [hc, Option.some.injEq] at hq
      simp only at ha
      split at ha
      · simp at ha
      · simp only [Except.ok.injEq] at ha
        subst ha hq
        have : c.numLayers.toNat = c.layers.length := by
          have := hl c hc
          simp only [ScalableLayout.numLayers, UInt8.toNat_ofNat']
          omega
        simp only [this, List.take_length] at h1
        exact ⟨_, h1⟩
    | _ => rw [hc] at ha; simp at ha
  | _ =>
    have hid : t' = t := by
      split at h
      · next he =>
        simp at h
      · split at h
        · simp at h
        · simp only [Except.ok.injEq] at h; exact h.symm
    subst hid
    exact ⟨fun _ _ => _root_.id, fun q hq => by simp at hq⟩

private theorem collected {d : Descriptors} {t : List (UInt32 × ParamEntry)}
    (hl : ∀ x ∈ d.elements, ∀ c, x.2.obu.config = .scalable c → c.layers.length ≤ 255) (h : collectParamDefinitions d = .ok t)
    {p : ParamDef} (hp : p ∈ definitions d) : ∃ aux, t.lookup p.base.id = some (p, aux) := by
  unfold collectParamDefinitions at h
  obtain ⟨t1, h1, h2⟩ := except_bind_ok h
  have a2 := fold_spec (G := fun q x => x = (q, none)) (fun t t' a hh => by
    obtain ⟨i1, i2⟩ := insert_spec hh
    exact ⟨i2, fun x hx => by subst hx; exact i1⟩) h2
  have gen : ∀ (l : List (ElementWithData × ParamDef)) (t t' : List (UInt32 × ParamEntry)),
      (∀ x ∈ l, ∀ c, x.1.obu.config = .scalable c → c.layers.length ≤ 255) →
      l.foldlM (fun t x => collectElementParam x.1 t x.2) t = .ok t' →
      (∀ k q, t.lookup k = some q → t'.lookup k = some q) ∧
      ∀ x ∈ l, ∀ q, made x.1 x.2 = some q → ∃ aux, t'.lookup q.base.id = some (q, aux) := by
    intro l
    induction l with
    | nil =>
      intro t t' _ h
      simp only [List.foldlM, pure, Except.pure, Except.ok.injEq] at h
      subst h
      exact ⟨fun _ _ => _root_.id, by simp⟩
    | cons a l ih =>
      intro t t' hl h
      rw [List.foldlM_cons] at h
      obtain ⟨t1, h1, h2⟩ := except_bind_ok h
      obtain ⟨m1, g1⟩ := collect_element (hl a List.mem_cons_self) h1
      obtain ⟨m2, g2⟩ := ih t1 t' (fun x hx => hl x (List.mem_cons_of_mem _ hx)) h2
      refine ⟨fun k q hq => m2 k q (m1 k q hq), fun x hx q hq => ?_⟩
      rcases List.mem_cons.mp hx with rfl | hx
      · obtain ⟨aux, ha⟩ := g1 q hq
        exact ⟨aux, m2 _ _ ha⟩
      · exact g2 x hx q hq
  obtain ⟨-, a1⟩ := gen _ _ _ (by
    intro x hx
    obtain ⟨e, he, hx⟩ := List.mem_flatMap.mp hx
    obtain ⟨q, -, rfl⟩ := List.mem_map.mp hx
    exact hl e he) h1
  unfold definitions at hp
  rcases List.mem_append.mp hp with hp | hp
  · obtain ⟨e, he, hp⟩ := List.mem_flatMap.mp hp
    obtain ⟨q, hq, hp⟩ := List.mem_filterMap.mp hp
    obtain ⟨aux, ha⟩ := a1 (e.2, q) (List.mem_flatMap.mpr ⟨e, he, List.mem_map.mpr ⟨q, hq, rfl⟩⟩) p hp
    exact ⟨aux, a2.1 _ _ ha⟩
  · exact ⟨none, a2.2 p hp (p, none) rfl⟩

private theorem table_spec {l m r : List (UInt32 × ElementWithData)} (hm : (m.map Prod.fst).Nodup) (h : substreamTable l m = .ok r) :
    ((m ++ l).map Prod.fst).Nodup ∧ r = m ++ l := by
  induction l generalizing m with
  | nil => simp only [substreamTable, Except.ok.injEq] at h; subst h; simpa using hm
  | cons x l ih =>
    obtain ⟨a, e⟩ := x
    simp only [substreamTable] at h
    split at h
    · simp at h
    next hl =>
      have hnot : a ∉ m.map Prod.fst := by
        intro hmem
        obtain ⟨y, hy, rfl⟩ := List.mem_map.mp hmem
        have : m.lookup y.1 = none := by
          cases hx : m.lookup y.1 with
          | none => rfl
          | some z => rw [hx] at hl; simp at hl
        rw [List.lookup_eq_none_iff] at this
        have := this y hy
        simp at this
      have := ih (m := m ++ [(a, e)]) (by
        rw [List.map_append, List.nodup_append]
        exact ⟨hm, by simp, fun a ha b hb => by
          simp only [List.map_cons, List.map_nil, List.mem_singleton] at hb
          subst hb; rintro rfl; exact hnot ha⟩) h
      simpa using this

private theorem lookup_mem {β : Type} {l : List (UInt32 × β)} (hn : (l.map Prod.fst).Nodup) {i : UInt32} {b : β} (h : (i, b) ∈ l) :
    l.lookup i = some b := by
  induction l with
  | nil => simp at h
  | cons x l ih =>
    obtain ⟨a, y⟩ := x
    simp only [List.map_cons, List.nodup_cons] at hn
    simp only [List.lookup]
    rcases List.mem_cons.mp h with h | h
    · simp only [Prod.mk.injEq] at h
      obtain ⟨rfl, rfl⟩ := h
      simp
    · have : i ≠ a := fun e => hn.1 (e ▸ List.mem_map.mpr ⟨_, h, rfl⟩)
      rw [show (i == a) = false by simpa using this]
      exact ih hn.2 h

private theorem mem_lookup_key {β : Type} {l : List (UInt32 × β)} {i : UInt32} {b : β} (h : l.lookup i = some b) : i ∈ l.map Prod.fst := by
  induction l with
  | nil => simp at h
  | cons x l ih =>
    obtain ⟨a, y⟩ := x
    simp only [List.lookup] at h
    split at h
    · next e => rw [beq_iff_eq] at e; subst e; simp
    · exact List.mem_cons_of_mem _ (ih h)

/-- What initialization sets up. -/
private structure Ready (d : Descriptors) (c : ProcContext) (ids pids : List (UInt32 × UInt32)) (pm : ParametersManager) : Prop where
  idKeys : ids.map Prod.fst = substreamIds d
  idsNodup : (ids.map Prod.fst).Nodup
  pidsNodup : (pids.map Prod.fst).Nodup
  quiet : Quiet pm
  mixing : ∀ x ∈ d.elements, MixingDefault x.2.obu → pm.getDownMixing x.1 = (.ok (defaultMixing x.2.obu), pm)
  streams : ∀ x ∈ d.elements, ∀ s ∈ x.2.data.labels.map Prod.fst, c.substreams.lookup s = some x.2
  params : ∀ p ∈ definitions d, ∃ aux, c.params.lookup p.base.id = some (p, aux) ∧ p.base.id ∈ pids.map Prod.fst

private theorem ready {d : Descriptors} {c : ProcContext} {st : ProcState} (h : initProcessor d = .ok (c, st))
    (hn : (d.elements.map Prod.fst).Nodup) (hl : ∀ x ∈ d.elements, ∀ c, x.2.obu.config = .scalable c → c.layers.length ≤ 255) :
    ∃ ids pids pm, Ready d c ids pids pm ∧ st = ⟨⟨tab ids (fun _ => 0), tab pids (fun _ => 0)⟩, pm, .empty, .empty⟩ := by
  unfold initProcessor at h
  obtain ⟨params, hp, h⟩ := except_bind_ok h
  obtain ⟨subs, hs, h⟩ := except_bind_ok h
  split at h
  · simp at h
  next g hg =>
    obtain ⟨pm, hpm, h⟩ := except_bind_ok h
    simp only [Except.ok.injEq, Prod.mk.injEq] at h
    obtain ⟨rfl, rfl⟩ := h
    unfold TimingModule.create at hg
    split at hg
    · simp at hg
    next fs hfs =>
      split at hg
      · simp at hg
      next bs hbs =>
        simp only [Option.some.injEq] at hg
        subst hg
        obtain ⟨n1, rfl⟩ := init_tab hfs
        obtain ⟨n2, rfl⟩ := init_tab hbs
        obtain ⟨n3, e3⟩ := table_spec (m := []) (by simp) hs
        rw [List.nil_append] at n3 e3
        subst e3
        refine ⟨_, _, pm, ⟨?_, n1, n2, created_quiet hpm, ?_, ?_, ?_⟩, rfl⟩
        · simp only [substreamIds, List.map_flatMap, List.flatMap_map, List.map_map, ElementWithData.timed]
          congr 1
          funext x
          have key : ∀ (r : UInt32) (l : List UInt32), l.map (Prod.fst ∘ fun s => (s, r)) = l := fun r l => by
            rw [show (Prod.fst ∘ fun s : UInt32 => (s, r)) = _root_.id from rfl, List.map_id]
          exact key _ _
        · intro x hx hm
          refine created_mixing hpm (by rw [List.map_map]; exact hn) (List.mem_map.mpr ⟨x, hx, rfl⟩) hm
        · intro x hx s hs
          obtain ⟨y, hy, rfl⟩ := List.mem_map.mp hs
          exact lookup_mem n3 (List.mem_flatMap.mpr ⟨x, hx, List.mem_map.mpr ⟨y, hy, rfl⟩⟩)
        · intro p hpd
          obtain ⟨aux, ha⟩ := collected hl hp hpd
          refine ⟨aux, ha, ?_⟩
          rw [List.map_map]
          exact mem_lookup_key ha

/-! ### Proof: unit by unit -/

private theorem normal_header {h : ObuHeader} (ht : h.trimFlag = true ∨ (h.trimEnd = 0 ∧ h.trimStart = 0)) : h.normalized = h := by
  obtain ⟨t, rc, ts, te, tst, x⟩ := h
  simp only at ht
  unfold ObuHeader.normalized
  split
  · rfl
  · next hf =>
    rcases ht with ht | ⟨rfl, rfl⟩
    · rw [ht] at hf; simp at hf
    · rfl

private theorem FrameOf.flag {d : Descriptors} {n : UInt32} {k : Nat} {f : FrameWithData} (hf : FrameOf d n k f) :
    f.header.trimFlag = true ∨ (f.header.trimEnd = 0 ∧ f.header.trimStart = 0) := by
  refine hf.trims.imp_left fun h => ?_
  have ht : isAudioFrameType f.header.obuType = true := by
    have key : ∀ n < 24, 5 ≤ n → isAudioFrameType (UInt8.ofNat n) = true := by decide
    rw [hf.type]
    split
    · decide
    · exact key _ (by omega) (by omega)
  simp [ObuHeader.trimFlag, h, ht]

/-- Between OBUs. -/
private structure At (ids pids : List (UInt32 × UInt32)) (pm : ParametersManager) (n : UInt32) (k : Nat) (done : List UInt32)
    (earlier : List BlockWithData) (em T : List OutputUnit) (fs : List ProcFrame) (bs : List BlockWithData) (st : ProcState) : Prop where
  phase : Phase ids pids pm n k done earlier st
  within : Within st em T fs bs (k * n.toNat : Nat)

private theorem At.advance {ids pids : List (UInt32 × UInt32)} {pm : ParametersManager} {n : UInt32} {k : Nat} {done : List UInt32}
    {earlier : List BlockWithData} {em' T : List OutputUnit} {fs : List ProcFrame} {bs : List BlockWithData} {st : ProcState}
    {out : Option ProcOut} (h : Phase ids pids pm n k done earlier st)
    (hw : Within (advanceUnit out st).2.2 em' T fs bs (k * n.toNat : Nat)) :
    At ids pids pm n k done earlier em' T fs bs (advanceUnit out st).2.2 :=
  ⟨h.units (advance_keeps out st).1 (advance_keeps out st).2, hw⟩

private theorem run_frame {d : Descriptors} {c : ProcContext} {ids pids : List (UInt32 × UInt32)} {pm : ParametersManager} {n : UInt32}
    (hr : Ready d c ids pids pm) (hc : ConsistentDescriptors d) (hp : Playable d n) {k : Nat} {done : List UInt32}
    {earlier : List BlockWithData} {em T : List OutputUnit} {fs : List ProcFrame} {bs : List BlockWithData} {st : ProcState}
    (h : At ids pids pm n k done earlier em T fs bs st) {f : FrameWithData} (hf : FrameOf d n k f) (hdone : f.frame.substreamId ∉ done)
    {g : LebGen} {bits : Bits} (hb : (wObu f.header (f.frame.write f.header.obuType) []).eval g = (.ok (), bits)) :
    ∃ em' st', Passes c st bits em' st' ∧
      At ids pids pm n k (f.frame.substreamId :: done) earlier (em ++ em') T (fs ++ [frameBack d f]) bs st' := by
  obtain ⟨x, hx, hsub, hel⟩ := hf.element
  obtain ⟨e1, e2, cc, e3, e4⟩ := hc.elements x hx
  have hi : f.frame.substreamId ∈ ids.map Prod.fst := by
    rw [hr.idKeys]; exact List.mem_flatMap.mpr ⟨x, hx, hsub⟩
  have hlab := hp.labels x hx _ hsub
  have hmix := hr.mixing x hx (hp.defaults x hx)
  rw [e1] at hmix
  obtain ⟨st1, s1, s2, s3, s4⟩ := store_frame (c := c) (hd := f.header) h.phase hr.quiet hr.idsNodup hi hdone (hr.streams x hx _ hlab) hlab e4
    (hp.frameSize x hx cc e4) hmix (hp.layers x hx).1
  have hback : frameBack d f = ⟨⟨f.header, f.frame, (k * n.toNat : Nat), ((k + 1) * n.toNat : Nat), some (x.2.obu.elementId, some n)⟩,
      defaultMixing x.2.obu, List.replicate x.2.data.layers.length (some ⟨0, List.replicate 12 255⟩)⟩ := by
    have hid : f.elementId = x.1 := by unfold FrameWithData.elementId; rw [hel]
    unfold frameBack
    rw [hid, lookup_mem hc.elementIds (b := x.2) hx]
    obtain ⟨fh, ff, fs, fe, fel⟩ := f
    obtain ⟨t1, t2⟩ := hf.time
    simp only at t1 t2 hel
    subst t1 t2 hel
    simp only [e1]
  rw [← hback] at s1
  have hrun := Passes.one (c := c) (st := st) (bs := bits) (out := some (.frame (frameBack d f))) (st' := st1) (fun F => by
    refine obuAt_frame (h := f.header) ?_ hb F (.inl rfl) ?_
    · rw [hf.type]; rfl
    · rw [normal_header hf.flag]; exact s1) (advance_solid (h.within.congr s2 s3).good (by simp))
  refine ⟨_, _, hrun, At.advance s4 (within_frame _ ?_ (h.within.congr s2 s3))⟩
  rw [hback]

private theorem run_frames {d : Descriptors} {c : ProcContext} {ids pids : List (UInt32 × UInt32)} {pm : ParametersManager} {n : UInt32}
    (hr : Ready d c ids pids pm) (hc : ConsistentDescriptors d) (hp : Playable d n) {k : Nat} {earlier : List BlockWithData} {g : LebGen}
    {T : List OutputUnit} {bs : List BlockWithData} {l : List FrameWithData} {parts : List Bits}
    (hb : List.Forall₂ (fun q b => Wr.eval g q = (.ok (), b)) (l.map fun f => wObu f.header (f.frame.write f.header.obuType) []) parts)
    {done : List UInt32} {em : List OutputUnit} {fs : List ProcFrame} {st : ProcState}
    (h : At ids pids pm n k done earlier em T fs bs st) (hf : ∀ f ∈ l, FrameOf d n k f)
    (hdone : ∀ f ∈ l, f.frame.substreamId ∉ done) (hn : (l.map (·.frame.substreamId)).Nodup) :
    ∃ em' st' done', Passes c st parts.flatten em' st' ∧ (∀ f ∈ l, f.frame.substreamId ∈ done') ∧
      At ids pids pm n k done' earlier (em ++ em') T (fs ++ l.map (frameBack d)) bs st' ∧ ∀ i ∈ done, i ∈ done' := by
  induction l generalizing parts done em fs st with
  | nil =>
    cases hb
    exact ⟨[], st, done, Passes.nil c st, by simp, by simpa using h, fun _ => _root_.id⟩
  | cons f l ih =>
    cases hb with
    | cons h1 h2 =>
      obtain ⟨em1, st1, r1, a1⟩ := run_frame hr hc hp h (hf f List.mem_cons_self) (hdone f List.mem_cons_self) h1
      simp only [List.map_cons, List.nodup_cons] at hn
      obtain ⟨em2, st2, done2, r2, m2, a2, k2⟩ := ih h2 a1 (fun y hy => hf y (List.mem_cons_of_mem _ hy)) (by
        intro y hy
        rw [List.mem_cons, not_or]
        exact ⟨fun e => hn.1 (e ▸ List.mem_map.mpr ⟨y, hy, rfl⟩), hdone y (List.mem_cons_of_mem _ hy)⟩) hn.2
      refine ⟨em1 ++ em2, st2, done2, ?_, ?_, ?_, ?_⟩
      · rw [List.flatten_cons]; exact r1.append r2
      · intro y hy
        rcases List.mem_cons.mp hy with rfl | hy
        · exact k2 _ List.mem_cons_self
        · exact m2 y hy
      · simpa [List.append_assoc] using a2
      · exact fun i hi => k2 i (List.mem_cons_of_mem _ hi)

private theorem run_block {d : Descriptors} {c : ProcContext} {ids pids : List (UInt32 × UInt32)} {pm : ParametersManager} {n : UInt32}
    (hr : Ready d c ids pids pm) (hp : Playable d n) {k : Nat}
    {earlier : List BlockWithData} {em T : List OutputUnit} {bs : List BlockWithData} {st : ProcState}
    (h : At ids pids pm n k [] earlier em T [] bs st) {b : BlockWithData} (hf : BlockOf d n k b)
    {g : LebGen} {bits : Bits} (hb : (wObu b.header (b.obu.write b.definition) []).eval g = (.ok (), bits)) :
    ∃ em' st', Passes c st bits em' st' ∧ At ids pids pm n k [] (earlier ++ [b]) (em ++ em') T []
      (bs ++ if elapsed b.obu.parameterId earlier = k * n.toNat then [blockBack b] else []) st' := by
  obtain ⟨data, hd⟩ := hf.data
  obtain ⟨d1, d2, d3, d4⟩ := hd
  obtain ⟨aux, ha, hpid⟩ := hr.params _ hf.defined
  rw [← d1] at ha hpid
  have hne : ids ≠ [] := by
    rintro rfl
    have := hr.idKeys
    simp only [List.map_nil] at this
    exact hp.streams this.symm
  have hrt := ParameterBlock.rt g b.definition b.obu data [] d1 d2
    (by intro s hs; rw [hs] at d4; exact d4) (by intro hs; rw [hs] at d4; exact d4) d3
  have hnorm : b.header.normalized = b.header := normal_header (.inr hf.trims)
  obtain ⟨st1, s1, s2, s3, s4⟩ := store_block (hd := b.header) h.phase hne hr.pidsNodup (b := b)
    (b' := ⟨b.obu.parameterId, b.obu.schedule, (data.map ParamData.normalized).map some⟩) rfl rfl hpid
  have hback : blockBack b = ⟨⟨b.obu.parameterId, b.obu.schedule, (data.map ParamData.normalized).map some⟩, (k * n.toNat : Nat),
      (k * n.toNat + (b.obu.durationIn b.definition).toNat : Nat), b.header, b.definition⟩ := by
    obtain ⟨bo, bs, be, bh, bd⟩ := b
    obtain ⟨t1, t2⟩ := hf.time
    simp only at t1 t2 d2
    subst t1 t2
    unfold blockBack
    simp only [d2, List.map_map]
    congr 3
  rw [← hback] at s1
  by_cases he : elapsed b.obu.parameterId earlier = k * n.toNat
  · rw [if_pos he] at s1
    rw [if_pos he]
    have hrun := Passes.one (c := c) (st := st) (bs := bits) (out := some (.block (blockBack b))) (st' := st1) (fun F =>
      obuAt_block hf.type hb hrt F ha (.inl rfl) (by rw [hnorm]; exact s1)) (advance_solid (h.within.congr s2 s3).good (by simp))
    refine ⟨_, _, hrun, At.advance s4 (within_block _ ?_ (h.within.congr s2 s3))⟩
    rw [hback]
  · rw [if_neg he] at s1
    rw [if_neg he, List.append_nil]
    have hrun := Passes.one (c := c) (st := st) (bs := bits) (out := none) (st' := st1) (fun F =>
      obuAt_block hf.type hb hrt F ha (.inr rfl) (by rw [hnorm]; exact s1)) (advance_solid (h.within.congr s2 s3).good (by simp))
    exact ⟨_, _, hrun, At.advance s4 (within_none (h.within.congr s2 s3))⟩

private theorem elapsed_append (i : UInt32) (l m : List BlockWithData) : elapsed i (l ++ m) = elapsed i l + elapsed i m := by
  simp [elapsed, List.filter_append]

private theorem elapsed_none {i : UInt32} {l : List BlockWithData} (h : i ∉ l.map (·.obu.parameterId)) : elapsed i l = 0 := by
  unfold elapsed
  rw [List.filter_eq_nil_iff.mpr]
  · rfl
  · intro b hb
    simp only [decide_eq_true_eq]
    exact fun e => h (e ▸ List.mem_map.mpr ⟨b, hb, rfl⟩)

private theorem run_blocks {d : Descriptors} {c : ProcContext} {ids pids : List (UInt32 × UInt32)} {pm : ParametersManager} {n : UInt32}
    (hr : Ready d c ids pids pm) (hp : Playable d n) {k : Nat} {g : LebGen} {earlier : List BlockWithData}
    {T : List OutputUnit} {l : List BlockWithData} {parts : List Bits}
    (hb : List.Forall₂ (fun q b => Wr.eval g q = (.ok (), b)) (l.map fun b => wObu b.header (b.obu.write b.definition) []) parts)
    {before : List BlockWithData} {em : List OutputUnit} {bs : List BlockWithData} {st : ProcState}
    (h : At ids pids pm n k [] (earlier ++ before) em T [] bs st) (hf : ∀ b ∈ l, BlockOf d n k b)
    (hn : ((before ++ l).map (·.obu.parameterId)).Nodup) :
    ∃ em' st', Passes c st parts.flatten em' st' ∧ At ids pids pm n k [] (earlier ++ (before ++ l)) (em ++ em') T []
      (bs ++ (l.filter fun b => elapsed b.obu.parameterId earlier = k * n.toNat).map blockBack) st' := by
  induction l generalizing parts before em bs st with
  | nil =>
    cases hb
    exact ⟨[], st, Passes.nil c st, by simpa using h⟩
  | cons b l ih =>
    cases hb with
    | cons h1 h2 =>
      obtain ⟨em1, st1, r1, a1⟩ := run_block hr hp h (hf b List.mem_cons_self) h1
      have hb0 : b.obu.parameterId ∉ before.map (·.obu.parameterId) := by
        rw [List.map_append, List.nodup_append] at hn
        intro hm
        exact hn.2.2 _ hm _ (by simp) rfl
      rw [elapsed_append, elapsed_none hb0, Nat.add_zero, List.append_assoc] at a1
      obtain ⟨em2, st2, r2, a2⟩ := ih (before := before ++ [b]) h2 a1 (fun y hy => hf y (List.mem_cons_of_mem _ hy)) (by
        simpa [List.append_assoc] using hn)
      refine ⟨em1 ++ em2, st2, by rw [List.flatten_cons]; exact r1.append r2, ?_⟩
      have e : bs ++ ((b :: l).filter fun b => elapsed b.obu.parameterId earlier = k * n.toNat).map blockBack =
          (bs ++ if elapsed b.obu.parameterId earlier = k * n.toNat then [blockBack b] else []) ++
            (l.filter fun b => elapsed b.obu.parameterId earlier = k * n.toNat).map blockBack := by
        rw [List.filter_cons]
        split <;> simp_all
      rw [e]
      simpa [List.append_assoc] using a2

private theorem run_skipped {c : ProcContext} {ids pids : List (UInt32 × UInt32)} {pm : ParametersManager} {n : UInt32} {k : Nat} {g : LebGen}
    {done : List UInt32} {earlier : List BlockWithData} {T : List OutputUnit} {fs : List ProcFrame} {bs : List BlockWithData}
    {l : List ArbitraryObu} {parts : List Bits}
    (hb : List.Forall₂ (fun q b => Wr.eval g q = (.ok (), b)) (l.map ArbitraryObu.write) parts) (hs : ∀ o ∈ l, Skipped o.header)
    {em : List OutputUnit} {st : ProcState} (h : At ids pids pm n k done earlier em T fs bs st) :
    ∃ em' st', Passes c st parts.flatten em' st' ∧ At ids pids pm n k done earlier (em ++ em') T fs bs st' := by
  induction l generalizing parts em st with
  | nil =>
    cases hb
    exact ⟨[], st, Passes.nil c st, by simpa using h⟩
  | cons o l ih =>
    cases hb with
    | cons h1 h2 =>
      have hrun := Passes.one (c := c) (st := st) (out := none) (st' := st) (fun F => obuAt_skipped (hs o List.mem_cons_self) h1 F c st)
        (advance_solid h.within.good (by simp))
      have a1 := At.advance h.phase (within_none h.within)
      obtain ⟨em2, st2, r2, a2⟩ := ih h2 (fun y hy => hs y (List.mem_cons_of_mem _ hy)) a1
      exact ⟨_, st2, by rw [List.flatten_cons]; exact hrun.append r2, by rw [← List.append_assoc]; exact a2⟩

private theorem run_hook {c : ProcContext} {ids pids : List (UInt32 × UInt32)} {pm : ParametersManager} {n : UInt32} {k : Nat} {g : LebGen}
    {done : List UInt32} {earlier : List BlockWithData} {T : List OutputUnit} {fs : List ProcFrame} {bs : List BlockWithData}
    {l : List ArbitraryObu} {hook : Nat} {parts : List Bits}
    (hb : List.Forall₂ (fun q b => Wr.eval g q = (.ok (), b)) (atHook hook l) parts) (hs : ∀ o ∈ l, Skipped o.header)
    {em : List OutputUnit} {st : ProcState} (h : At ids pids pm n k done earlier em T fs bs st) :
    ∃ em' st', Passes c st parts.flatten em' st' ∧ At ids pids pm n k done earlier (em ++ em') T fs bs st' :=
  run_skipped hb (fun o ho => hs o (List.mem_filter.mp ho).1) h

theorem forall₂_split {α β : Type} {R : α → β → Prop} {l1 l2 : List α} {r : List β} (h : List.Forall₂ R (l1 ++ l2) r) :
    ∃ r1 r2, r = r1 ++ r2 ∧ List.Forall₂ R l1 r1 ∧ List.Forall₂ R l2 r2 := by
  induction l1 generalizing r with
  | nil => exact ⟨[], r, rfl, .nil, h⟩
  | cons a l1 ih =>
    cases h with
    | cons ha h =>
      obtain ⟨r1, r2, rfl, h1, h2⟩ := ih h
      exact ⟨_ :: r1, r2, rfl, .cons ha h1, h2⟩

private theorem written_bits {g : LebGen} {l : List (Wr Unit)} {bytes : List UInt8} (h : WrittenInOrder g l bytes) :
    ∃ parts : List Bits, bytesBits bytes = parts.flatten ∧ List.Forall₂ (fun q b => Wr.eval g q = (.ok (), b)) l parts := by
  obtain ⟨parts, rfl, h⟩ := h
  refine ⟨parts.map bytesBits, ?_, ?_⟩
  · clear h
    induction parts with
    | nil => rfl
    | cons a l ih => simp [bytesBits_append, ih]
  · induction h with
    | nil => exact .nil
    | cons h1 _ ih => exact .cons h1.eval ih

private theorem run_unit {d : Descriptors} {c : ProcContext} {ids pids : List (UInt32 × UInt32)} {pm : ParametersManager} {n : UInt32}
    (hr : Ready d c ids pids pm) (hc : ConsistentDescriptors d) (hp : Playable d n) (hn : n ≠ 0) {k : Nat} {g : LebGen} {delimiters : Bool}
    {earlier : List BlockWithData} {em T : List OutputUnit} {st : ProcState} (h : At ids pids pm n k [] earlier em T [] [] st)
    (hfr : Fresh st) {u : TemporalUnitView} (hu : UnitOf d n k u) {bytes : List UInt8} (hb : UnitBytes g delimiters u bytes) :
    ∃ em' st', Passes c st (bytesBits bytes) em' st' ∧ At ids pids pm n (k + 1) [] (earlier ++ u.blocks) (em ++ em')
      (T ++ [⟨u.frames.map (frameBack d), (u.blocks.filter fun b => elapsed b.obu.parameterId earlier = k * n.toNat).map blockBack,
        (k * n.toNat : Nat)⟩]) [] [] st' ∧ Fresh st' ∧ (flushUnit st').1.isSome = true := by
  obtain ⟨parts, hbits, hb⟩ := written_bits hb
  rw [hbits]
  unfold unitObus at hb
  obtain ⟨q5, p6, rfl, hb, h6⟩ := forall₂_split hb
  obtain ⟨q4, p5, rfl, hb, h5⟩ := forall₂_split hb
  obtain ⟨q3, p4, rfl, hb, h4⟩ := forall₂_split hb
  obtain ⟨q2, p3, rfl, hb, h3⟩ := forall₂_split hb
  obtain ⟨p1, p2, rfl, h1, h2⟩ := forall₂_split hb
  have s1 : ∃ em' st', Passes c st p1.flatten em' st' ∧ At ids pids pm n k [] earlier (em ++ em') T [] [] st' := by
    cases delimiters with
    | false =>
      simp only [Bool.false_eq_true, ↓reduceIte] at h1
      cases h1
      exact ⟨[], st, Passes.nil c st, by simpa using h⟩
    | true =>
      simp only [↓reduceIte] at h1
      cases h1 with
      | cons h0 h1 =>
        cases h1
        have hrun := Passes.one (c := c) (st := st) (out := some .delimiter) (st' := st) (fun F => obuAt_delimiter rfl h0 F c st)
          (advance_solid h.within.good fun _ => hfr)
        refine ⟨_, _, ?_, At.advance h.phase (within_delimiter h.within)⟩
        simpa using hrun
  obtain ⟨em1, st1, r1, a1⟩ := s1
  obtain ⟨em2, st2, r2, a2⟩ := run_hook (c := c) h2 hu.arbitrary a1
  obtain ⟨em3, st3, r3, a3⟩ := run_blocks hr hp h3 (before := []) (by rw [List.append_nil]; exact a2) hu.block (by simpa using hu.blocks)
  obtain ⟨em4, st4, r4, a4⟩ := run_hook (c := c) h4 hu.arbitrary a3
  have hnd : (u.frames.map (·.frame.substreamId)).Nodup := by
    rw [hu.frames.nodup_iff, ← hr.idKeys]; exact hr.idsNodup
  obtain ⟨em5, st5, done, r5, m5, a5, -⟩ := run_frames hr hc hp h5 a4 hu.frame (by simp) hnd
  obtain ⟨em6, st6, r6, a6⟩ := run_hook (c := c) h6 hu.arbitrary a5
  refine ⟨em1 ++ em2 ++ em3 ++ em4 ++ em5 ++ em6, st6, ?_, ⟨?_, ?_⟩, ?_⟩
  · simp only [List.flatten_append]
    exact ((((r1.append r2).append r3).append r4).append r5).append r6
  · obtain ⟨f1, f2, f3⟩ := a6.phase
    refine ⟨?_, ?_, f3⟩
    · rw [f1]
      unfold tab
      apply List.map_congr_left
      intro x hx
      have : x.1 ∈ done := by
        have hm : x.1 ∈ substreamIds d := hr.idKeys ▸ List.mem_map.mpr ⟨x, hx, rfl⟩
        rw [← hu.frames.mem_iff] at hm
        obtain ⟨f, hf, e⟩ := List.mem_map.mp hm
        rw [← e]; exact m5 f hf
      simp [this]
    · simpa using f2
  · have hw := a6.within
    simp only [List.nil_append] at hw
    have hne : u.frames ≠ [] := by
      intro e
      have := hu.frames
      rw [e] at this
      exact hp.streams (List.nil_perm.mp this)
    rcases hw with ⟨e, -⟩ | ⟨-, ho, e⟩
    · simp only [List.map_eq_nil_iff] at e
      exact absurd e hne
    · refine .inl ⟨rfl, rfl, some _, ho, ?_, ?_⟩
      · intro v hv
        simp only [Option.some.injEq] at hv
        subst hv
        simp only [ne_eq, Int.natCast_inj, Nat.add_mul, Nat.one_mul]
        have : n.toNat ≠ 0 := fun e => hn (UInt32.toNat_inj.mp e)
        omega
      · rw [Option.toList_some, ← e]
        simp only [List.append_assoc]
  · have hw := a6.within
    simp only [List.nil_append] at hw
    have hne : u.frames ≠ [] := by
      intro e
      have := hu.frames
      rw [e] at this
      exact hp.streams (List.nil_perm.mp this)
    rcases hw with ⟨e, -⟩ | ⟨-, ⟨-, o1, -⟩, -⟩
    · simp only [List.map_eq_nil_iff] at e
      exact absurd e hne
    · have hemp : ¬ (st6.current.frames.isEmpty && st6.current.blocks.isEmpty) = true := by
        rw [o1]
        simpa using fun e => absurd e hne
      refine ⟨fun _ => hemp, ?_⟩
      unfold flushUnit
      rw [if_neg hemp]
      rfl

/-- What the end of a sequence does between units. -/
private theorem At.flush {ids pids : List (UInt32 × UInt32)} {pm : ParametersManager} {n : UInt32} {k : Nat} {earlier : List BlockWithData}
    {em T : List OutputUnit} {st : ProcState} (h : At ids pids pm n k [] earlier em T [] [] st) (hfr : Fresh st) :
    em ++ (flushUnit st).1.toList = T ∧ At ids pids pm n k [] earlier T T [] [] (flushUnit st).2 ∧ Fresh (flushUnit st).2 := by
  rcases h.within with ⟨-, -, pend, ⟨o1, o2⟩, -, rfl⟩ | ⟨e, -⟩
  · unfold flushUnit
    cases pend with
    | none =>
      rw [if_pos (by rw [o2.1, o2.2.1]; rfl)]
      refine ⟨rfl, ?_, hfr⟩
      simp only [Option.toList_none, List.append_nil] at h ⊢
      exact h
    | some v =>
      obtain ⟨e1, e2, e3, e4⟩ := o2
      rw [if_neg (by rw [empty_iff, e1, e2]; exact e4), e1, e2, e3]
      refine ⟨rfl, ⟨h.phase.units rfl rfl, .inl ⟨rfl, rfl, none, ⟨rfl, ?_⟩, by simp, by simp⟩⟩, ?_⟩
      · rw [o1]; exact ⟨rfl, rfl, rfl⟩
      · unfold Fresh; rw [o1]; simp [UnitData.empty]
  · exact absurd ⟨rfl, rfl⟩ e

private theorem play_units {d : Descriptors} {c : ProcContext} {ids pids : List (UInt32 × UInt32)} {pm : ParametersManager} {n : UInt32}
    (hr : Ready d c ids pids pm) (hc : ConsistentDescriptors d) (hp : Playable d n) (hn : n ≠ 0) {g : LebGen} {delimiters : Bool}
    {us : List TemporalUnitView} {parts : List (List UInt8)} (hb : List.Forall₂ (UnitBytes g delimiters) us parts) {k : Nat}
    {earlier : List BlockWithData} {em T : List OutputUnit} {st : ProcState} (h : At ids pids pm n k [] earlier em T [] [] st)
    (hfr : Fresh st) (hu : ∀ i (hi : i < us.length), UnitOf d n (k + i) us[i]) (outs : List OutputUnit)
    (ho : em ++ outs = T ++ unitsBack d n k earlier us) : Plays c (parts.map bytesBits) st outs := by
  induction us generalizing parts k earlier em T st outs with
  | nil =>
    cases hb
    obtain ⟨h1, -⟩ := h.flush hfr
    simp only [unitsBack, List.append_nil] at ho
    rw [← h1] at ho
    exact List.append_cancel_left ho
  | cons u us ih =>
    cases hb with
    | @cons _ part _ parts h1 h2 =>
      obtain ⟨f1, f2, f3⟩ := h.flush hfr
      have hstep : ∀ i (hi : i < us.length), UnitOf d n (k + 1 + i) us[i] := fun i hi => by
        have := hu (i + 1) (by simpa using hi)
        simpa [Nat.add_assoc, Nat.add_comm 1] using this
      rw [← f1, List.append_assoc] at ho
      have ho2 := List.append_cancel_left ho
      have hback : ∀ (k : Nat) (earlier : List BlockWithData) (l : List TemporalUnitView), (unitsBack d n k earlier l).length = l.length := by
        intro k earlier l
        induction l generalizing k earlier with
        | nil => rfl
        | cons a l ih => simp only [unitsBack, List.length_cons, ih]
      rw [List.map_cons]
      refine ⟨?_, ?_, ?_⟩
      · rw [ho2, List.length_append, hback, List.length_cons, List.length_map, h2.length_eq]; omega
      · obtain ⟨em1, st1, r1, a1, b1, c1⟩ := run_unit hr hc hp hn h hfr (u := u) (hu 0 (by simp)) h1
        have hsplit : ∃ outs', outs = em1 ++ outs' := by
          obtain ⟨e1, -⟩ := a1.flush b1
          rw [← f1] at e1
          simp only [List.append_assoc, List.append_cancel_left_eq] at e1
          refine ⟨(flushUnit st1).1.toList ++ unitsBack d n (k + 1) (earlier ++ u.blocks) us, ?_⟩
          rw [ho2, ← List.append_assoc, e1]
          simp only [unitsBack, List.append_assoc, List.singleton_append]
        obtain ⟨outs', rfl⟩ := hsplit
        refine ⟨em1, st1, outs', r1, rfl, c1, ih h2 a1 b1 hstep outs' ?_⟩
        rw [List.append_assoc, ho2, ← f1]
        simp only [unitsBack, List.append_assoc, List.singleton_append]
      · obtain ⟨em1, st1, r1, a1, b1, c1⟩ := run_unit hr hc hp hn f2 f3 (u := u) (hu 0 (by simp)) h1
        have hsplit : ∃ outs', unitsBack d n k earlier (u :: us) = em1 ++ outs' := by
          obtain ⟨e1, -⟩ := a1.flush b1
          simp only [List.append_assoc, List.append_cancel_left_eq] at e1
          refine ⟨(flushUnit st1).1.toList ++ unitsBack d n (k + 1) (earlier ++ u.blocks) us, ?_⟩
          rw [← List.append_assoc, e1]
          simp only [unitsBack, List.singleton_append]
        obtain ⟨outs', he⟩ := hsplit
        refine ⟨em1, st1, outs', r1, by rw [ho2, he], c1, ih h2 a1 b1 hstep outs' ?_⟩
        rw [List.append_assoc, ← he]
        simp only [unitsBack, List.append_assoc, List.singleton_append]

private theorem run_units {d : Descriptors} {c : ProcContext} {ids pids : List (UInt32 × UInt32)} {pm : ParametersManager} {n : UInt32}
    (hr : Ready d c ids pids pm) (hc : ConsistentDescriptors d) (hp : Playable d n) (hn : n ≠ 0) {g : LebGen} {delimiters : Bool}
    {us : List TemporalUnitView} {parts : List (List UInt8)} (hb : List.Forall₂ (UnitBytes g delimiters) us parts) {k : Nat}
    {earlier : List BlockWithData} {em T : List OutputUnit} {st : ProcState} (h : At ids pids pm n k [] earlier em T [] [] st)
    (hfr : Fresh st) (hu : ∀ i (hi : i < us.length), UnitOf d n (k + i) us[i]) :
    ∃ em' st', Passes c st (bytesBits parts.flatten) em' st' ∧
      em ++ em' ++ (flushUnit st').1.toList = T ++ unitsBack d n k earlier us := by
  induction us generalizing parts k earlier em T st with
  | nil =>
    cases hb
    refine ⟨[], st, Passes.nil c st, ?_⟩
    rcases h.within with ⟨-, -, pend, ⟨o1, o2⟩, -, rfl⟩ | ⟨e, -⟩
    · simp only [unitsBack, List.append_nil]
      congr 1
      unfold flushUnit
      cases pend with
      | none =>
        obtain ⟨e1, e2, -⟩ := o2
        rw [e1, e2]
        rfl
      | some v =>
        obtain ⟨e1, e2, e3, e4⟩ := o2
        rw [if_neg (by rw [empty_iff, e1, e2]; exact e4), e1, e2, e3]
        rfl
    · exact absurd ⟨rfl, rfl⟩ e
  | cons u us ih =>
    cases hb with
    | cons h1 h2 =>
      obtain ⟨em1, st1, r1, a1, b1, c1⟩ := run_unit hr hc hp hn h hfr (u := u) (hu 0 (by simp)) h1
      obtain ⟨em2, st2, r2, e2⟩ := ih h2 a1 b1 (fun i hi => by
        have := hu (i + 1) (by simpa using hi)
        simpa [Nat.add_assoc, Nat.add_comm 1] using this)
      refine ⟨em1 ++ em2, st2, ?_, ?_⟩
      · rw [List.flatten_cons, bytesBits_append]; exact r1.append r2
      · rw [← List.append_assoc em, e2]
        simp only [unitsBack, List.append_assoc, List.singleton_append]

private theorem processed {c : ProcContext} {calls m : Nat} {st st1 : ProcState} {r : RBuf} {us : List OutputUnit} (hwf : r.WF)
    (hb : r.abs.rest.length < 8 * 4294967295) (hg : st.Good) (hcalls : r.abs.rest.length / 8 < calls)
    (hs : steps c m st r.abs.rest = some (us, st1, [])) :
    processedUnits c calls st r = some (us ++ (flushUnit st1).1.toList) := by
  induction calls generalizing m st r us with
  | zero => omega
  | succ calls ih =>
    have hpos : r.abs.pos ≤ r.abs.src.length := by
      have h1 := r.tell_le hwf
      have h2 := hwf.srcSize_eq
      simp only [RBuf.abs, bytesBits_length]
      omega
    obtain ⟨q1, q2, q3, -⟩ := (processUnit c true st).run_refines r hwf
    obtain ⟨⟨u, cont⟩, st', s', hx⟩ := loop_forward (eos := true) (Q := []) (fuel := (((r.abs.src.length - r.abs.pos) / 8 : Nat) : Int).toNat + 1)
      hpos (by rw [List.append_nil]; exact hb) (by simp only [RS.rest, List.length_drop, Int.toNat_natCast]; omega)
      (by rw [List.append_nil]; exact hs) (stuck_nil c st1)
    have hrun : (processUnit c true st).runA r.abs = (.ok (.ok (u, cont), st'), s') := by
      unfold processUnit; simp only [Rd.runA]; exact hx
    obtain ⟨n, us', st2, k1, k2⟩ := loop_steps hpos hb hx (Good.nextTimestamp hg)
    have k1 := k1 []
    simp only [List.append_nil] at k1
    obtain ⟨hle, ws, rfl, hrest⟩ := steps_stuck hs (stuck_nil c st1) k1
    match hy : (processUnit c true st).run r with
    | (x, r') =>
      rw [hy, hrun] at q1 q3
      rw [hy] at q2
      simp only at q1 q2 q3
      subst q1
      unfold processedUnits
      rw [hy]
      rcases k2 with ⟨rfl, rfl, rfl, hlen⟩ | ⟨rfl, rfl, hst, hlen, hfl⟩
      · simp only
        rw [ih q2 (by rw [q3]; omega) (steps_good hg hb k1).1 (by rw [q3]; omega) (by rw [q3]; exact hrest)]
        simp
      · simp only
        have h0 : n = m := by
          obtain ⟨h1, -⟩ := steps_stuck k1 hst hs
          omega
        subst h0
        rw [Nat.sub_self] at hrest
        simp only [steps, Option.some.injEq, Prod.mk.injEq] at hrest
        obtain ⟨rfl, rfl, -⟩ := hrest
        simp only [↓reduceIte] at hfl
        rw [← hfl]
        simp

/-- Processing the bytes of temporal units, step by step. -/
theorem units_steps {d : Descriptors} {n : UInt32} (hn : n ≠ 0) (hd : ConsistentDescriptors d) (hp : Playable d n)
    {c : ProcContext} {st : ProcState} (hinit : initProcessor d = .ok (c, st)) {g : LebGen} {delimiters : Bool} {us : List TemporalUnitView}
    (hu : ∀ k (hk : k < us.length), UnitOf d n k us[k]) {parts : List (List UInt8)} (hw : List.Forall₂ (UnitBytes g delimiters) us parts) :
    ∃ m em st', steps c m st (bytesBits parts.flatten) = some (em, st', []) ∧
      em ++ (flushUnit st').1.toList = unitsBack d n 0 [] us ∧ st.Good ∧ Solid c m st (bytesBits parts.flatten) := by
  obtain ⟨ids, pids, pm, hr, rfl⟩ := ready hinit hd.elementIds (fun x hx => (hp.layers x hx).2)
  have h0 : At ids pids pm n 0 [] [] [] [] [] [] ⟨⟨tab ids (fun _ => 0), tab pids (fun _ => 0)⟩, pm, .empty, .empty⟩ := by
    refine ⟨⟨?_, ?_, rfl⟩, .inl ⟨rfl, rfl, none, ⟨rfl, rfl, rfl, rfl⟩, by simp, rfl⟩⟩
    · simp [Nat.zero_mul]
    · simp [elapsed]
  obtain ⟨em, st', ⟨m, hm⟩, he⟩ := run_units hr hd hp hn hw h0 (by simp [Fresh, UnitData.empty]) (fun i hi => by rw [Nat.zero_add]; exact hu i hi)
  have := hm []
  rw [List.append_nil] at this
  exact ⟨m, em, st', this.1, by simpa using he, ⟨rfl, by simp [UnitData.empty]⟩, this.2⟩

/-- Temporal units, processed unit by unit. -/
theorem units_play {d : Descriptors} {n : UInt32} (hn : n ≠ 0) (hd : ConsistentDescriptors d) (hp : Playable d n)
    {c : ProcContext} {st : ProcState} (hinit : initProcessor d = .ok (c, st)) {g : LebGen} {delimiters : Bool} {us : List TemporalUnitView}
    (hu : ∀ k (hk : k < us.length), UnitOf d n k us[k]) {parts : List (List UInt8)} (hw : List.Forall₂ (UnitBytes g delimiters) us parts) :
    Plays c (parts.map bytesBits) st (unitsBack d n 0 [] us) ∧ flushUnit st = (none, st) := by
  obtain ⟨ids, pids, pm, hr, rfl⟩ := ready hinit hd.elementIds (fun x hx => (hp.layers x hx).2)
  have h0 : At ids pids pm n 0 [] [] [] [] [] [] ⟨⟨tab ids (fun _ => 0), tab pids (fun _ => 0)⟩, pm, .empty, .empty⟩ := by
    refine ⟨⟨?_, ?_, rfl⟩, .inl ⟨rfl, rfl, none, ⟨rfl, rfl, rfl, rfl⟩, by simp, rfl⟩⟩
    · simp [Nat.zero_mul]
    · simp [elapsed]
  exact ⟨play_units hr hd hp hn hw h0 (by simp [Fresh, UnitData.empty]) (fun i hi => by rw [Nat.zero_add]; exact hu i hi) _ rfl, rfl⟩

/-- **C35 (written units come back).** Temporal units of a sequence, written with or without temporal delimiters and with OBUs of other
types among them, come back from the processor: all audio frames with their times, in their order; and the parameter blocks
that are in time.  For any number of units, of substreams and of parameters, any frame size, and a read buffer of any capacity. -/
theorem C35_units_come_back (d : Descriptors) (n : UInt32) (hn : n ≠ 0) (hd : ConsistentDescriptors d) (hp : Playable d n)
    (c : ProcContext) (st : ProcState) (hinit : initProcessor d = .ok (c, st)) (g : LebGen) (delimiters : Bool) (us : List TemporalUnitView)
    (hu : ∀ k (hk : k < us.length), UnitOf d n k us[k]) (parts : List (List UInt8)) (hw : List.Forall₂ (UnitBytes g delimiters) us parts)
    (hlen : parts.flatten.length < 4294967295) (cap : Nat) (hcap : 0 < cap) (pv : Bool) (calls : Nat)
    (hcalls : parts.flatten.length < calls) :
    processedUnits c calls st (RBuf.create cap parts.flatten pv) = some (unitsBack d n 0 [] us) := by
  obtain ⟨m, em, st', hm, he, hg, -⟩ := units_steps hn hd hp hinit hu hw
  have hrest : (RBuf.create cap parts.flatten pv).abs.rest = bytesBits parts.flatten := by
    rw [RBuf.abs_create]; rfl
  have hl : (bytesBits parts.flatten).length = 8 * parts.flatten.length := bytesBits_length _
  rw [processed (st1 := st') (us := em) (m := m) (RBuf.wf_create _ _ _ (.inl hcap)) (by rw [hrest]; omega) hg
    (by rw [hrest]; omega) (by rw [hrest]; exact hm), he]

/-- Every unit has a block of every parameter that any unit has a block of, and all blocks last as long as the audio frames. -/
def Gapless (n : UInt32) (us : List TemporalUnitView) : Prop :=
  ∀ u ∈ us, (∀ b ∈ u.blocks, (b.obu.durationIn b.definition) = n) ∧
    ∀ v ∈ us, ∀ b ∈ v.blocks, b.obu.parameterId ∈ u.blocks.map (·.obu.parameterId)

/-- **C35 (all of it comes back).** If the blocks of the parameters leave no gaps then all that was written comes back. -/
theorem C35_gapless_units_come_back (d : Descriptors) (n : UInt32) (hn : n ≠ 0) (hd : ConsistentDescriptors d) (hp : Playable d n)
    (c : ProcContext) (st : ProcState) (hinit : initProcessor d = .ok (c, st)) (g : LebGen) (delimiters : Bool) (us : List TemporalUnitView)
    (hu : ∀ k (hk : k < us.length), UnitOf d n k us[k]) (hgap : Gapless n us) (parts : List (List UInt8))
    (hw : List.Forall₂ (UnitBytes g delimiters) us parts)
    (hlen : parts.flatten.length < 4294967295) (cap : Nat) (hcap : 0 < cap) (pv : Bool) (calls : Nat)
    (hcalls : parts.flatten.length < calls) :
    processedUnits c calls st (RBuf.create cap parts.flatten pv) =
      some (us.mapIdx fun k u => ⟨u.frames.map (frameBack d), u.blocks.map blockBack, (k * n.toNat : Nat)⟩) := by
  rw [C35_units_come_back d n hn hd hp c st hinit g delimiters us hu parts hw hlen cap hcap pv calls hcalls]
  congr 1
  have gen : ∀ (us : List TemporalUnitView) (k : Nat) (earlier : List BlockWithData), Gapless n us →
      (∀ u ∈ us, (u.blocks.map (·.obu.parameterId)).Nodup) →
      (∀ u ∈ us, ∀ b ∈ u.blocks, elapsed b.obu.parameterId earlier = k * n.toNat) →
      unitsBack d n k earlier us =
        us.mapIdx fun i u => ⟨u.frames.map (frameBack d), u.blocks.map blockBack, ((k + i) * n.toNat : Nat)⟩ := by
    intro us
    induction us with
    | nil => intros; rfl
    | cons u us ih =>
      intro k earlier hg hnd he
      rw [List.mapIdx_cons]
      simp only [unitsBack]
      have h1 : (u.blocks.filter fun b => decide (elapsed b.obu.parameterId earlier = k * n.toNat)) = u.blocks := by
        rw [List.filter_eq_self]
        intro b hb
        simpa using he u List.mem_cons_self b hb
      rw [h1, Nat.add_zero]
      congr 1
      rw [ih (k + 1) (earlier ++ u.blocks) (fun v hv => ⟨(hg v (List.mem_cons_of_mem _ hv)).1, fun w hw =>
        (hg v (List.mem_cons_of_mem _ hv)).2 w (List.mem_cons_of_mem _ hw)⟩) (fun v hv => hnd v (List.mem_cons_of_mem _ hv)) ?_]
      · congr 1
        funext i v
        rw [Nat.add_assoc, Nat.add_comm 1 i]
      · intro v hv b hb
        rw [elapsed_append, he v (List.mem_cons_of_mem _ hv) b hb]
        have hone : elapsed b.obu.parameterId u.blocks = n.toNat := by
          have hmem := (hg u List.mem_cons_self).2 v (List.mem_cons_of_mem _ hv) b hb
          have hdur := (hg u List.mem_cons_self).1
          have hnu := hnd u List.mem_cons_self
          clear h1 hg he hnd hb hv ih
          generalize u.blocks = l at *
          induction l with
          | nil => simp at hmem
          | cons a l ihl =>
            have hsplit : elapsed b.obu.parameterId (a :: l) = elapsed b.obu.parameterId [a] + elapsed b.obu.parameterId l :=
              elapsed_append _ [a] l
            rw [hsplit]
            simp only [List.map_cons, List.nodup_cons] at hnu
            by_cases ha : a.obu.parameterId = b.obu.parameterId
            · rw [elapsed_none (l := l) (by rw [← ha]; exact hnu.1)]
              simp [elapsed, ha, hdur a List.mem_cons_self]
            · rw [elapsed_none (l := [a]) (by simpa using fun e => ha e.symm), Nat.zero_add]
              refine ihl ?_ (fun y hy => hdur y (List.mem_cons_of_mem _ hy)) hnu.2
              simp only [List.map_cons, List.mem_cons] at hmem
              exact hmem.resolve_left fun e => ha e.symm
        rw [hone, Nat.add_mul, Nat.one_mul]
  rw [gen us 0 [] hgap ?_ ?_]
  · simp only [Nat.zero_add]
  · intro u hu2
    obtain ⟨k, hk, rfl⟩ := List.getElem_of_mem hu2
    exact (hu k hk).blocks
  · intros; simp [elapsed]

end Iamf.Props
