import Verif.Cli.Render
import Verif.Props.Demix
import Verif.Props.Labels
import Verif.Props.Reorder
/-
  C39: rendering one audio element to a layout.
-/
namespace Iamf.Props
open Iamf

/-! ### Specification -/

/-- How many samples are trimmed at the start and at the end of a frame. -/
def startOf (t : TrimmingSettings) (f : RenderFrame) : Nat := if t.beginning then f.trimStart.toNat else 0

def endOf (t : TrimmingSettings) (f : RenderFrame) : Nat := if t.ending then f.trimEnd.toNat else 0

/-- The frame has samples, `n` of them, for every channel that is not left out, and there is such a channel. -/
def HasTicks (f : RenderFrame) (labels : List Label) (n : Nat) : Prop :=
  (∃ l ∈ labels, l ≠ .omitted) ∧ ∀ l ∈ labels, l ≠ .omitted → ∃ s, findSamples l f.samples = .ok s ∧ s.length = n

/-- The sample of a channel at a time; channels that are left out are silent. -/
def sampleOf (f : RenderFrame) (l : Label) (i : Nat) : Rat :=
  if l = .omitted then 0
  else match findSamples l f.samples with
    | .ok s => s[i]?.getD 0
    | .error _ => 0

/-- The samples of a frame that remain after trimming, for these channels. -/
def trimmedSamples (f : RenderFrame) (t : TrimmingSettings) (labels : List Label) (ticks : Nat) : Rendered :=
  labels.map fun l => (List.range ticks).map fun i => sampleOf f l (startOf t f + i)

/-- A frame that can be rendered: it has samples for the channels, no more than a frame may have, and not fewer than are to be
trimmed.  `ticks` samples remain. -/
def Renderable (f : RenderFrame) (t : TrimmingSettings) (labels : List Label) (frameSize ticks : Nat) : Prop :=
  ∃ n, HasTicks f labels n ∧ n ≤ frameSize ∧ startOf t f + ticks + endOf t f = n

/-- A matrix with so many rows and columns. -/
def MatrixShape (g : GainMatrix) (rows columns : Nat) : Prop := g.length = rows ∧ ∀ r ∈ g, r.length = columns

/-- The entry of a matrix. -/
def entry (g : GainMatrix) (i o : Nat) : Rat := ((g[i]?.bind (·[o]?)).getD 0)

/-! ### Arranging -/

private theorem except_bind_ok {α β : Type} {x : Except Err α} {f : α → Except Err β} {b : β} (h : (x >>= f) = .ok b) :
    ∃ a, x = .ok a ∧ f a = .ok b := by
  cases x with
  | error e => cases h
  | ok a => exact ⟨a, rfl, h⟩

private theorem mapM_ok {α β : Type} (f : α → Except Err β) (g : α → β) (l : List α) (h : ∀ x ∈ l, f x = .ok (g x)) :
    l.mapM f = .ok (l.map g) := by
  induction l with
  | nil => rfl
  | cons a l ih =>
    rw [List.mapM_cons, h a (by simp), ih fun x hx => h x (by simp [hx])]
    rfl

private theorem find_mild {l : Label} {m : SamplesMap} {e : Err} (h : findSamples l m = .error e) : e.fatal = false := by
  unfold findSamples at h
  split at h
  · cases h
  · cases hd : demixedLabel l with
    | error e' =>
      rw [hd] at h
      simp only [Bind.bind, Except.bind, Except.error.injEq] at h
      subst h
      unfold demixedLabel at hd
      split at hd <;> first | cases hd; done | (simp only [Except.error.injEq] at hd; subst hd; rfl)
    | ok d =>
      rw [hd] at h
      simp only [Bind.bind, Except.bind] at h
      split at h
      · cases h
      · simp only [Except.error.injEq] at h
        subst h
        rfl

private theorem raw_some (m : SamplesMap) : ∀ (ls : List Label) (k : Nat),
    match rawTicks m ls (some k) with
    | .ok n => n = k ∧ ∀ l ∈ ls, l ≠ .omitted → ∃ s, findSamples l m = .ok s ∧ s.length = k
    | .error e => e.fatal = false ∧ ¬ ∀ l ∈ ls, l ≠ .omitted → ∃ s, findSamples l m = .ok s ∧ s.length = k
  | [], k => ⟨rfl, by simp⟩
  | l :: ls, k => by
    have ih := raw_some m ls k
    unfold rawTicks
    by_cases ho : l = .omitted
    · rw [if_pos ho]
      split <;> rename_i heq <;> rw [heq] at ih <;> simp only at ih
      · refine ⟨ih.1, ?_⟩
        intro x hx hne
        rcases List.mem_cons.mp hx with rfl | hx
        · exact absurd ho hne
        · exact ih.2 x hx hne
      · exact ⟨ih.1, fun hc => ih.2 fun x hx => hc x (List.mem_cons_of_mem _ hx)⟩
    · rw [if_neg ho]
      cases hf : findSamples l m with
      | error e =>
        simp only [Bind.bind, Except.bind]
        refine ⟨find_mild hf, fun hc => ?_⟩
        obtain ⟨s, h1, -⟩ := hc l (by simp) ho
        rw [hf] at h1; cases h1
      | ok s =>
        simp only [Bind.bind, Except.bind]
        by_cases hk : k = s.length
        · rw [if_neg (by simpa using hk)]
          split <;> rename_i heq <;> rw [heq] at ih <;> simp only at ih
          · refine ⟨ih.1, ?_⟩
            intro x hx hne
            rcases List.mem_cons.mp hx with rfl | hx
            · exact ⟨s, hf, hk.symm⟩
            · exact ih.2 x hx hne
          · exact ⟨ih.1, fun hc => ih.2 fun x hx => hc x (List.mem_cons_of_mem _ hx)⟩
        · rw [if_pos hk]
          refine ⟨rfl, fun hc => ?_⟩
          obtain ⟨s', h1, h2⟩ := hc l (by simp) ho
          rw [hf, Except.ok.injEq] at h1
          subst h1
          exact hk h2.symm

private theorem raw_none (f : RenderFrame) : ∀ ls : List Label,
    match rawTicks f.samples ls none with
    | .ok n => HasTicks f ls n
    | .error e => e.fatal = false ∧ ¬ ∃ n, HasTicks f ls n
  | [] => ⟨rfl, by rintro ⟨n, ⟨l, h, -⟩, -⟩; simp at h⟩
  | l :: ls => by
    have ih := raw_none f ls
    unfold rawTicks
    by_cases ho : l = .omitted
    · rw [if_pos ho]
      split <;> rename_i heq <;> rw [heq] at ih <;> simp only at ih
      · obtain ⟨⟨x, h1, h2⟩, h3⟩ := ih
        refine ⟨⟨x, List.mem_cons_of_mem _ h1, h2⟩, ?_⟩
        intro x hx hne
        rcases List.mem_cons.mp hx with rfl | hx
        · exact absurd ho hne
        · exact h3 x hx hne
      · refine ⟨ih.1, ?_⟩
        rintro ⟨n, ⟨x, h1, h2⟩, h3⟩
        refine ih.2 ⟨n, ⟨x, ?_, h2⟩, fun y hy => h3 y (List.mem_cons_of_mem _ hy)⟩
        rcases List.mem_cons.mp h1 with rfl | h1
        · exact absurd ho h2
        · exact h1
    · rw [if_neg ho]
      cases hf : findSamples l f.samples with
      | error e =>
        simp only [Bind.bind, Except.bind]
        refine ⟨find_mild hf, ?_⟩
        rintro ⟨n, -, hc⟩
        obtain ⟨s, h1, -⟩ := hc l (by simp) ho
        rw [hf] at h1; cases h1
      | ok s =>
        simp only [Bind.bind, Except.bind]
        have := raw_some f.samples ls s.length
        split <;> rename_i heq <;> rw [heq] at this <;> simp only at this
        · obtain ⟨rfl, h2⟩ := this
          refine ⟨⟨l, by simp, ho⟩, ?_⟩
          intro x hx hne
          rcases List.mem_cons.mp hx with rfl | hx
          · exact ⟨s, hf, rfl⟩
          · exact h2 x hx hne
        · refine ⟨this.1, ?_⟩
          rintro ⟨n, -, hc⟩
          obtain ⟨s', h1, h2⟩ := hc l (by simp) ho
          rw [hf, Except.ok.injEq] at h1
          subst h1
          subst h2
          exact this.2 fun x hx => hc x (List.mem_cons_of_mem _ hx)

private theorem HasTicks.unique {f : RenderFrame} {ls : List Label} {n k : Nat} (h : HasTicks f ls n) (h' : HasTicks f ls k) : n = k := by
  obtain ⟨⟨l, h1, h2⟩, h3⟩ := h
  obtain ⟨s, a, b⟩ := h3 l h1 h2
  obtain ⟨s', a', b'⟩ := h'.2 l h1 h2
  rw [a, Except.ok.injEq] at a'
  subst a'
  omega

private theorem atStart_nat (t : TrimmingSettings) (f : RenderFrame) : (t.atStart f).toNat = startOf t f := by
  unfold TrimmingSettings.atStart startOf; split <;> rfl

private theorem atEnd_nat (t : TrimmingSettings) (f : RenderFrame) : (t.atEnd f).toNat = endOf t f := by
  unfold TrimmingSettings.atEnd endOf; split <;> rfl

private theorem ticks_spec (f : RenderFrame) (labels : List Label) (frameSize : Nat) (hf : frameSize < 4294967296) (t : TrimmingSettings) :
    match trimmedTicks f labels frameSize t with
    | .ok ticks => Renderable f t labels frameSize ticks
    | .error e => e.fatal = false ∧ ¬ ∃ ticks, Renderable f t labels frameSize ticks := by
  unfold trimmedTicks
  have hr := raw_none f labels
  cases hraw : rawTicks f.samples labels none with
  | error e =>
    rw [hraw] at hr
    simp only at hr
    simp only [Bind.bind, Except.bind]
    exact ⟨hr.1, fun ⟨ticks, n, h, _⟩ => hr.2 ⟨n, h⟩⟩
  | ok n =>
    rw [hraw] at hr
    simp only at hr
    simp only [Bind.bind, Except.bind]
    have uniq : ∀ ticks, Renderable f t labels frameSize ticks → n ≤ frameSize ∧ startOf t f + ticks + endOf t f = n := by
      rintro ticks ⟨k, h1, h2, h3⟩
      obtain rfl := hr.unique h1
      exact ⟨h2, h3⟩
    by_cases h1 : frameSize < n
    · rw [if_pos h1]
      refine ⟨rfl, ?_⟩
      rintro ⟨ticks, h⟩
      have := (uniq ticks h).1
      omega
    · rw [if_neg h1]
      unfold addUint32CheckOverflow
      by_cases h2 : (t.atStart f).toNat + (t.atEnd f).toNat > 4294967295
      · rw [if_pos h2]
        refine ⟨rfl, ?_⟩
        rintro ⟨ticks, h⟩
        have := (uniq ticks h).2
        rw [atStart_nat, atEnd_nat] at h2
        omega
      · rw [if_neg h2]
        simp only
        have h3 : (UInt32.ofNat ((t.atStart f).toNat + (t.atEnd f).toNat)).toNat = startOf t f + endOf t f := by
          rw [UInt32.toNat_ofNat', Nat.mod_eq_of_lt (by omega), atStart_nat, atEnd_nat]
        rw [h3]
        by_cases h4 : n < startOf t f + endOf t f
        · rw [if_pos h4]
          refine ⟨rfl, ?_⟩
          rintro ⟨ticks, h⟩
          have := (uniq ticks h).2
          omega
        · rw [if_neg h4, atStart_nat, atEnd_nat]
          exact ⟨n, hr, by omega, by omega⟩

private theorem arranged (f : RenderFrame) (labels : List Label) (frameSize : Nat) (t : TrimmingSettings) (ticks : Nat)
    (h : Renderable f t labels frameSize ticks) :
    labels.mapM (arrangeChannel f frameSize t ticks) = .ok (trimmedSamples f t labels ticks) := by
  refine mapM_ok _ _ _ fun l hl => ?_
  obtain ⟨n, ⟨-, h1⟩, h2, h3⟩ := h
  unfold arrangeChannel
  rw [atStart_nat]
  by_cases ho : l = .omitted
  · rw [if_pos ho]
    simp only [Bind.bind, Except.bind, Except.ok.injEq]
    subst ho
    refine List.ext_getElem? fun i => ?_
    rw [List.drop_replicate, List.take_replicate]
    simp only [List.getElem?_replicate, List.getElem?_map, List.getElem?_range', sampleOf, if_pos]
    by_cases hi : i < ticks
    · rw [if_pos (by omega), List.getElem?_range hi]; rfl
    · rw [if_neg (by omega), List.getElem?_eq_none (by simp; omega)]; rfl
  · rw [if_neg ho]
    obtain ⟨s, a, b⟩ := h1 l hl ho
    rw [a]
    simp only [Bind.bind, Except.bind, Except.ok.injEq]
    refine List.ext_getElem? fun i => ?_
    simp only [List.getElem?_take, List.getElem?_drop, List.getElem?_map, sampleOf, if_neg ho, a]
    by_cases hi : i < ticks
    · rw [if_pos hi, List.getElem?_range hi, Option.map_some, List.getElem?_eq_getElem (by omega)]
      rfl
    · rw [if_neg hi, List.getElem?_eq_none (by simp; omega)]
      rfl

private theorem arrange_spec (f : RenderFrame) (labels : List Label) (hl : labels ≠ []) (frameSize : Nat)
    (hf : frameSize < 4294967296) (t : TrimmingSettings) :
    match arrangeSamples f labels frameSize t with
    | .ok (out, ticks) => Renderable f t labels frameSize ticks ∧ out = trimmedSamples f t labels ticks
    | .error e => e.fatal = false ∧ ¬ ∃ ticks, Renderable f t labels frameSize ticks := by
  have := ticks_spec f labels frameSize hf t
  unfold arrangeSamples
  rw [if_neg hl]
  cases ht : trimmedTicks f labels frameSize t with
  | error e =>
    rw [ht] at this
    exact this
  | ok ticks =>
    rw [ht] at this
    simp only at this
    simp only [Bind.bind, Except.bind, arranged f labels frameSize t ticks this]
    exact ⟨this, trivial⟩

/-- **C39 (pass-through).** A renderer that passes channels through gives, for every channel of the layout and every sample that is not
trimmed, exactly the sample of the frame, and silence for channels that the audio element does not have.  It fails exactly if the frame
cannot be rendered. -/
theorem C39_pass_through_is_exact (labels : List Label) (hl : labels ≠ []) (frameSize : Nat) (hf : frameSize < 4294967296)
    (t : TrimmingSettings) (f : RenderFrame) :
    match (ElementRenderer.passThrough labels).render frameSize t f with
    | .ok (out, ticks) => Renderable f t labels frameSize ticks ∧ out = trimmedSamples f t labels ticks
    | .error e => e.fatal = false ∧ ¬ ∃ ticks, Renderable f t labels frameSize ticks :=
  arrange_spec f labels hl frameSize hf t

/-- Not vacuous: mono and left/right top front in 5.1.4, with one sample trimmed at each end. -/
def exampleTop : RenderFrame :=
  ⟨fun l => if l = .ltf4 then some [1, 2, 3, 4] else if l = .rtf4 then some [5, 6, 7, 8] else none, 1, 1, ⟨10000, 8660, 8660, 8660, -1, 0, 0, true⟩⟩

example : (ElementRenderer.passThrough [.l5, .r5, .ltf4, .rtf4]).render 4 ⟨true, true⟩ exampleTop = .error .invalidArgument ∧
    (ElementRenderer.passThrough [.omitted, .ltf4, .rtf4]).render 4 ⟨true, true⟩ exampleTop = .ok ([[0, 0], [2, 3], [6, 7]], 2) ∧
    (ElementRenderer.passThrough [.omitted, .ltf4, .rtf4]).render 3 ⟨true, true⟩ exampleTop = .error .invalidArgument := by
  decide +kernel

/-! ### Matrices -/

private theorem addScaled_spec (o ticks : Nat) : ∀ (ss : Rendered) (rows : GainMatrix) (acc : Samples),
    acc.length = ticks → (∀ s ∈ ss, s.length = ticks) → ss.length ≤ rows.length → (∀ r ∈ rows, o < r.length) →
    addScaled o ss rows acc = .ok ((List.range ticks).map fun i =>
      acc[i]?.getD 0 + ((ss.zip rows).map fun x => x.1[i]?.getD 0 * x.2[o]?.getD 0).sum)
  | [], rows, acc, ha, _, _, _ => by
    simp only [addScaled, List.zip_nil_left, List.map_nil, List.sum_nil, add_zero, Except.ok.injEq]
    refine List.ext_getElem? fun i => ?_
    rw [List.getElem?_map]
    by_cases hi : i < ticks
    · rw [List.getElem?_range hi, Option.map_some, List.getElem?_eq_getElem (by omega)]; rfl
    · rw [List.getElem?_eq_none (by omega), List.getElem?_eq_none (by simp; omega)]; rfl
  | s :: ss, [], acc, _, _, hl, _ => by simp at hl
  | s :: ss, row :: rows, acc, ha, hs, hl, hr => by
    have h1 := hs s (by simp)
    have h2 := hr row (by simp)
    unfold addScaled
    rw [List.getElem?_eq_getElem h2]
    simp only
    rw [addScaled_spec o ticks ss rows _ (by simp [ha, h1]) (fun x hx => hs x (by simp [hx])) (by simpa using hl)
      (fun x hx => hr x (by simp [hx]))]
    rw [Except.ok.injEq]
    refine List.map_congr_left fun i hi => ?_
    have hi : i < ticks := by simpa using hi
    simp only [List.zip_cons_cons, List.map_cons, List.sum_cons, List.getElem?_zipWith, List.getElem?_eq_getElem (show i < acc.length by omega),
      List.getElem?_eq_getElem (show i < s.length by omega), List.getElem?_eq_getElem h2, Option.getD_some]
    ring

private theorem trimmed_lengths {f : RenderFrame} {t : TrimmingSettings} {labels : List Label} {ticks : Nat} :
    ∀ s ∈ trimmedSamples f t labels ticks, s.length = ticks := by
  intro s hs
  unfold trimmedSamples at hs
  simp only [List.mem_map] at hs
  obtain ⟨l, -, rfl⟩ := hs
  simp

/-- The samples that remain of a frame, times a matrix of gains. -/
def weighted (f : RenderFrame) (t : TrimmingSettings) (labels : List Label) (ticks : Nat) (g : GainMatrix) (columns : Nat) : Rendered :=
  (List.range columns).map fun o => (List.range ticks).map fun i =>
    ((labels.zip g).map fun x => sampleOf f x.1 (startOf t f + i) * x.2[o]?.getD 0).sum

private theorem gains_spec {f : RenderFrame} {t : TrimmingSettings} {labels : List Label} (hl : labels ≠ []) {ticks : Nat} {g : GainMatrix}
    {rows columns : Nat} (hg : MatrixShape g rows columns) (hr : labels.length ≤ rows) :
    renderWithGains (trimmedSamples f t labels ticks) g = .ok (weighted f t labels ticks g columns) := by
  obtain ⟨hg1, hg2⟩ := hg
  have hlen : (trimmedSamples f t labels ticks).length = labels.length := by unfold trimmedSamples; simp
  have hpos : 0 < labels.length := List.length_pos_iff.mpr hl
  have hgne : g ≠ [] := by rintro rfl; simp at hg1; omega
  have hhead : (((trimmedSamples f t labels ticks).head?).getD []).length = ticks := by
    cases h : trimmedSamples f t labels ticks with
    | nil => rw [h] at hlen; simp at hlen; omega
    | cons a l => exact trimmed_lengths a (by rw [h]; simp)
  have hcol : ((g.head?).getD []).length = columns := by
    cases h : g with
    | nil => exact absurd h hgne
    | cons a l => exact hg2 a (by rw [h]; simp)
  unfold renderWithGains
  simp only [hhead, hcol]
  rw [if_neg (by rintro (h | h); exact hgne h; omega), if_neg (by
    simp only [List.any_eq_true, decide_eq_true_eq, not_exists, not_and, ne_eq, Decidable.not_not]
    exact fun s hs => trimmed_lengths s hs)]
  refine mapM_ok _ _ _ fun o ho => ?_
  have ho : o < columns := by simpa using ho
  rw [addScaled_spec o ticks _ _ _ (by simp) trimmed_lengths (by omega) (fun r h => by rw [hg2 r h]; exact ho), Except.ok.injEq]
  refine List.map_congr_left fun i hi => ?_
  have hi : i < ticks := by simpa using hi
  simp only [List.getElem?_replicate, if_pos hi, Option.getD_some, zero_add, trimmedSamples, List.zip_map_left, List.map_map]
  congr 1
  refine List.map_congr_left fun x _ => ?_
  simp [List.getElem?_range hi]

private theorem matrix_spec (labels : List Label) (hl : labels ≠ []) (frameSize : Nat) (hf : frameSize < 4294967296)
    (t : TrimmingSettings) (f : RenderFrame) (g : GainMatrix) {rows columns : Nat} (hg : MatrixShape g rows columns) (hr : labels.length ≤ rows) :
    match (do
      let (s, n) ← arrangeSamples f labels frameSize t
      let r ← renderWithGains s g
      .ok (r, n) : Except Err (Rendered × Nat)) with
    | .ok (out, ticks) => Renderable f t labels frameSize ticks ∧ out = weighted f t labels ticks g columns
    | .error e => e.fatal = false ∧ ¬ ∃ ticks, Renderable f t labels frameSize ticks := by
  have := arrange_spec f labels hl frameSize hf t
  cases ha : arrangeSamples f labels frameSize t with
  | error e =>
    rw [ha] at this
    exact this
  | ok x =>
    obtain ⟨s, n⟩ := x
    rw [ha] at this
    simp only at this
    obtain ⟨h1, rfl⟩ := this
    simp only [Bind.bind, Except.bind, gains_spec hl hg hr]
    exact ⟨h1, trivial⟩

/-- **C39 (gains).** Rendering ambisonics multiplies the trimmed samples with the matrix of gains of the renderer: every output sample is
the sum over the input channels of sample times gain. -/
theorem C39_scene_rendering (labels : List Label) (hl : labels ≠ []) (frameSize : Nat) (hf : frameSize < 4294967296)
    (t : TrimmingSettings) (f : RenderFrame) (g : GainMatrix) (rows columns : Nat) (hg : MatrixShape g rows columns)
    (hr : labels.length ≤ rows) :
    match (ElementRenderer.scene labels g).render frameSize t f with
    | .ok (out, ticks) => Renderable f t labels frameSize ticks ∧ out = weighted f t labels ticks g columns
    | .error e => e.fatal = false ∧ ¬ ∃ ticks, Renderable f t labels frameSize ticks :=
  matrix_spec labels hl frameSize hf t f g hg hr

/-- **C39 (channels, precomputed gains).** So does rendering channels when the bitstream has no down-mixing parameters, or the layouts are
not among those which parameters are used for. -/
theorem C39_channel_rendering (labels : List Label) (hl : labels ≠ []) (frameSize : Nat) (hf : frameSize < 4294967296)
    (t : TrimmingSettings) (f : RenderFrame) (input output : LayoutKey) (g : GainMatrix) (rows columns : Nat) (hg : MatrixShape g rows columns)
    (hr : labels.length ≤ rows)
    (hd : f.mixing.inBitstream = false ∨ input ≠ .k4_7_0 ∨ output ≠ .k3_1_2 ∧ output ≠ .k7_1_2) :
    match (ElementRenderer.channels labels input output g).render frameSize t f with
    | .ok (out, ticks) => Renderable f t labels frameSize ticks ∧ out = weighted f t labels ticks g columns
    | .error e => e.fatal = false ∧ ¬ ∃ ticks, Renderable f t labels frameSize ticks := by
  have hnone : dynamicGains f.mixing input output = none := by
    unfold dynamicGains
    split
    · rfl
    · split
      · rfl
      · rename_i h1 h2
        unfold computeGains
        rcases hd with h | h | ⟨h, h'⟩
        · simp [h] at h1
        · simp [h]
        · simp [h, h']
  unfold ElementRenderer.render
  simp only [hnone, Option.getD_none]
  exact matrix_spec labels hl frameSize hf t f g hg hr

/-- The channels of 7.1.4. -/
def sevenOneFour : List Label := [.l7, .r7, .centre, .lfe, .lss7, .rss7, .lrs7, .rrs7, .ltf4, .rtf4, .ltb4, .rtb4]

/-- The down-mix of what remains of a frame to other channels, by the formulas of IAMF (`Spec.channel`, C28). -/
def downMixed (f : RenderFrame) (t : TrimmingSettings) (labels : List Label) (ticks : Nat) : Rendered :=
  labels.map fun l => (List.range ticks).map fun i =>
    Spec.channel sevenOneFour f.mixing.factors (fun x => sampleOf f x (startOf t f + i)) l

private theorem dynamic_spec (frameSize : Nat) (hf : frameSize < 4294967296)
    (t : TrimmingSettings) (f : RenderFrame) (output : LayoutKey) (g g' : GainMatrix) (columns : Nat) (labels : List Label)
    (hd : dynamicGains f.mixing .k4_7_0 output = some g') (hg : MatrixShape g' 12 columns)
    (hw : ∀ ticks, weighted f t sevenOneFour ticks g' columns = downMixed f t labels ticks) :
    match (ElementRenderer.channels sevenOneFour .k4_7_0 output g).render frameSize t f with
    | .ok (out, ticks) => Renderable f t sevenOneFour frameSize ticks ∧ out = downMixed f t labels ticks
    | .error e => e.fatal = false ∧ ¬ ∃ ticks, Renderable f t sevenOneFour frameSize ticks := by
  unfold ElementRenderer.render
  simp only [hd, Option.getD_some, ← hw]
  exact matrix_spec sevenOneFour (by simp [sevenOneFour]) frameSize hf t f g' hg (by simp [sevenOneFour])

/-- **C39 (down-mixing parameters, 3.1.2).** If the bitstream has down-mixing parameters then 7.1.4 is rendered to 3.1.2 by the
down-mixing formulas with these parameters, whatever the precomputed gains. -/
theorem C39_down_mixing_to_3_1_2 (frameSize : Nat) (hf : frameSize < 4294967296) (t : TrimmingSettings) (f : RenderFrame)
    (hb : f.mixing.inBitstream = true) (g : GainMatrix) :
    match (ElementRenderer.channels sevenOneFour .k4_7_0 .k3_1_2 g).render frameSize t f with
    | .ok (out, ticks) => Renderable f t sevenOneFour frameSize ticks ∧
      out = downMixed f t [.l3, .r3, .centre, .lfe, .ltf3, .rtf3] ticks
    | .error e => e.fatal = false ∧ ¬ ∃ ticks, Renderable f t sevenOneFour frameSize ticks := by
  refine dynamic_spec frameSize hf t f .k3_1_2 g _ 6 _ (by
    unfold dynamicGains computeGains
    simp only [hb, LayoutKey.hasHeight, Bool.not_true, Bool.false_eq_true, if_false, Bool.false_and, and_self, if_true]; rfl)
    ⟨rfl, by simp⟩ fun ticks => ?_
  unfold weighted downMixed
  simp only [List.range, List.range.loop, List.map_cons, List.map_nil, sevenOneFour, List.zip_cons_cons, List.zip_nil_left, List.sum_cons,
    List.sum_nil, List.getElem?_cons_zero, List.getElem?_cons_succ, Option.getD_some, Spec.channel, Spec.l3, Spec.r3, Spec.ltf3, Spec.rtf3,
    Spec.l5, Spec.r5, Spec.ls5, Spec.rs5, Spec.ltf2, Spec.rtf2, List.mem_cons, List.not_mem_nil, reduceCtorEq, or_self, or_false, true_or,
    or_true, if_true, if_false, List.cons.injEq, and_true]
  refine ⟨?_, ?_, ?_, ?_, ?_, ?_⟩ <;> refine List.map_congr_left fun i _ => ?_ <;> ring

/-- **C39 (down-mixing parameters, 7.1.2).** And so is 7.1.4 to 7.1.2. -/
theorem C39_down_mixing_to_7_1_2 (frameSize : Nat) (hf : frameSize < 4294967296) (t : TrimmingSettings) (f : RenderFrame)
    (hb : f.mixing.inBitstream = true) (g : GainMatrix) :
    match (ElementRenderer.channels sevenOneFour .k4_7_0 .k7_1_2 g).render frameSize t f with
    | .ok (out, ticks) => Renderable f t sevenOneFour frameSize ticks ∧
      out = downMixed f t [.l7, .r7, .centre, .lfe, .lss7, .rss7, .lrs7, .rrs7, .ltf2, .rtf2] ticks
    | .error e => e.fatal = false ∧ ¬ ∃ ticks, Renderable f t sevenOneFour frameSize ticks := by
  refine dynamic_spec frameSize hf t f .k7_1_2 g _ 10 _ (by
    unfold dynamicGains computeGains
    simp only [hb, LayoutKey.hasHeight, Bool.not_true, Bool.false_eq_true, if_false, Bool.false_and, and_self, if_true, reduceCtorEq,
      and_false]; rfl)
    ⟨rfl, by simp⟩ fun ticks => ?_
  unfold weighted downMixed
  simp only [List.range, List.range.loop, List.map_cons, List.map_nil, sevenOneFour, List.zip_cons_cons, List.zip_nil_left, List.sum_cons,
    List.sum_nil, List.getElem?_cons_zero, List.getElem?_cons_succ, Option.getD_some, Spec.channel, Spec.l3, Spec.r3, Spec.ltf3, Spec.rtf3,
    Spec.l5, Spec.r5, Spec.ls5, Spec.rs5, Spec.ltf2, Spec.rtf2, List.mem_cons, List.not_mem_nil, reduceCtorEq, or_self, or_false, true_or,
    or_true, if_true, if_false, List.cons.injEq, and_true]
  refine ⟨?_, ?_, ?_, ?_, ?_, ?_, ?_, ?_, ?_, ?_⟩ <;> refine List.map_congr_left fun i _ => ?_ <;> ring

/-! ### Ambisonics -/

/-- An entry of the demixing matrix of a projection: how much of input channel `c` is in ambisonics channel `j`.  The bitstream has the
matrix column by column in Q0.15. -/
def demixingEntry (p : AmbisonicsProjection) (c j : Nat) : Rat :=
  match p.demixingMatrix[c * p.outputChannelCount.toNat + j]? with
  | some v => (v.toInt : Rat) / 2 ^ 15
  | none => 0

/-- The samples of ambisonics channel `j` that the demixing matrix makes of the input channels. -/
def ambisonicsSample (p : AmbisonicsProjection) (f : RenderFrame) (labels : List Label) (i j : Nat) : Rat :=
  (labels.zipIdx.map fun x => sampleOf f x.1 i * demixingEntry p x.2 j).sum

/-- Decoding of ambisonics channels with a matrix. -/
def projected (p : AmbisonicsProjection) (f : RenderFrame) (t : TrimmingSettings) (labels : List Label) (ticks : Nat) (g : GainMatrix)
    (columns : Nat) : Rendered :=
  (List.range columns).map fun o => (List.range ticks).map fun i =>
    ((List.range p.outputChannelCount.toNat).map fun j => ambisonicsSample p f labels (startOf t f + i) j * entry g j o).sum

private theorem sum_comm {α β : Type} (a : List α) (b : List β) (h : α → β → Rat) :
    (a.map fun x => (b.map fun y => h x y).sum).sum = (b.map fun y => (a.map fun x => h x y).sum).sum := by
  induction a with
  | nil => simp
  | cons x a ih =>
    simp only [List.map_cons, List.sum_cons, ih]
    clear ih
    induction b with
    | nil => simp
    | cons y b ih => simp only [List.map_cons, List.sum_cons]; rw [← ih]; ring

private theorem sum_mul {α : Type} (a : List α) (h : α → Rat) (c : Rat) : (a.map fun x => h x * c).sum = (a.map h).sum * c := by
  induction a with
  | nil => simp
  | cons x a ih => simp only [List.map_cons, List.sum_cons, ih]; ring

private theorem mul_sum {α : Type} (a : List α) (h : α → Rat) (c : Rat) : (a.map fun x => c * h x).sum = c * (a.map h).sum := by
  induction a with
  | nil => simp
  | cons x a ih => simp only [List.map_cons, List.sum_cons, ih]; ring

private theorem foldlM_sum {f : Rat → Nat → Except Err Rat} {h : Nat → Rat} : ∀ (l : List Nat) (a : Rat),
    (∀ j ∈ l, ∀ a, f a j = .ok (a + h j)) → l.foldlM f a = .ok (a + (l.map h).sum)
  | [], a, _ => by simp only [List.foldlM_nil, List.map_nil, List.sum_nil, add_zero]; rfl
  | j :: l, a, hf => by
    rw [List.foldlM_cons, hf j (by simp) a]
    simp only [Bind.bind, Except.bind]
    rw [foldlM_sum l _ fun k hk => hf k (by simp [hk])]
    simp only [List.map_cons, List.sum_cons]
    rw [add_assoc]

private theorem combined_entry (p : AmbisonicsProjection) (g : GainMatrix) {columns : Nat} (hg : MatrixShape g p.outputChannelCount.toNat columns)
    {i k : Nat} (hi : i < p.substreamCount.toNat + p.coupledSubstreamCount.toNat) (hk : k < columns)
    (hm : p.demixingMatrix.length = (p.substreamCount.toNat + p.coupledSubstreamCount.toNat) * p.outputChannelCount.toNat) :
    combinedGain p.demixingMatrix g p.outputChannelCount.toNat i k =
      .ok (((List.range p.outputChannelCount.toNat).map fun j => demixingEntry p i j * entry g j k).sum) := by
  unfold combinedGain
  rw [foldlM_sum (h := fun j => demixingEntry p i j * entry g j k), zero_add]
  intro j hj a
  have hj : j < p.outputChannelCount.toNat := by simpa using hj
  have h1 : i * p.outputChannelCount.toNat + j < p.demixingMatrix.length := by
    rw [hm]
    have : (i + 1) * p.outputChannelCount.toNat ≤ (p.substreamCount.toNat + p.coupledSubstreamCount.toNat) * p.outputChannelCount.toNat :=
      Nat.mul_le_mul_right _ hi
    rw [Nat.add_mul] at this
    omega
  have h2 : j < g.length := by rw [hg.1]; exact hj
  have h3 : k < g[j].length := by rw [hg.2 _ (List.getElem_mem h2)]; exact hk
  simp only [demixingEntry, entry, List.getElem?_eq_getElem h1, List.getElem?_eq_getElem h2, Option.bind_some,
    List.getElem?_eq_getElem h3, Option.getD_some, q15]
  norm_num

private theorem combined_spec (p : AmbisonicsProjection) (g : GainMatrix) {columns : Nat} (hg : MatrixShape g p.outputChannelCount.toNat columns)
    (hn : 0 < p.outputChannelCount.toNat)
    (hm : p.demixingMatrix.length = (p.substreamCount.toNat + p.coupledSubstreamCount.toNat) * p.outputChannelCount.toNat) :
    combinedGains p g = .ok ((List.range (p.substreamCount.toNat + p.coupledSubstreamCount.toNat)).map fun i =>
      (List.range columns).map fun k =>
        ((List.range p.outputChannelCount.toNat).map fun j => demixingEntry p i j * entry g j k).sum) := by
  have hcol : ((g.head?).getD []).length = columns := by
    cases h : g with
    | nil => have := hg.1; rw [h] at this; simp at this; omega
    | cons a l => exact hg.2 a (by rw [h]; simp)
  unfold combinedGains
  simp only [hcol]
  rw [if_neg (by simp [hg.1]), if_neg (by
    simp only [List.any_eq_true, decide_eq_true_eq, not_exists, not_and, ne_eq, Decidable.not_not]
    exact fun s hs => hg.2 s hs)]
  refine mapM_ok _ _ _ fun i hi => mapM_ok _ _ _ fun k hk => ?_
  exact combined_entry p g hg (by simpa using hi) (by simpa using hk) hm

private theorem weighted_combined (p : AmbisonicsProjection) (f : RenderFrame) (t : TrimmingSettings) (labels : List Label) (ticks : Nat)
    (g : GainMatrix) (columns : Nat) :
    weighted f t labels ticks ((List.range labels.length).map fun i =>
      (List.range columns).map fun k =>
        ((List.range p.outputChannelCount.toNat).map fun j => demixingEntry p i j * entry g j k).sum) columns =
      projected p f t labels ticks g columns := by
  unfold weighted projected ambisonicsSample
  refine List.map_congr_left fun o ho => List.map_congr_left fun i _ => ?_
  have ho : o < columns := by simpa using ho
  rw [show labels.zipIdx = labels.zip (List.range labels.length) by rw [List.zipIdx_eq_zip_range', List.range_eq_range']]
  simp only [List.zip_map_right, List.map_map, Function.comp_def, Prod.map_fst, Prod.map_snd, _root_.id, List.getElem?_map,
    List.getElem?_range ho, Option.map_some, Option.getD_some]
  simp only [← sum_mul, ← mul_sum, mul_assoc]
  exact sum_comm _ _ _

private theorem mapM_forall₂ {α β : Type} {f : α → Except Err β} : ∀ {l : List α} {r : List β}, l.mapM f = .ok r →
    List.Forall₂ (fun a b => f a = .ok b) l r
  | [], r, h => by
    simp only [List.mapM_nil, pure, Except.pure, Except.ok.injEq] at h
    subst h
    exact .nil
  | a :: l, r, h => by
    rw [List.mapM_cons] at h
    obtain ⟨b, h1, h⟩ := except_bind_ok h
    obtain ⟨bs, h2, h⟩ := except_bind_ok h
    simp only [pure, Except.pure, Except.ok.injEq] at h
    subst h
    exact .cons h1 (mapM_forall₂ h2)

private theorem lookups {sub : SubstreamLabels} {f : UInt32 → Except Err (List Label)} (hf : ∀ s x, f s = .ok x → sub.lookup s = some x)
    {ids : List UInt32} {ls : List (List Label)} (h : ids.mapM f = .ok ls) : ls = ids.map fun s => (sub.lookup s).getD [] := by
  have := mapM_forall₂ h
  clear h
  induction this with
  | nil => rfl
  | cons hx _ ih => rw [List.map_cons, hf _ _ hx, ← ih]; rfl

private theorem orNull_some {α : Type} {x : Except Err α} {a : α} (h : orNull x = .ok (some a)) : x = .ok a := by
  unfold orNull at h
  split at h
  · simpa using h
  · split at h <;> simp at h

private theorem order_square {c : UInt8} {n : Nat} (h : ambisonicsOrder c = .ok n) : c.toNat = (n + 1) * (n + 1) := by
  unfold ambisonicsOrder at h
  split at h
  · rename_i i hi
    simp only [Except.ok.injEq] at h
    subst h
    simpa using List.find?_some hi
  · cases h

private theorem projection_valid {p : AmbisonicsProjection}
    (hp : AmbisonicsProjection.create p.outputChannelCount p.substreamCount p.coupledSubstreamCount p.demixingMatrix = .ok p) :
    1 ≤ p.substreamCount.toNat + p.coupledSubstreamCount.toNat ∧
      p.demixingMatrix.length = (p.substreamCount.toNat + p.coupledSubstreamCount.toNat) * p.outputChannelCount.toNat := by
  unfold AmbisonicsProjection.create projectionCountsStatus at hp
  split at hp
  · cases hp
  · rename_i heq
    split at hp
    · cases hp
    · rename_i hm
      refine ⟨?_, by simpa using hm⟩
      split at heq
      · cases heq
      · split at heq
        · cases heq
        · split at heq
          · cases heq
          · rename_i hx
            simp only [Bool.not_eq_true', Bool.and_eq_false_iff, decide_eq_false_iff_not, not_or, Decidable.not_not] at hx
            exact hx.1

/-- **C39 (ambisonics by projection).** A renderer for ambisonics in projection mode takes all the channels of the substreams in order,
makes ambisonics channels of them with the demixing matrix in the bitstream and decodes these with the gains for the order of
ambisonics and the layout. -/
theorem C39_projection (E : RenderEnv) (p : AmbisonicsProjection) (ids : List UInt32) (sub : SubstreamLabels) (d : Layout)
    (hp : AmbisonicsProjection.create p.outputChannelCount p.substreamCount p.coupledSubstreamCount p.demixingMatrix = .ok p)
    (r : ElementRenderer) (h : createScene E (.projection p) ids sub d = .ok (some r)) :
    ∃ labels order o g, labels = (ids.map fun s => (sub.lookup s).getD []).flatten ∧
      labels.length = p.substreamCount.toNat + p.coupledSubstreamCount.toNat ∧
      p.outputChannelCount.toNat = (order + 1) * (order + 1) ∧ d.outputKey = .ok o ∧ E.gains (.ambisonics order) o = .ok g ∧
      ∀ columns, MatrixShape g p.outputChannelCount.toNat columns →
        ∀ frameSize < 4294967296, ∀ (t : TrimmingSettings) (f : RenderFrame),
          match r.render frameSize t f with
          | .ok (out, ticks) => Renderable f t labels frameSize ticks ∧ out = projected p f t labels ticks g columns
          | .error e => e.fatal = false ∧ ¬ ∃ ticks, Renderable f t labels frameSize ticks := by
  replace h := orNull_some h
  obtain ⟨labels, h1, h⟩ := except_bind_ok h
  obtain ⟨o, h2, h⟩ := except_bind_ok h
  obtain ⟨order, h3, h⟩ := except_bind_ok h
  obtain ⟨g, h4, h⟩ := except_bind_ok h
  obtain ⟨n, -, h⟩ := except_bind_ok h
  obtain ⟨g', h6, h⟩ := except_bind_ok h
  simp only [Except.ok.injEq] at h
  subst h
  have hvalid := projection_valid hp
  have hl : labels = (ids.map fun s => (sub.lookup s).getD []).flatten ∧
      labels.length = p.substreamCount.toNat + p.coupledSubstreamCount.toNat := by
    unfold projectionLabels at h1
    split at h1
    · cases h1
    · obtain ⟨ls, a1, a2⟩ := except_bind_ok h1
      split at a2
      · cases a2
      · rename_i hlen
        simp only [Except.ok.injEq] at a2
        subst a2
        refine ⟨?_, by simpa using hlen⟩
        congr 1
        refine lookups (fun s x hx => ?_) a1
        split at hx
        · cases hx
        · rename_i heq
          simp only [Except.ok.injEq] at hx
          rw [heq, hx]
  refine ⟨labels, order, o, g, hl.1, hl.2, order_square h3, h2, h4, ?_⟩
  intro columns hg frameSize hf t f
  rw [combined_spec p g hg (by rw [order_square h3]; exact Nat.mul_pos (by omega) (by omega)) hvalid.2, Except.ok.injEq] at h6
  subst h6
  rw [← hl.2]
  simp only [← weighted_combined]
  refine C39_scene_rendering labels ?_ frameSize hf t f _ labels.length columns ⟨by simp, ?_⟩ (Nat.le_refl _)
  · rintro rfl
    have := hl.2
    simp only [List.length_nil] at this
    omega
  · intro row hrow
    simp only [List.mem_map] at hrow
    obtain ⟨_, -, rfl⟩ := hrow
    simp

private theorem zip_filter_sum (f : RenderFrame) (i o : Nat) : ∀ (l : List Label) (g : GainMatrix),
    ((((l.zip g).filter fun p => decide (p.1 ≠ .omitted)).map (·.1)).zip (((l.zip g).filter fun p => decide (p.1 ≠ .omitted)).map (·.2))).map
      (fun x => sampleOf f x.1 i * x.2[o]?.getD 0) =
    ((l.zip g).filter fun p => decide (p.1 ≠ .omitted)).map fun x => sampleOf f x.1 i * x.2[o]?.getD 0 := by
  intro l g
  generalize (l.zip g).filter (fun p => decide (p.1 ≠ .omitted)) = z
  induction z with
  | nil => rfl
  | cons x z ih => simp only [List.map_cons, List.zip_cons_cons, ih]

private theorem filter_sum (f : RenderFrame) (i o : Nat) : ∀ z : List (Label × List Rat),
    ((z.filter fun p => decide (p.1 ≠ .omitted)).map fun x => sampleOf f x.1 i * x.2[o]?.getD 0).sum =
      (z.map fun x => sampleOf f x.1 i * x.2[o]?.getD 0).sum
  | [] => rfl
  | x :: z => by
    have ih := filter_sum f i o z
    by_cases hx : x.1 = .omitted
    · rw [List.filter_cons_of_neg (by simp [hx]), ih, List.map_cons, List.sum_cons]
      simp [sampleOf, hx]
    · rw [List.filter_cons_of_pos (by simp [hx]), List.map_cons, List.map_cons, List.sum_cons, List.sum_cons, ih]

private theorem active_hasTicks (f : RenderFrame) {l : List Label} {g : GainMatrix} (h : g.length = l.length) (n : Nat) :
    HasTicks f (((l.zip g).filter fun p => decide (p.1 ≠ .omitted)).map (·.1)) n ↔ HasTicks f l n := by
  have hmem : ∀ x, x ∈ ((l.zip g).filter fun p => decide (p.1 ≠ .omitted)).map (·.1) ↔ x ∈ l ∧ x ≠ .omitted := by
    intro x
    have hl : l = (l.zip g).map (·.1) := by rw [List.map_fst_zip (by omega)]
    constructor
    · intro hx
      simp only [List.mem_map, List.mem_filter, decide_eq_true_eq] at hx
      obtain ⟨p, ⟨h1, h2⟩, rfl⟩ := hx
      exact ⟨by rw [hl]; exact List.mem_map.mpr ⟨p, h1, rfl⟩, h2⟩
    · rintro ⟨h1, h2⟩
      rw [hl] at h1
      obtain ⟨p, h3, rfl⟩ := List.mem_map.mp h1
      exact List.mem_map.mpr ⟨p, List.mem_filter.mpr ⟨h3, by simpa using h2⟩, rfl⟩
  unfold HasTicks
  simp only [hmem]
  constructor
  · rintro ⟨⟨x, ⟨h1, -⟩, h2⟩, h3⟩
    exact ⟨⟨x, h1, h2⟩, fun y hy hne => h3 y ⟨hy, hne⟩ hne⟩
  · rintro ⟨⟨x, h1, h2⟩, h3⟩
    exact ⟨⟨x, ⟨h1, h2⟩, h2⟩, fun y hy hne => h3 y hy.1 hne⟩

/-- **C39 (ambisonics, one substream per channel).** A renderer for ambisonics in mono mode decodes the ambisonics channels with the gains
for the order of ambisonics and the layout: every channel is the one that its entry of the channel mapping names, or silent. -/
theorem C39_mono (E : RenderEnv) (m : AmbisonicsMono) (hlen : m.channelMapping.length < 256) (ids : List UInt32) (sub : SubstreamLabels)
    (d : Layout) (r : ElementRenderer) (h : createScene E (.mono m) ids sub d = .ok (some r)) :
    ∃ labels order o g,
      List.Forall₂ (fun (v : UInt8) l => v = 255 ∧ l = .omitted ∨ v ≠ 255 ∧ ∃ s, ids[v.toNat]? = some s ∧ sub.lookup s = some [l])
        m.channelMapping labels ∧
      m.channelMapping.length = (order + 1) * (order + 1) ∧ d.outputKey = .ok o ∧ E.gains (.ambisonics order) o = .ok g ∧
      ∀ columns, MatrixShape g m.channelMapping.length columns →
        ∀ frameSize < 4294967296, ∀ (t : TrimmingSettings) (f : RenderFrame),
          match r.render frameSize t f with
          | .ok (out, ticks) => Renderable f t labels frameSize ticks ∧ out = weighted f t labels ticks g columns
          | .error e => e.fatal = false ∧ ¬ ∃ ticks, Renderable f t labels frameSize ticks := by
  replace h := orNull_some h
  obtain ⟨labels, h1, h⟩ := except_bind_ok h
  obtain ⟨o, h2, h⟩ := except_bind_ok h
  obtain ⟨order, h3, h⟩ := except_bind_ok h
  obtain ⟨g, h4, h⟩ := except_bind_ok h
  obtain ⟨n, -, h⟩ := except_bind_ok h
  obtain ⟨x, h6, h⟩ := except_bind_ok h
  simp only [Except.ok.injEq] at h
  subst h
  have hl : List.Forall₂ (fun (v : UInt8) l => v = 255 ∧ l = .omitted ∨ v ≠ 255 ∧ ∃ s, ids[v.toNat]? = some s ∧ sub.lookup s = some [l])
        m.channelMapping labels := by
    unfold monoLabels at h1
    split at h1
    · cases h1
    · refine (mapM_forall₂ h1).imp fun v l hv => ?_
      split at hv
      · rename_i hv255
        simp only [Except.ok.injEq] at hv
        exact .inl ⟨hv255, hv.symm⟩
      · rename_i hv255
        refine .inr ⟨hv255, ?_⟩
        split at hv
        · cases hv
        · rename_i s hs
          refine ⟨s, hs, ?_⟩
          split at hv
          · cases hv
          · rename_i hlook
            simp only [Except.ok.injEq] at hv
            rw [hlook, hv]
          · cases hv
  have hsq := order_square h3
  rw [UInt8.toNat_ofNat', Nat.mod_eq_of_lt (by omega)] at hsq
  refine ⟨labels, order, o, g, hl, hsq, h2, h4, ?_⟩
  intro columns hg frameSize hf t f
  unfold activeGains at h6
  split at h6
  · cases h6
  · rename_i hgl
    simp only [ne_eq, Decidable.not_not] at hgl
    dsimp only at h6
    split at h6
    · cases h6
    · rename_i hne
      simp only [Except.ok.injEq] at h6
      subst h6
      have hR : ∀ ticks, Renderable f t (((labels.zip g).filter fun p => decide (p.1 ≠ .omitted)).map (·.1)) frameSize ticks ↔
          Renderable f t labels frameSize ticks := by
        intro ticks
        unfold Renderable
        simp only [active_hasTicks f hgl]
      have hW : ∀ ticks, weighted f t (((labels.zip g).filter fun p => decide (p.1 ≠ .omitted)).map (·.1)) ticks
          (((labels.zip g).filter fun p => decide (p.1 ≠ .omitted)).map (·.2)) columns = weighted f t labels ticks g columns := by
        intro ticks
        unfold weighted
        refine List.map_congr_left fun o _ => List.map_congr_left fun i _ => ?_
        rw [zip_filter_sum, filter_sum]
      simp only [← hR, ← hW]
      refine C39_scene_rendering _ ?_ frameSize hf t f _ _ columns ⟨rfl, ?_⟩ (by simp)
      · simpa using hne
      · intro row hrow
        simp only [List.mem_map, List.mem_filter] at hrow
        obtain ⟨p, ⟨hp, -⟩, rfl⟩ := hrow
        exact hg.2 _ (List.of_mem_zip hp).2

/-! ### Loudspeakers -/

/-- Where a channel is meant to come from. -/
inductive Place
  | at (s : Speaker)
  | bottomBackLeft | bottomBackRight | nowhere
  deriving DecidableEq, Repr

open Speaker Place in
/-- The places of the channels (channel_label.h:28-118, IAMF 3.6.3.2 "Scalable Channel Layout Config Syntax and Semantics"). -/
def placeOf : Label → Place
  | .mono | .centre | .fc => .at frontCenter
  | .l2 | .l3 | .l5 | .l7 | .fl => .at frontLeft
  | .r2 | .r3 | .r5 | .r7 | .fr => .at frontRight
  | .lfe => .at lowFrequency
  | .lfe2 => .at lowFrequency2
  | .ls5 | .lrs7 | .bl => .at backLeft
  | .rs5 | .rrs7 | .br => .at backRight
  | .lss7 | .sil => .at sideLeft
  | .rss7 | .sir => .at sideRight
  | .ltf2 | .ltf3 | .ltf4 | .tpfl => .at topFrontLeft
  | .rtf2 | .rtf3 | .rtf4 | .tpfr => .at topFrontRight
  | .ltb4 | .tpbl => .at topBackLeft
  | .rtb4 | .tpbr => .at topBackRight
  | .flc => .at frontLeftOfCenter
  | .frc => .at frontRightOfCenter
  | .tpsil => .at topSideLeft
  | .tpsir => .at topSideRight
  | .bc => .at backCenter
  | .tpfc => .at topFrontCenter
  | .tpc => .at topCenter
  | .tpbc => .at topBackCenter
  | .btfc => .at bottomFrontCenter
  | .btfl => .at bottomFrontLeft
  | .btfr => .at bottomFrontRight
  | .btbl => bottomBackLeft
  | .btbr => bottomBackRight
  | _ => nowhere

open Speaker Place in
/-- The loudspeakers of a sound system, in the order of the output channels: those of C33, and those of 7.1.5.4. -/
def systemPlaces (s : UInt8) : List Place :=
  if s = 14 then [.at frontLeft, .at frontRight, .at frontCenter, .at lowFrequency, .at sideLeft, .at sideRight, .at backLeft, .at backRight,
    .at topFrontLeft, .at topFrontRight, .at topBackLeft, .at topBackRight, .at topCenter, .at bottomFrontLeft, .at bottomFrontRight,
    bottomBackLeft, bottomBackRight]
  else (speakersOf s).map .at

open Speaker in
/-- The loudspeakers of a layout; for headphones, left and right. -/
def placesOf (d : Layout) : List Place :=
  if d.type = 3 then [.at frontLeft, .at frontRight]
  else match d.specific with
    | .soundSystem s _ => systemPlaces s
    | .other _ => []

/-- Every channel is at the place of its loudspeaker; the others are silent. -/
def Fits (labels : List Label) (places : List Place) : Prop :=
  List.Forall₂ (fun l p => l = .omitted ∨ placeOf l = p) labels places

instance decForall₂ {α β : Type} (R : α → β → Prop) [∀ a b, Decidable (R a b)] : ∀ (l : List α) (m : List β), Decidable (List.Forall₂ R l m)
  | [], [] => .isTrue .nil
  | [], _ :: _ => .isFalse nofun
  | _ :: _, [] => .isFalse nofun
  | a :: l, b :: m => match decForall₂ R l m with
    | .isFalse h => .isFalse fun | .cons _ h' => h h'
    | .isTrue h => if hr : R a b then .isTrue (.cons hr h) else .isFalse fun | .cons h' _ => hr h'

instance (labels : List Label) (places : List Place) : Decidable (Fits labels places) := decForall₂ _ _ _

private def okAnd {α : Type} (x : Except Err α) (p : α → Bool) : Bool := match x with
  | .ok a => p a
  | .error _ => false

private theorem okAnd_iff {α : Type} {x : Except Err α} {p : α → Bool} : okAnd x p = true ↔ ∃ a, x = .ok a ∧ p a = true := by
  cases x <;> simp [okAnd]

private theorem plain_check : ∀ n < 10, ∀ s < 256,
    ((UInt8.ofNat n = 9 ∧ s = 0) || okAnd (equivalentLayout (UInt8.ofNat s)) (· == UInt8.ofNat n)) =
      okAnd (plainLayoutLabels (UInt8.ofNat n)) (fun ls => Fits ls (systemPlaces (UInt8.ofNat s))) := by
  decide +kernel

private theorem expanded_check : ∀ e < 20, ∀ s < 256,
    okAnd (baseSystem (UInt8.ofNat e)) (UInt8.ofNat s == ·) =
      okAnd (expandedLayoutLabels (UInt8.ofNat e)) (fun ls => Fits ls (systemPlaces (UInt8.ofNat s))) := by
  decide +kernel

private theorem equivalent_small : ∀ s < 256, okAnd (equivalentLayout (UInt8.ofNat s)) (fun q => 10 ≤ q) = false := by decide +kernel

private theorem can_pass (l : ChannelLayer) (s r : UInt8) :
    l.canPassThrough ⟨2, .soundSystem s r⟩ = .ok true ↔ ∃ ls, l.orderedLabels = .ok ls ∧ Fits ls (systemPlaces s) := by
  have hs : UInt8.ofNat s.toNat = s := UInt8.ofNat_toNat
  unfold ChannelLayer.canPassThrough ChannelLayer.orderedLabels
  rw [if_pos rfl]
  simp only
  by_cases hx : l.layout = kLayoutExpanded
  · rw [if_neg (by rw [hx]; rintro ⟨h, -⟩; revert h; decide), if_pos hx, if_pos hx]
    cases l.expanded with
    | none => simp
    | some e =>
      simp only
      have he : UInt8.ofNat e.toNat = e := UInt8.ofNat_toNat
      by_cases h20 : e.toNat < 20
      · have := expanded_check e.toNat h20 s.toNat s.toNat_lt
        rw [hs, he, Bool.eq_iff_iff, okAnd_iff, okAnd_iff] at this
        simp only [decide_eq_true_eq] at this
        rw [← this]
        cases hb : baseSystem e with
        | error _ => simp [Bind.bind, Except.bind]
        | ok b => simp [Bind.bind, Except.bind]
      · have h1 : baseSystem e = .error .invalidArgument := by unfold baseSystem; split <;> first | omega | rfl
        have h2 : expandedLayoutLabels e = .error .invalidArgument := by unfold expandedLayoutLabels; split <;> first | omega | rfl
        rw [h1, h2]
        simp [Bind.bind, Except.bind]
  · rw [if_neg hx, if_neg hx]
    have hl : UInt8.ofNat l.layout.toNat = l.layout := UInt8.ofNat_toNat
    by_cases h10 : l.layout.toNat < 10
    · have := plain_check l.layout.toNat h10 s.toNat s.toNat_lt
      rw [hs, hl, Bool.eq_iff_iff, okAnd_iff, Bool.or_eq_true, decide_eq_true_eq, okAnd_iff] at this
      simp only [decide_eq_true_eq] at this
      rw [← this]
      have h0 : s.toNat = 0 ↔ s = 0 := by rw [← UInt8.toNat_inj]; rfl
      by_cases hb : l.layout = kLayoutBinaural ∧ s = 0
      · rw [if_pos hb]
        simp only [true_iff]
        exact .inl ⟨hb.1, h0.mpr hb.2⟩
      · rw [if_neg hb]
        have hb' : ¬ (l.layout = 9 ∧ s.toNat = 0) := by rw [h0]; exact hb
        simp only [hb', false_or]
        cases equivalentLayout s with
        | error _ => simp [Bind.bind, Except.bind]
        | ok q => simp [Bind.bind, Except.bind]
    · have h1 : plainLayoutLabels l.layout = .error .notFound := by unfold plainLayoutLabels; split <;> first | omega | rfl
      have h2 := equivalent_small s.toNat s.toNat_lt
      rw [hs, Bool.eq_false_iff, ne_eq, okAnd_iff] at h2
      rw [if_neg (by rintro ⟨h, -⟩; rw [h] at h10; exact h10 (by decide)), h1]
      simp only [reduceCtorEq, false_and, exists_false, iff_false]
      intro hc
      obtain ⟨q, h3, h4⟩ := except_bind_ok hc
      simp only [Except.ok.injEq, beq_iff_eq] at h4
      refine h2 ⟨q, h3, ?_⟩
      rw [h4, decide_eq_true_eq, UInt8.le_iff_toNat_le]
      simp only [UInt8.reduceToNat]
      omega

private theorem can_pass_binaural (l : ChannelLayer) (x : SpecificLayout) :
    l.canPassThrough ⟨3, x⟩ = .ok (l.layout == 9) := by
  unfold ChannelLayer.canPassThrough
  rw [if_neg (by show ¬ (3 : UInt8) = 2; decide), if_pos rfl]
  rfl

private theorem find_layer {d : Layout} : ∀ {ls : List ChannelLayer} {l : ChannelLayer}, findEquivalentLayer d ls = .ok l →
    l ∈ ls ∧ l.canPassThrough d = .ok true
  | [], _, h => by cases h
  | x :: ls, l, h => by
    obtain ⟨b, h1, h⟩ := except_bind_ok h
    cases b with
    | true =>
      simp only [if_true, Except.ok.injEq] at h
      subst h
      exact ⟨by simp, h1⟩
    | false =>
      simp only [Bool.false_eq_true, if_false] at h
      exact ⟨List.mem_cons_of_mem _ (find_layer h).1, (find_layer h).2⟩

theorem channels_check : ∀ s < 256,
    match numChannelsFromLayout ⟨2, .soundSystem (UInt8.ofNat s) 0⟩ with
    | .ok n => n = ((systemPlaces (UInt8.ofNat s)).length : Int)
    | .error _ => systemPlaces (UInt8.ofNat s) = [] := by
  have : (List.range 256).all (fun s => match numChannelsFromLayout ⟨2, .soundSystem (UInt8.ofNat s) 0⟩ with
    | .ok n => decide (n = ((systemPlaces (UInt8.ofNat s)).length : Int))
    | .error _ => decide (systemPlaces (UInt8.ofNat s) = [])) = true := by decide +kernel
  intro s hs
  have := List.all_eq_true.mp this s (List.mem_range.mpr hs)
  split at this <;> simpa using this

private theorem ordered_not_empty {l : ChannelLayer} {ls : List Label} (h : l.orderedLabels = .ok ls) : ls ≠ [] := by
  unfold ChannelLayer.orderedLabels at h
  split at h
  · split at h
    · cases h
    · unfold expandedLayoutLabels at h
      split at h <;> simp only [Bind.bind, Except.bind, plainLayoutLabels, omitExcept, reduceCtorEq, Except.ok.injEq, List.map_cons] at h <;>
        first | (subst h; simp [order9_1_6, order10_2_9_3, order7_1_5_4]; done) | (simp at h; subst h; simp)
  · unfold plainLayoutLabels at h
    split at h <;> first | (simp only [Except.ok.injEq] at h; subst h; simp; done) | cases h

/-- **C39 (loudspeakers).** If channels are passed through then they are those of a layer of the audio element, there are as many as the
layout has, and each channel that is not silent is for the loudspeaker at its place in the layout. -/
theorem C39_channels_go_to_their_loudspeakers (c : ScalableLayout) (d : Layout) (r : ElementRenderer)
    (h : createPassThrough c d = .ok (some r)) :
    ∃ labels, r = .passThrough labels ∧ (∃ l ∈ c.layers, l.orderedLabels = .ok labels) ∧ labels ≠ [] ∧
      numChannelsFromLayout d = .ok (labels.length : Int) ∧ Fits labels (placesOf d) := by
  replace h := orNull_some h
  obtain ⟨l, h1, h⟩ := except_bind_ok h
  obtain ⟨labels, h2, h⟩ := except_bind_ok h
  simp only [Except.ok.injEq] at h
  subst h
  obtain ⟨h3, h4⟩ := find_layer h1
  refine ⟨labels, rfl, ⟨l, h3, h2⟩, ordered_not_empty h2, ?_⟩
  obtain ⟨type, x⟩ := d
  by_cases ht : type = 2
  · subst ht
    cases x with
    | other _ => simp [ChannelLayer.canPassThrough] at h4
    | soundSystem s r =>
      obtain ⟨ls, h5, h6⟩ := (can_pass l s r).mp h4
      rw [h2, Except.ok.injEq] at h5
      subst h5
      have hlen := h6.length_eq
      have hc := channels_check s.toNat s.toNat_lt
      rw [UInt8.ofNat_toNat] at hc
      refine ⟨?_, h6⟩
      have he : numChannelsFromLayout ⟨2, .soundSystem s r⟩ = numChannelsFromLayout ⟨2, .soundSystem s 0⟩ := rfl
      rw [he]
      split at hc
      · rename_i n hn
        rw [hn, hc, hlen]
      · rw [hc] at hlen
        exact absurd (List.length_eq_zero_iff.mp hlen) (ordered_not_empty h2)
  · by_cases ht3 : type = 3
    · subst ht3
      rw [can_pass_binaural, Except.ok.injEq, beq_iff_eq] at h4
      have : labels = [.l2, .r2] := by
        unfold ChannelLayer.orderedLabels at h2
        rw [h4] at h2
        simpa [kLayoutExpanded, plainLayoutLabels] using h2.symm
      subst this
      exact ⟨rfl, .cons (.inr rfl) (.cons (.inr rfl) .nil)⟩
    · simp [ChannelLayer.canPassThrough, ht, ht3] at h4

/-- **C39 (when channels pass through).** To a sound system, channels are passed through exactly if a layer of the audio element has the
loudspeakers of the sound system (some of them, for an expanded layout). -/
theorem C39_pass_through_exactly_for_matching_layers (c : ScalableLayout)
    (hx : (∀ l ∈ c.layers, l.layout ≠ kLayoutExpanded) ∨ c.layers.length = 1) (s r : UInt8) :
    (∃ labels, createPassThrough c ⟨2, .soundSystem s r⟩ = .ok (some (.passThrough labels))) ↔
      ∃ l ∈ c.layers, ∃ labels, l.orderedLabels = .ok labels ∧ Fits labels (systemPlaces s) := by
  constructor
  · rintro ⟨labels, h⟩
    obtain ⟨l, h1, -⟩ := except_bind_ok (orNull_some h)
    exact ⟨l, (find_layer h1).1, (can_pass _ s r).mp (find_layer h1).2⟩
  · rintro ⟨l, hl, labels, h1, h2⟩
    have hl' := (can_pass l s r).mpr ⟨labels, h1, h2⟩
    have hfind : ∃ l', findEquivalentLayer ⟨2, .soundSystem s r⟩ c.layers = .ok l' := by
      rcases hx with hx | hx
      · have hq : ∀ x ∈ c.layers, ∃ b, x.canPassThrough ⟨2, .soundSystem s r⟩ = .ok b := by
          intro x hxm
          have key : ∀ y : ChannelLayer, y.layout ≠ kLayoutExpanded → y.canPassThrough ⟨2, .soundSystem s r⟩ =
              if y.layout = kLayoutBinaural ∧ s = 0 then .ok true else (do
                let q ← equivalentLayout s
                .ok (q == y.layout)) := by
            intro y hy
            unfold ChannelLayer.canPassThrough
            rw [if_pos rfl]
            simp only [if_neg hy]
          rw [key x (hx x hxm)]
          rw [key l (hx l hl)] at hl'
          by_cases hb : x.layout = kLayoutBinaural ∧ s = 0
          · rw [if_pos hb]; exact ⟨_, rfl⟩
          · rw [if_neg hb]
            by_cases hs : s = 0
            · subst hs
              exact ⟨_, rfl⟩
            · rw [if_neg (fun h => hs h.2)] at hl'
              obtain ⟨q, hq, -⟩ := except_bind_ok hl'
              rw [hq]
              exact ⟨_, rfl⟩
        clear hx
        generalize c.layers = ls at *
        clear h1 h2
        induction ls with
        | nil => simp at hl
        | cons x ls ih =>
          unfold findEquivalentLayer
          obtain ⟨b, hb⟩ := hq x (by simp)
          rw [hb]
          cases b with
          | true => exact ⟨x, rfl⟩
          | false =>
            simp only [Bind.bind, Except.bind, Bool.false_eq_true, if_false]
            rcases List.mem_cons.mp hl with rfl | hl
            · rw [hl'] at hb; simp at hb
            · exact ih hl fun y hy => hq y (List.mem_cons_of_mem _ hy)
      · obtain ⟨x, hx⟩ := List.length_eq_one_iff.mp hx
        rw [hx] at hl ⊢
        simp only [List.mem_singleton] at hl
        subst hl
        exact ⟨l, by unfold findEquivalentLayer; rw [hl']; rfl⟩
    obtain ⟨l', h3⟩ := hfind
    obtain ⟨ls, h4, -⟩ := (can_pass l' s r).mp (find_layer h3).2
    refine ⟨ls, ?_⟩
    unfold createPassThrough
    rw [h3]
    simp only [Bind.bind, Except.bind, h4, orNull]

private theorem group_check : (∀ e < 256, okAnd (expandedGroup 0 (some (UInt8.ofNat e))) (fun g => okAnd (expandedLayoutLabels (UInt8.ofNat e))
      fun ls => !(ls.filter (· ≠ .omitted)).isPerm (g.2.coupled ++ g.2.single)) = false) ∧
    ∀ n < 256, okAnd (layoutChannels (UInt8.ofNat n)) (fun c => okAnd (baseGroup c) fun g => okAnd (plainLayoutLabels (UInt8.ofNat n))
      fun ls => !(ls.filter (· ≠ .omitted)).isPerm (g.coupled ++ g.single)) = false := by
  decide +kernel

/-- **C39 (no channel is lost).** For an audio element of one layer, the channels that go to loudspeakers are exactly those that its
substreams have, each of them once. -/
theorem C39_no_channel_is_lost (ids : List UInt32) (c : ScalableLayout) (l : ChannelLayer) (hc : c.layers = [l]) (x : ElementLabels)
    (h : finalizeScalable ids c = .ok x) (labels : List Label) (hl : l.orderedLabels = .ok labels) :
    (labels.filter (· ≠ .omitted)).Perm (allLabels x.labels) := by
  unfold finalizeScalable at h
  split at h
  · cases h
  rename_i hn
  simp only [Decidable.not_not] at hn
  obtain ⟨y, h1, h⟩ := except_bind_ok h
  split at h
  · cases h
  simp only [Except.ok.injEq] at h
  subst h
  have : c.numLayers.toNat = 1 := by unfold ScalableLayout.numLayers; rw [hc]; rfl
  rw [this, hc] at h1
  simp only [List.take_succ_cons, List.take_zero] at h1
  obtain ⟨cn, g, m, si, gs, a1, a2, -, -, a5⟩ := layer_step h1
  simp only [finalizeLayers, Except.ok.injEq] at a5
  subst a5
  obtain ⟨z, b1, -, -, -, b5, -, -⟩ := add_ok hn (by simp) a2
  simp only [List.nil_append] at b1
  subst b1
  show (labels.filter (· ≠ .omitted)).Perm (allLabels m)
  rw [b5]
  unfold layerGroup at a1
  unfold ChannelLayer.orderedLabels at hl
  split at a1
  · rename_i he
    rw [if_pos he] at hl
    cases hexp : l.expanded with
    | none => rw [hexp] at hl; cases hl
    | some e =>
      rw [hexp] at hl a1
      simp only at hl
      have := group_check.1 e.toNat e.toNat_lt
      rw [UInt8.ofNat_toNat, a1, hl] at this
      refine List.isPerm_iff.mp ?_
      simpa [okAnd] using this
  · rename_i he
    rw [if_neg he] at hl
    unfold layoutGroup at a1
    obtain ⟨cc, c1, a1⟩ := except_bind_ok a1
    split at a1
    · cases a1
    · obtain ⟨gg, c2, a1⟩ := except_bind_ok a1
      rw [if_pos rfl] at c2
      simp only [Except.ok.injEq, Prod.mk.injEq] at a1
      obtain ⟨rfl, rfl⟩ := a1
      have := group_check.2 l.layout.toNat l.layout.toNat_lt
      rw [UInt8.ofNat_toNat, c1, hl] at this
      simp only [okAnd, c2] at this
      refine List.isPerm_iff.mp ?_
      simpa using this

open Speaker in
/-- The loudspeakers that the names of layouts stand for ("4+7+0" has four upper and seven middle loudspeakers, and so on; ITU-R BS.2051). -/
def keyPlaces : LayoutKey → List Place
  | .k0_1_0 => [.at frontCenter]
  | .k0_2_0 => systemPlaces 0
  | .k0_5_0 => systemPlaces 1
  | .k2_5_0 => systemPlaces 2
  | .k4_5_0 => systemPlaces 3
  | .k4_5_1 => systemPlaces 4
  | .k3_7_0 => systemPlaces 5
  | .k4_9_0 => systemPlaces 6
  | .k9_10_3 => systemPlaces 7
  | .k0_7_0 => systemPlaces 8
  | .k4_7_0 => systemPlaces 9
  | .k7_1_2 => systemPlaces 10
  | .k3_1_2 => systemPlaces 11
  | .k9_1_6 => systemPlaces 13
  | .k7_1_5_4 => systemPlaces 14
  | .ambisonics _ => []

/-- The number of channels that gains for these are applied to. -/
def keyInputs : LayoutKey → Nat
  | .ambisonics n => (n + 1) * (n + 1)
  | k => (keyPlaces k).length

private def isScene : LayoutKey → Bool
  | .ambisonics _ => true
  | _ => false

private theorem key_checks : (∀ n < 10, okAnd (plainLayoutLabels (UInt8.ofNat n)) (fun ls =>
      match (⟨UInt8.ofNat n, false, false, 0, 0, 0, 0, 0, 0, none⟩ : ChannelLayer).inputKey with
      | .ok k => !decide (Fits ls (keyPlaces k)) || isScene k
      | .error e => e.fatal) = false) ∧
    (∀ e < 20, okAnd (expandedLayoutLabels (UInt8.ofNat e)) (fun ls =>
      match expandedInputKey (UInt8.ofNat e) with
      | .ok k => !decide (Fits ls (keyPlaces k)) || isScene k
      | .error e => e.fatal) = false) ∧
    ∀ s < 256, okAnd (soundSystemKey (UInt8.ofNat s)) (fun k => decide (systemPlaces (UInt8.ofNat s) ≠ keyPlaces k)) = false := by
  decide +kernel

private theorem input_fits {l : ChannelLayer} {ls : List Label} {k : LayoutKey} (h1 : l.orderedLabels = .ok ls) (h2 : l.inputKey = .ok k) :
    Fits ls (keyPlaces k) ∧ ∀ n, k ≠ .ambisonics n := by
  have hb : ∀ b : Bool, (!decide (Fits ls (keyPlaces k)) || b) = false → Fits ls (keyPlaces k) ∧ b = false := by
    intro b hb
    simpa using hb
  have hk : isScene k = false → ∀ n, k ≠ .ambisonics n := by
    rintro h n rfl
    simp [isScene] at h
  unfold ChannelLayer.orderedLabels at h1
  unfold ChannelLayer.inputKey at h2
  by_cases hx : l.layout = kLayoutExpanded
  · rw [if_pos hx] at h1 h2
    cases hexp : l.expanded with
    | none => rw [hexp] at h1; cases h1
    | some e =>
      rw [hexp] at h1 h2
      simp only at h1 h2
      have he : e.toNat < 20 := by
        unfold expandedLayoutLabels at h1
        split at h1 <;> first | omega | cases h1
      have := key_checks.2.1 e.toNat he
      rw [UInt8.ofNat_toNat, h1, h2] at this
      simp only [okAnd] at this
      exact ⟨(hb _ this).1, hk (hb _ this).2⟩
  · rw [if_neg hx] at h1 h2
    have hl : l.layout.toNat < 10 := by
      unfold plainLayoutLabels at h1
      split at h1 <;> first | omega | cases h1
    have := key_checks.1 l.layout.toNat hl
    unfold ChannelLayer.inputKey at this
    rw [UInt8.ofNat_toNat, if_neg hx, h1] at this
    simp only [h2, okAnd] at this
    exact ⟨(hb _ this).1, hk (hb _ this).2⟩

private theorem output_places {d : Layout} {o : LayoutKey} (h : d.outputKey = .ok o) : placesOf d = keyPlaces o := by
  unfold Layout.outputKey at h
  split at h
  · rename_i ht
    split at h
    · rename_i s r hs
      unfold placesOf
      rw [if_neg (by rw [ht]; decide), hs]
      simp only
      have := key_checks.2.2 s.toNat s.toNat_lt
      rw [UInt8.ofNat_toNat, h] at this
      simpa [okAnd] using this
    · cases h
  · cases h

/-- **C39 (which gains).** If channels are rendered with gains then they are those of the highest layer of the audio element; and the
gains are those from a layout whose loudspeakers are the places of these channels to the loudspeakers of the layout that was asked
for. -/
theorem C39_gains_for_the_right_layouts (E : RenderEnv) (c : ScalableLayout) (d : Layout) (r : ElementRenderer)
    (h : createChannels E c d = .ok (some r)) :
    ∃ l labels i o g, c.layers.getLast? = some l ∧ l.orderedLabels = .ok labels ∧ r = .channels labels i o g ∧ E.gains i o = .ok g ∧
      Fits labels (keyPlaces i) ∧ placesOf d = keyPlaces o := by
  unfold createChannels at h
  split at h
  · cases h
  · rename_i l hl
    replace h := orNull_some h
    obtain ⟨labels, h1, h⟩ := except_bind_ok h
    obtain ⟨i, h2, h⟩ := except_bind_ok h
    obtain ⟨o, h3, h⟩ := except_bind_ok h
    obtain ⟨g, h4, h⟩ := except_bind_ok h
    obtain ⟨n, -, h⟩ := except_bind_ok h
    simp only [Except.ok.injEq] at h
    exact ⟨l, labels, i, o, g, hl, h1, h.symm, h4, (input_fits h1 h2).1, output_places h3⟩

/-! ### Making renderers -/

/-- What renderers get from outside is as it should be: matrices have the sizes of their layouts, binaural renderers give two channels of
samples, and nothing ends the program. -/
structure GoodEnv (E : RenderEnv) : Prop where
  shape : ∀ i o g, E.gains i o = .ok g → MatrixShape g (keyInputs i) (keyPlaces o).length
  mild : ∀ i o e, E.gains i o = .error e → e.fatal = false
  binaural : ∀ c r f, E.binaural c = some r → Reports (r f) fun x => x.1.length = 2 ∧ ∀ s ∈ x.1, s.length = x.2

/-- Audio elements and layouts as they are read or made (C10, C11). -/
def SceneOk (e : AudioElement) : Prop :=
  (∀ m, e.config = .ambisonics (.mono m) → AmbisonicsMono.create m.substreamCount m.channelMapping = .ok m) ∧
  ∀ p, e.config = .ambisonics (.projection p) →
    AmbisonicsProjection.create p.outputChannelCount p.substreamCount p.coupledSubstreamCount p.demixingMatrix = .ok p

def HasSoundSystem (d : Layout) : Prop := d.type = 2 → ∃ s r, d.specific = .soundSystem s r

/-- A renderer that gives `n` channels of as many samples as it says for every frame that it can render, and a status for others. -/
def Works (r : ElementRenderer) (n : Int) : Prop :=
  ∀ frameSize < 4294967296, ∀ (t : TrimmingSettings) (f : RenderFrame),
    Reports (r.render frameSize t f) fun x => (x.1.length : Int) = n ∧ ∀ s ∈ x.1, s.length = x.2

private theorem orNull_reports {α : Type} {x : Except Err α} {Q : α → Prop} (h : Reports x Q) :
    ∃ y, orNull x = .ok y ∧ ∀ a, y = some a → Q a := by
  unfold orNull
  cases x with
  | ok a => exact ⟨some a, rfl, by rintro _ ⟨⟩; exact h⟩
  | error e =>
    have : e.fatal = false := h
    exact ⟨none, by simp [this], nofun⟩

private theorem weighted_shape {f : RenderFrame} {t : TrimmingSettings} {labels : List Label} {ticks : Nat} {g : GainMatrix} {columns : Nat} :
    (weighted f t labels ticks g columns).length = columns ∧ ∀ s ∈ weighted f t labels ticks g columns, s.length = ticks := by
  unfold weighted
  refine ⟨by simp, ?_⟩
  intro s hs
  simp only [List.mem_map] at hs
  obtain ⟨_, -, rfl⟩ := hs
  simp

theorem pass_works {labels : List Label} (hl : labels ≠ []) : Works (.passThrough labels) labels.length := by
  intro frameSize hf t f
  have := C39_pass_through_is_exact labels hl frameSize hf t f
  unfold Reports
  split at this
  · rename_i out ticks heq
    rw [heq]
    obtain ⟨-, rfl⟩ := this
    exact ⟨by simp [trimmedSamples], trimmed_lengths⟩
  · rename_i e heq
    rw [heq]
    exact this.1

private theorem matrix_works (labels : List Label) (hl : labels ≠ []) (frameSize : Nat) (hf : frameSize < 4294967296)
    (t : TrimmingSettings) (f : RenderFrame) (g : GainMatrix) {rows columns : Nat} (hg : MatrixShape g rows columns) (hr : labels.length ≤ rows) :
    Reports (do
      let (s, n) ← arrangeSamples f labels frameSize t
      let r ← renderWithGains s g
      .ok (r, n) : Except Err (Rendered × Nat)) fun x => (x.1.length : Int) = columns ∧ ∀ s ∈ x.1, s.length = x.2 := by
  have := matrix_spec labels hl frameSize hf t f g hg hr
  unfold Reports
  split at this
  · rename_i out ticks heq
    rw [heq]
    obtain ⟨-, rfl⟩ := this
    exact ⟨by simp [weighted_shape.1], weighted_shape.2⟩
  · rename_i e heq
    rw [heq]
    exact this.1

private theorem scene_works {labels : List Label} (hl : labels ≠ []) {g : GainMatrix} {rows columns : Nat} (hg : MatrixShape g rows columns)
    (hr : labels.length ≤ rows) : Works (.scene labels g) columns :=
  fun frameSize hf t f => matrix_works labels hl frameSize hf t f g hg hr

private theorem dynamic_shape {p : DownMixingParams} {i o : LayoutKey} {g : GainMatrix} (h : dynamicGains p i o = some g) :
    MatrixShape g (keyPlaces i).length (keyPlaces o).length := by
  unfold dynamicGains at h
  split at h
  · cases h
  · split at h
    · cases h
    · unfold computeGains at h
      split at h
      · rename_i hk
        obtain ⟨rfl, rfl⟩ := hk
        simp only [Option.some.injEq] at h
        subst h
        exact ⟨rfl, by simp only [List.forall_mem_cons, List.not_mem_nil, false_imp_iff, implies_true, and_true]; and_intros <;> rfl⟩
      · split at h
        · rename_i hk
          obtain ⟨rfl, rfl⟩ := hk
          simp only [Option.some.injEq] at h
          subst h
          exact ⟨rfl, by simp only [List.forall_mem_cons, List.not_mem_nil, false_imp_iff, implies_true, and_true]; and_intros <;> rfl⟩
        · cases h

private theorem channels_work {labels : List Label} (hl : labels ≠ []) {i o : LayoutKey} {g : GainMatrix}
    (hi : labels.length = (keyPlaces i).length) (hg : MatrixShape g (keyPlaces i).length (keyPlaces o).length) :
    Works (.channels labels i o g) (keyPlaces o).length := by
  intro frameSize hf t f
  refine matrix_works labels hl frameSize hf t f ((dynamicGains f.mixing i o).getD g) (rows := (keyPlaces i).length) ?_ (Nat.le_of_eq hi)
  cases hd : dynamicGains f.mixing i o with
  | none => exact hg
  | some g' => exact dynamic_shape hd

private theorem num_places {d : Layout} {n : Int} (hd : HasSoundSystem d) (h : numChannelsFromLayout d = .ok n) : n = (placesOf d).length := by
  unfold numChannelsFromLayout at h
  unfold placesOf
  split at h
  · rename_i h3
    rw [if_pos h3]
    simp only [Except.ok.injEq] at h
    rw [← h]; rfl
  · rename_i h3
    rw [if_neg h3]
    split at h
    · rename_i h2
      obtain ⟨s, r, hs⟩ := hd h2
      rw [hs] at h ⊢
      simp only at h ⊢
      have hc := channels_check s.toNat s.toNat_lt
      rw [UInt8.ofNat_toNat] at hc
      unfold numChannelsFromLayout at hc
      rw [if_neg (show ¬ (2 : UInt8) = 3 by decide), if_pos rfl] at hc
      simp only at hc
      split at h
      · rename_i k hk
        rw [hk] at hc
        simp only [Except.ok.injEq] at h
        rw [← h, hc]
      · cases h
    · cases h

private theorem num_mild {d : Layout} (hd : HasSoundSystem d) : Reports (numChannelsFromLayout d) fun n => n = (placesOf d).length := by
  unfold Reports
  split
  · exact num_places hd ‹_›
  · rename_i e he
    unfold numChannelsFromLayout at he
    split at he
    · cases he
    · split at he
      · rename_i h2
        obtain ⟨s, r, hs⟩ := hd h2
        rw [hs] at he
        simp only at he
        split at he
        · cases he
        · simp only [Except.error.injEq] at he
          subst he
          rfl
      · simp only [Except.error.injEq] at he
        subst he
        rfl

private theorem output_mild {d : Layout} (hd : HasSoundSystem d) : Reports d.outputKey fun o => placesOf d = keyPlaces o := by
  unfold Reports
  split
  · exact output_places ‹_›
  · rename_i e he
    unfold Layout.outputKey at he
    split at he
    · rename_i h2
      obtain ⟨s, r, hs⟩ := hd h2
      rw [hs] at he
      simp only at he
      unfold soundSystemKey at he
      split at he <;> first | cases he; done | (simp only [Except.error.injEq] at he; subst he; rfl)
    · simp only [Except.error.injEq] at he
      subst he
      rfl

private theorem ordered_mild (l : ChannelLayer) : Reports l.orderedLabels fun ls => ls ≠ [] := by
  unfold Reports
  split
  · exact ordered_not_empty ‹_›
  · rename_i e he
    unfold ChannelLayer.orderedLabels at he
    split at he
    · split at he
      · simp only [Except.error.injEq] at he
        subst he
        rfl
      · unfold expandedLayoutLabels at he
        split at he <;> simp only [Bind.bind, Except.bind, plainLayoutLabels, reduceCtorEq, Except.error.injEq] at he <;>
          first | (subst he; rfl) | (simp at he)
    · unfold plainLayoutLabels at he
      split at he <;> first | cases he; done | (simp only [Except.error.injEq] at he; subst he; rfl)

private theorem input_mild (l : ChannelLayer) : Reports l.inputKey fun _ => True := by
  unfold Reports
  split
  · trivial
  · rename_i e he
    unfold ChannelLayer.inputKey expandedInputKey at he
    repeat' split at he
    all_goals first | cases he; done | (simp only [Except.error.injEq] at he; subst he; rfl)

private theorem can_mild {d : Layout} (hd : HasSoundSystem d) (l : ChannelLayer) : Reports (l.canPassThrough d) fun _ => True := by
  unfold Reports
  split
  · trivial
  · rename_i e he
    unfold ChannelLayer.canPassThrough at he
    split at he
    · rename_i h2
      obtain ⟨s, r, hs⟩ := hd h2
      rw [hs] at he
      simp only at he
      split at he
      · cases he
      · split at he
        · split at he
          · simp only [Except.error.injEq] at he; subst he; rfl
          · rename_i x _
            have : Reports (baseSystem x) fun _ => True := by
              unfold Reports
              split
              · trivial
              · rename_i e' he'
                unfold baseSystem at he'
                split at he' <;> first | cases he'; done | (simp only [Except.error.injEq] at he'; subst he'; rfl)
            cases hb : baseSystem x with
            | error e' =>
              rw [hb] at he this
              simp only [Bind.bind, Except.bind, Except.error.injEq] at he
              subst he
              exact this
            | ok b => rw [hb] at he; cases he
        · have : Reports (equivalentLayout s) fun _ => True := by
            unfold Reports
            split
            · trivial
            · rename_i e' he'
              unfold equivalentLayout at he'
              split at he' <;> first | cases he'; done | (simp only [Except.error.injEq] at he'; subst he'; rfl)
          cases hb : equivalentLayout s with
          | error e' =>
            rw [hb] at he this
            simp only [Bind.bind, Except.bind, Except.error.injEq] at he
            subst he
            exact this
          | ok b => rw [hb] at he; cases he
    · split at he
      · cases he
      · simp only [Except.error.injEq] at he; subst he; rfl

private theorem find_layer_mild {d : Layout} (hd : HasSoundSystem d) : ∀ ls : List ChannelLayer, Reports (findEquivalentLayer d ls) fun _ => True
  | [] => rfl
  | l :: ls => by
    refine (can_mild hd l).bind fun b _ => ?_
    cases b
    · exact find_layer_mild hd ls
    · trivial

private theorem pass_made (c : ScalableLayout) {d : Layout} (hd : HasSoundSystem d) {n : Int} (hn : numChannelsFromLayout d = .ok n) :
    ∃ x, createPassThrough c d = .ok x ∧ ∀ r, x = some r → Works r n := by
  have : ∃ x, createPassThrough c d = .ok x := by
    obtain ⟨y, h, -⟩ := orNull_reports (x := do
      let l ← findEquivalentLayer d c.layers
      let labels ← l.orderedLabels
      .ok (ElementRenderer.passThrough labels)) (Q := fun _ => True)
      ((find_layer_mild hd c.layers).bind fun l _ => (ordered_mild l).bind fun _ _ => trivial)
    exact ⟨y, h⟩
  obtain ⟨x, hx⟩ := this
  refine ⟨x, hx, ?_⟩
  rintro r rfl
  obtain ⟨labels, rfl, -, h1, h2, -⟩ := C39_channels_go_to_their_loudspeakers c d r hx
  rw [hn, Except.ok.injEq] at h2
  rw [h2]
  exact pass_works h1

private theorem inputs_places {k : LayoutKey} (h : ∀ n, k ≠ .ambisonics n) : keyInputs k = (keyPlaces k).length := by
  cases k <;> first | rfl | exact absurd rfl (h _)

private theorem channels_made {E : RenderEnv} (hE : GoodEnv E) (c : ScalableLayout) {d : Layout} (hd : HasSoundSystem d) {n : Int}
    (hn : numChannelsFromLayout d = .ok n) : ∃ x, createChannels E c d = .ok x ∧ ∀ r, x = some r → Works r n := by
  unfold createChannels
  split
  · exact ⟨none, rfl, nofun⟩
  · rename_i l _
    refine orNull_reports ?_
    cases h1 : l.orderedLabels with
    | error e => exact (ordered_mild l).of.2 e h1
    | ok labels =>
      cases h2 : l.inputKey with
      | error e => exact (input_mild l).of.2 e h2
      | ok i =>
        cases h3 : d.outputKey with
        | error e => exact (output_mild hd).of.2 e h3
        | ok o =>
          cases h4 : E.gains i o with
          | error e =>
            simp only [Bind.bind, Except.bind, h4]
            exact hE.mild i o e h4
          | ok g =>
            simp only [Bind.bind, Except.bind, hn, h4]
            show Works _ n
            obtain ⟨f1, f2⟩ := input_fits h1 h2
            rw [num_places hd hn, output_places h3]
            exact channels_work (ordered_not_empty h1) f1.length_eq (by rw [← inputs_places f2]; exact hE.shape i o g h4)

private theorem mapM_reports {α β : Type} {f : α → Except Err β} : ∀ {l : List α}, (∀ x ∈ l, Reports (f x) fun _ => True) →
    Reports (l.mapM f) fun _ => True
  | [], _ => trivial
  | a :: l, h => by
    rw [List.mapM_cons]
    exact (h a (by simp)).bind fun _ _ => (mapM_reports fun x hx => h x (by simp [hx])).bind fun _ _ => trivial

private theorem square_reports (c : UInt8) : Reports (ambisonicsOrder c) fun n => c.toNat = (n + 1) * (n + 1) := by
  unfold Reports
  split
  · exact order_square ‹_›
  · rename_i e he
    unfold ambisonicsOrder at he
    split at he
    · cases he
    · simp only [Except.error.injEq] at he; subst he; rfl

private theorem mono_labels_made {m : AmbisonicsMono} (hm : AmbisonicsMono.create m.substreamCount m.channelMapping = .ok m)
    (ids : List UInt32) (sub : SubstreamLabels) : Reports (monoLabels ids sub m) fun ls => ls.length = m.channelMapping.length := by
  unfold Reports
  split
  · rename_i ls h
    unfold monoLabels at h
    split at h
    · cases h
    · exact (mapM_forall₂ h).length_eq.symm
  · rename_i e he
    unfold monoLabels at he
    split at he
    · simp only [Except.error.injEq] at he; subst he; rfl
    · rename_i hlen
      simp only [ne_eq, Decidable.not_not] at hlen
      have hb : ∀ v ∈ m.channelMapping, v = 255 ∨ v < m.substreamCount := by
        unfold AmbisonicsMono.create at hm
        split at hm
        · cases hm
        · split at hm
          · cases hm
          · split at hm
            · cases hm
            · rename_i h
              have h' : ∀ x ∈ m.channelMapping, ¬x = 255 → x < m.substreamCount := by simpa [monoMappingInBounds] using h
              exact fun v hv => Decidable.or_iff_not_imp_left.mpr (h' v hv)
      refine (mapM_reports fun v hv => ?_).of.2 e he
      rcases hb v hv with rfl | hlt
      · trivial
      · by_cases h255 : v = 255
        · rw [if_pos h255]; trivial
        · rw [if_neg h255]
          rw [UInt8.lt_iff_toNat_lt] at hlt
          rw [List.getElem?_eq_getElem (by omega)]
          simp only
          split <;> first | rfl | trivial

private theorem projection_labels_made {p : AmbisonicsProjection} (ids : List UInt32) (sub : SubstreamLabels) :
    Reports (projectionLabels ids sub p) fun ls => ls.length = p.substreamCount.toNat + p.coupledSubstreamCount.toNat := by
  unfold projectionLabels
  split
  · rfl
  · refine (mapM_reports (f := _) fun s _ => ?_).bind fun ls _ => ?_
    · split <;> first | rfl | trivial
    · split
      · rfl
      · rename_i h
        exact (Decidable.not_not.mp h : ls.flatten.length = _)

/-- No substream is for a channel that is left out. -/
def AllSound (sub : SubstreamLabels) : Prop := ∀ s ls, sub.lookup s = some ls → .omitted ∉ ls

private theorem mono_active {m : AmbisonicsMono} (hm : AmbisonicsMono.create m.substreamCount m.channelMapping = .ok m) :
    ∃ v ∈ m.channelMapping, v ≠ 255 := by
  unfold AmbisonicsMono.create at hm
  split at hm
  · cases hm
  · split at hm
    · cases hm
    · rename_i ha
      split at hm
      · cases hm
      · split at hm
        · cases hm
        · rename_i hb
          simp only [Bool.not_eq_true', Bool.and_eq_false_iff, decide_eq_false_iff_not, not_or, Decidable.not_not] at ha
          simp only [ne_eq, Decidable.not_not] at hb
          cases hf : m.channelMapping.filter (fun i => i != 255) with
          | nil => rw [hf] at hb; simp at hb; omega
          | cons v l =>
            have : v ∈ m.channelMapping.filter (fun i => i != 255) := by rw [hf]; simp
            exact ⟨v, (List.mem_filter.mp this).1, by simpa using (List.mem_filter.mp this).2⟩

private theorem mono_sound {m : AmbisonicsMono} (hm : AmbisonicsMono.create m.substreamCount m.channelMapping = .ok m)
    {ids : List UInt32} {sub : SubstreamLabels} (hs : AllSound sub) {labels : List Label} (h : monoLabels ids sub m = .ok labels) :
    ∃ l ∈ labels, l ≠ .omitted := by
  obtain ⟨v, hv, hne⟩ := mono_active hm
  unfold monoLabels at h
  split at h
  · cases h
  · have := mapM_forall₂ h
    obtain ⟨i, hi, rfl⟩ := List.getElem_of_mem hv
    have hi' : i < labels.length := by rw [← this.length_eq]; exact hi
    have hx := this.get hi hi'
    refine ⟨labels[i], List.getElem_mem _, ?_⟩
    simp only [List.get_eq_getElem, if_neg hne] at hx
    split at hx
    · cases hx
    · split at hx
      · cases hx
      · rename_i heq
        simp only [Except.ok.injEq] at hx
        have := hs _ _ heq
        simp only [List.mem_singleton] at this
        rw [← hx]
        exact fun h => this h.symm
      · cases hx

private theorem scene_made {E : RenderEnv} (hE : GoodEnv E) (c : Ambisonics)
    (hm : ∀ m, c = .mono m → AmbisonicsMono.create m.substreamCount m.channelMapping = .ok m)
    (hp : ∀ p, c = .projection p →
      AmbisonicsProjection.create p.outputChannelCount p.substreamCount p.coupledSubstreamCount p.demixingMatrix = .ok p)
    (ids : List UInt32) {sub : SubstreamLabels} (hs : AllSound sub) {d : Layout} (hd : HasSoundSystem d) {n : Int}
    (hn : numChannelsFromLayout d = .ok n) :
    ∃ x, createScene E c ids sub d = .ok x ∧ ∀ r, x = some r → Works r n := by
  refine orNull_reports ?_
  cases c with
  | mono m =>
    replace hm := hm m rfl
    simp only
    cases h1 : monoLabels ids sub m with
    | error e => exact (mono_labels_made hm ids sub).of.2 e h1
    | ok labels =>
      refine Reports.bind (Q := fun l => l = labels) rfl ?_
      intro labels' hlab
      subst hlab
      refine (output_mild hd).bind fun o h2 => (square_reports _).bind fun order h3 => ?_
      cases h4 : E.gains (.ambisonics order) o with
      | error e => exact hE.mild _ o e h4
      | ok g =>
        simp only [Bind.bind, Except.bind, hn]
        obtain ⟨-, s2⟩ := hE.shape _ o g h4
        unfold activeGains
        by_cases hlen : g.length ≠ labels'.length
        · rw [if_pos hlen]; rfl
        · rw [if_neg hlen]
          simp only [ne_eq, Decidable.not_not] at hlen
          dsimp only
          obtain ⟨l, l1, l2⟩ := mono_sound hm hs h1
          have hl : labels' = (labels'.zip g).map (·.1) := by rw [List.map_fst_zip (by omega)]
          rw [hl] at l1
          obtain ⟨q, q1, rfl⟩ := List.mem_map.mp l1
          have hmem : q ∈ (labels'.zip g).filter fun p => decide (p.1 ≠ .omitted) := List.mem_filter.mpr ⟨q1, by simpa using l2⟩
          rw [if_neg (fun h => by rw [h] at hmem; simp at hmem)]
          show Works _ n
          rw [num_places hd hn, h2]
          refine scene_works ?_ (rows := ((labels'.zip g).filter fun p => decide (p.1 ≠ .omitted)).length) ⟨by simp, ?_⟩ (by simp)
          · intro h
            replace h := List.map_eq_nil_iff.mp h
            rw [h] at hmem
            simp at hmem
          · intro row hrow
            simp only [List.mem_map, List.mem_filter] at hrow
            obtain ⟨p, ⟨hp, -⟩, rfl⟩ := hrow
            exact s2 _ (List.of_mem_zip hp).2
  | projection p =>
    replace hp := hp p rfl
    refine (projection_labels_made ids sub).bind fun labels h1 => (output_mild hd).bind fun o h2 => (square_reports _).bind fun order h3 => ?_
    cases h4 : E.gains (.ambisonics order) o with
    | error e => exact hE.mild _ o e h4
    | ok g =>
      simp only [Bind.bind, Except.bind, hn]
      have hg := hE.shape _ o g h4
      rw [show keyInputs (.ambisonics order) = p.outputChannelCount.toNat from h3.symm] at hg
      have hv := projection_valid hp
      rw [combined_spec p g hg (by rw [h3]; exact Nat.mul_pos (by omega) (by omega)) hv.2]
      show Works _ n
      rw [num_places hd hn, h2]
      refine scene_works ?_ (rows := labels.length) ⟨by simp [h1], ?_⟩ (Nat.le_refl _)
      · rintro rfl
        simp only [List.length_nil] at h1
        omega
      · intro row hrow
        simp only [List.mem_map] at hrow
        obtain ⟨_, -, rfl⟩ := hrow
        simp

/-- **C39 (never a crash).** Making a renderer for any audio element and any layout ends with a renderer or with none.  A renderer gives
the channels of the layout, all of the same length, or a status, whatever frame it is given. -/
theorem C39_made_renderers_work (E : RenderEnv) (hE : GoodEnv E) (e : AudioElement) (he : SceneOk e) (sub : SubstreamLabels)
    (hs : AllSound sub) (rc : RenderingConfig) (d : Layout) (hd : HasSoundSystem d) (n : Int) (hn : numChannelsFromLayout d = .ok n) :
    ∃ x, createRenderer E e sub rc d = .ok x ∧ ∀ r, x = some r → Works r n := by
  have hbin : (rc.headphonesMode == 1 && d.type == 3) = true → ∀ x c, x = (E.binaural c).map ElementRenderer.binaural →
      ∀ r, x = some r → Works r n := by
    rintro hb x c rfl r hr
    obtain ⟨f, hf, rfl⟩ := Option.map_eq_some_iff.mp hr
    have h3 : d.type = 3 := by simp at hb; exact hb.2
    have hn2 : n = 2 := by
      unfold numChannelsFromLayout at hn
      rw [if_pos h3] at hn
      simpa using hn.symm
    intro frameSize _ t fr
    have := hE.binaural c f fr hf
    unfold Reports at this ⊢
    unfold ElementRenderer.render
    simp only
    split at this
    · rename_i a heq
      exact ⟨by rw [hn2, this.1]; rfl, this.2⟩
    · rename_i e heq
      exact this
  have hd' : ∀ b : Bool, HasSoundSystem (if b && d.type == 3 then stereoLayout else d) ∧
      numChannelsFromLayout (if b && d.type == 3 then stereoLayout else d) = .ok n := by
    intro b
    by_cases hb : (b && d.type == 3) = true
    · rw [if_pos hb]
      have h3 : d.type = 3 := by simp at hb; exact hb.2
      refine ⟨fun _ => ⟨0, 0, rfl⟩, ?_⟩
      rw [← hn]
      unfold numChannelsFromLayout
      rw [if_pos h3]
      rfl
    · rw [if_neg hb]
      exact ⟨hd, hn⟩
  unfold createRenderer
  simp only
  obtain ⟨d1, d2⟩ := hd' (!(rc.headphonesMode == 1 && d.type == 3))
  generalize (if (!(rc.headphonesMode == 1 && d.type == 3) && d.type == 3) = true then stereoLayout else d) = d' at d1 d2 ⊢
  split
  · split
    · rename_i c hc
      split
      · rename_i hb
        exact ⟨_, rfl, hbin hb _ _ rfl⟩
      · exact scene_made hE c (fun m h => he.1 m (by rw [hc, h])) (fun p h => he.2 p (by rw [hc, h])) _ hs d1 d2
    · exact ⟨none, rfl, nofun⟩
  · split
    · split
      · rename_i c hc
        obtain ⟨x, x1, x2⟩ := pass_made c d1 d2
        rw [x1]
        simp only [Bind.bind, Except.bind]
        cases x with
        | some r => exact ⟨_, rfl, x2⟩
        | none =>
          simp only
          split
          · rename_i hb
            exact ⟨_, rfl, hbin hb _ _ rfl⟩
          · exact channels_made hE c d1 d2
      · exact ⟨none, rfl, nofun⟩
    · exact ⟨none, rfl, nofun⟩

/-- **C39 (a renderer exists).** If there are gains for all layouts then a channel-based audio element, whose highest layer has a layout
that is known and not binaural, can be rendered to every sound system. -/
theorem C39_a_renderer_exists (E : RenderEnv) (hE : ∀ i o, ∃ g, E.gains i o = .ok g) (e : AudioElement) (ht : e.elementType = 0)
    (c : ScalableLayout) (hc : e.config = .scalable c) (l : ChannelLayer) (hl : c.layers.getLast? = some l) (labels : List Label)
    (ho : l.orderedLabels = .ok labels) (hb : l.layout ≠ 9) (sub : SubstreamLabels) (rc : RenderingConfig) (s r : UInt8) (hs : s.toNat ≤ 14) :
    ∃ x, createRenderer E e sub rc ⟨2, .soundSystem s r⟩ = .ok (some x) := by
  have hd : HasSoundSystem ⟨2, .soundSystem s r⟩ := fun _ => ⟨s, r, rfl⟩
  have hkey : ∃ o, (⟨2, .soundSystem s r⟩ : Layout).outputKey = .ok o := by
    unfold Layout.outputKey
    rw [if_pos rfl]
    simp only
    have h : ∀ n < 15, okAnd (soundSystemKey (UInt8.ofNat n)) (fun _ => true) = true := by decide +kernel
    have h := h s.toNat (by omega)
    rw [UInt8.ofNat_toNat] at h
    cases hk : soundSystemKey s with
    | ok o => exact ⟨o, rfl⟩
    | error e => rw [hk] at h; cases h
  have hnum : ∃ n, numChannelsFromLayout ⟨2, .soundSystem s r⟩ = .ok n := by
    have hc := channels_check s.toNat s.toNat_lt
    rw [UInt8.ofNat_toNat] at hc
    have he : numChannelsFromLayout ⟨2, .soundSystem s r⟩ = numChannelsFromLayout ⟨2, .soundSystem s 0⟩ := rfl
    rw [he]
    split at hc
    · exact ⟨_, ‹_›⟩
    · exfalso
      obtain ⟨o, h⟩ := hkey
      have h1 := output_places h
      unfold placesOf at h1
      rw [if_neg (show ¬ (2 : UInt8) = 3 by decide)] at h1
      simp only at h1
      rw [hc] at h1
      unfold Layout.outputKey at h
      rw [if_pos rfl] at h
      simp only at h
      unfold soundSystemKey at h
      split at h <;> first | cases h; done | (simp only [Except.ok.injEq] at h; subst h; revert h1; decide)
  have hin : ∃ i, l.inputKey = .ok i := by
    unfold ChannelLayer.orderedLabels at ho
    unfold ChannelLayer.inputKey
    by_cases hx : l.layout = kLayoutExpanded
    · rw [if_pos hx] at ho ⊢
      cases hexp : l.expanded with
      | none => rw [hexp] at ho; cases ho
      | some e =>
        rw [hexp] at ho
        simp only at ho ⊢
        unfold expandedLayoutLabels at ho
        unfold expandedInputKey
        split at ho <;> first | cases ho; done | (rename_i h; rw [h]; exact ⟨_, rfl⟩)
    · rw [if_neg hx] at ho ⊢
      unfold plainLayoutLabels at ho
      split at ho <;> rename_i h <;> first
        | cases ho; done
        | (rw [h]; exact ⟨_, rfl⟩)
        | (exact absurd (UInt8.toNat_inj.mp h) hb)
  unfold createRenderer
  simp only
  rw [if_neg (show ¬ ((!(rc.headphonesMode == 1 && (2 : UInt8) == 3) && (2 : UInt8) == 3) = true) by simp),
    if_neg (by rw [ht]; decide), if_pos ht, hc]
  simp only
  obtain ⟨n, hn⟩ := hnum
  obtain ⟨y, y1, -⟩ := pass_made c hd hn
  rw [y1]
  simp only [Bind.bind, Except.bind]
  cases y with
  | some y => exact ⟨y, rfl⟩
  | none =>
    simp only
    rw [if_neg (by simp)]
    obtain ⟨i, hi⟩ := hin
    obtain ⟨o, ho'⟩ := hkey
    obtain ⟨g, hg⟩ := hE i o
    refine ⟨.channels labels i o g, ?_⟩
    unfold createChannels
    rw [hl]
    simp only [ho, hi, ho', hg, hn, Bind.bind, Except.bind, orNull]

/-- **C39 (headphones).** Unless a mix asks for binaural rendering, what is for headphones is rendered as for stereo loudspeakers. -/
theorem C39_headphones_get_stereo (E : RenderEnv) (e : AudioElement) (sub : SubstreamLabels) (rc : RenderingConfig)
    (h : rc.headphonesMode ≠ 1) (x : SpecificLayout) :
    createRenderer E e sub rc ⟨3, x⟩ = createRenderer E e sub rc ⟨2, .soundSystem 0 0⟩ := by
  have h' : (rc.headphonesMode == 1) = false := by simpa using h
  unfold createRenderer
  simp only [h', Bool.false_and, Bool.not_false, Bool.true_and, beq_self_eq_true, if_true, Bool.false_eq_true, if_false,
    show ((2 : UInt8) == 3) = false from rfl, stereoLayout]

/-- **C39 (finding).** A channel mapping that uses a substream for two ambisonics channels is accepted, but then there is no renderer, for
any layout. -/
theorem C39_doubled_substream_has_no_renderer (E : RenderEnv) (d : Layout) :
    AmbisonicsMono.create 1 [0, 0, 255, 255] = .ok ⟨1, [0, 0, 255, 255]⟩ ∧
    finalizeMono [10] [0, 0, 255, 255] 0 [] = .ok [(10, [.a 0, .a 1])] ∧
    createScene E (.mono ⟨1, [0, 0, 255, 255]⟩) [10] [(10, [.a 0, .a 1])] d = .ok none := by
  refine ⟨by decide +kernel, by decide +kernel, ?_⟩
  have : monoLabels [10] [(10, [.a 0, .a 1])] ⟨1, [0, 0, 255, 255]⟩ = .error .invalidArgument := by decide +kernel
  unfold createScene
  simp only [this, Bind.bind, Except.bind, orNull]
  rfl

/-! ### Examples -/

/-- Matrices of ones. -/
def exampleEnv : RenderEnv := ⟨fun i o => .ok (List.replicate (keyInputs i) (List.replicate (keyPlaces o).length 1)), fun _ => none⟩

example : GoodEnv exampleEnv where
  shape i o g h := by
    simp only [exampleEnv, Except.ok.injEq] at h
    subst h
    exact ⟨by simp, fun r hr => by rw [(List.mem_replicate.mp hr).2]; simp⟩
  mild _ _ _ h := by cases h
  binaural _ _ _ h := by cases h

/-- 5.1.2 is passed through to sound system C, in front of it a layer of stereo; and rendered with gains to 7.1.4. -/
def exampleLayers : ScalableLayout := ⟨0, [⟨1, false, false, 0, 1, 1, 0, 0, 0, none⟩, ⟨3, false, false, 0, 4, 2, 0, 0, 0, none⟩]⟩

private def kindOf : Except Err (Option ElementRenderer) → Option (Nat × List Label)
  | .ok (some (.passThrough ls)) => some (0, ls)
  | .ok (some (.channels ls _ _ _)) => some (1, ls)
  | .ok (some (.scene ls _)) => some (2, ls)
  | .ok none => some (3, [])
  | _ => none

example : kindOf (createPassThrough exampleLayers ⟨2, .soundSystem 2 0⟩) = some (0, [.l5, .r5, .centre, .lfe, .ls5, .rs5, .ltf2, .rtf2]) ∧
    kindOf (createPassThrough exampleLayers ⟨2, .soundSystem 9 0⟩) = some (3, []) ∧
    kindOf (createChannels exampleEnv exampleLayers ⟨2, .soundSystem 9 0⟩) =
      some (1, [.l5, .r5, .centre, .lfe, .ls5, .rs5, .ltf2, .rtf2]) := by decide +kernel

/-- First order ambisonics, of which one channel is missing, in mono mode; and zeroth and first channel from one stereo substream in
projection mode. -/
example : AmbisonicsMono.create 3 [0, 255, 1, 2] = .ok ⟨3, [0, 255, 1, 2]⟩ ∧
    kindOf (createScene exampleEnv (.mono ⟨3, [0, 255, 1, 2]⟩) [10, 11, 12] [(10, [.a 0]), (11, [.a 2]), (12, [.a 3])] stereoLayout) =
      some (2, [.a 0, .a 2, .a 3]) ∧
    AmbisonicsProjection.create 4 1 1 [16384, 0, 0, 0, 0, 16384, 0, 0] = .ok ⟨4, 1, 1, [16384, 0, 0, 0, 0, 16384, 0, 0]⟩ ∧
    kindOf (createScene exampleEnv (.projection ⟨4, 1, 1, [16384, 0, 0, 0, 0, 16384, 0, 0]⟩) [10] [(10, [.a 0, .a 1])] stereoLayout) =
      some (2, [.a 0, .a 1]) := by decide +kernel

/-- The top front pair: it goes to its places in 7.1.4. -/
example : ∃ x, finalizeScalable [7] ⟨0, [⟨15, false, false, 0, 1, 1, 0, 0, 0, some 4⟩]⟩ = .ok x ∧ allLabels x.labels = [.ltf4, .rtf4] ∧
    kindOf (createPassThrough ⟨0, [⟨15, false, false, 0, 1, 1, 0, 0, 0, some 4⟩]⟩ ⟨2, .soundSystem 9 0⟩) =
      some (0, [.omitted, .omitted, .omitted, .omitted, .omitted, .omitted, .omitted, .omitted, .ltf4, .rtf4, .omitted, .omitted]) :=
  ⟨⟨[(7, [.ltf4, .rtf4])], [], [⟨0, 0, 2, 0⟩]⟩, by decide +kernel⟩

/-- 7.1.4 with down-mixing parameters. -/
def exampleSeven : RenderFrame :=
  ⟨fun l => if l ∈ sevenOneFour then some [1, 2] else none, 0, 0, ⟨10000, 8660, 8660, 8660, -1, 0, 0, true⟩⟩

example : HasTicks exampleSeven sevenOneFour 2 ∧ exampleSeven.mixing.inBitstream = true :=
  ⟨⟨⟨.l7, by decide, by decide⟩, fun l hl hne => ⟨[1, 2], by simp [findSamples, exampleSeven, hl], rfl⟩⟩, rfl⟩

end Iamf.Props
