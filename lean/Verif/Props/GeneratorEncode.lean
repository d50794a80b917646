import Verif.Props.GeneratorRound
import Mathlib.Data.List.Forall2
/-
  Lemmas for C44: one pass over the substreams of an audio element.
-/
namespace Iamf.Props
open Iamf

/-! ### Encoders -/

/-- What is assumed about the encoders in use: which frames an encoder has taken and not given back yet, and which bytes a frame may become. -/
structure EncoderSpec (L : EncoderLib) where
  holding : UInt32 → L.State → List (List (List Int32) × GenFrame) → Prop
  coded : List (List Int32) → GenFrame → List UInt8 → Prop

/-- A frame comes back as it was, with bytes that stand for its samples. -/
def EncoderSpec.Answers {L : EncoderLib} (C : EncoderSpec L) (a : List (List Int32) × GenFrame) (b : GenFrame × List UInt8) : Prop :=
  b.1 = a.2 ∧ C.coded a.1 a.2 b.2

/-- Encoders give back every frame once, in order: some time after it was taken, and no later than when they are finalized.  They report
failures, and do not crash, at least when all channels have equally many samples. -/
structure Faithful (L : EncoderLib) (C : EncoderSpec L) : Prop where
  encode : ∀ (s : UInt32) (e : Encoder L.State) (w : List (List (List Int32) × GenFrame)) (x : List (List Int32)) (f : GenFrame),
    C.holding s e.inner w → e.finished = false → f.substream = s → (∀ c ∈ x, ∀ d ∈ x, c.length = d.length) →
    Reports (L.encode e x f) fun e' => e'.finished = false ∧ ∃ ins out w', w ++ [(x, f)] = ins ++ w' ∧ C.holding s e'.inner w' ∧
      e'.done = e.done ++ out ∧ List.Forall₂ C.Answers ins out
  finalize : ∀ (s : UInt32) (e : Encoder L.State) (w : List (List (List Int32) × GenFrame)), C.holding s e.inner w → e.finished = false →
    Reports (L.finalize e) fun e' => e'.finished = true ∧ ∃ out, e'.done = e.done ++ out ∧ List.Forall₂ C.Answers w out

/-- An encoder that was given `ins`, and from which `sent` was taken. -/
def Serves {L : EncoderLib} (C : EncoderSpec L) (s : UInt32) (ins : List (List (List Int32) × GenFrame)) (sent : List (GenFrame × List UInt8))
    (x : Encoder L.State) : Prop :=
  ∃ in1 w, ins = in1 ++ w ∧ C.holding s x.inner w ∧ List.Forall₂ C.Answers in1 (sent ++ x.done)

theorem serves_encode {L : EncoderLib} {C : EncoderSpec L} (F : Faithful L C) {s : UInt32} {ins : List (List (List Int32) × GenFrame)}
    {sent : List (GenFrame × List UInt8)} {x : Encoder L.State} (h : Serves C s ins sent x) (hf : x.finished = false) (y : List (List Int32))
    (f : GenFrame) (hs : f.substream = s) (hy : ∀ c ∈ y, ∀ d ∈ y, c.length = d.length) :
    Reports (L.encode x y f) fun x' => x'.finished = false ∧ Serves C s (ins ++ [(y, f)]) sent x' := by
  obtain ⟨in1, w, rfl, hw, h1⟩ := h
  have := F.encode s x w y f hw hf hs hy
  generalize L.encode x y f = r at this ⊢
  cases r with
  | error e => exact this
  | ok x' =>
    obtain ⟨h2, ins2, out, w', h3, h4, h5, h6⟩ := this
    refine ⟨h2, in1 ++ ins2, w', ?_, h4, ?_⟩
    · rw [List.append_assoc, h3, List.append_assoc]
    · rw [h5, ← List.append_assoc]
      exact List.rel_append h1 h6

/-! ### What changes -/

/-- Nothing but the given substreams changed. -/
structure Outside {σ : Type} (ids : List UInt32) (g g' : FrameGenerator σ) : Prop where
  labels : g'.labels = g.labels
  elements : g'.elements = g.elements
  order : g'.order = g.order
  samples : g'.samples = g.samples
  downMixing : g'.downMixing = g.downMixing
  phase : g'.phase = g.phase
  delay : g'.delay = g.delay
  data : ∀ i, i ∉ ids → g'.data i = g.data i
  encoders : ∀ i, i ∉ ids → g'.encoders i = g.encoders i
  trimming : ∀ i, i ∉ ids → g'.trimming i = g.trimming i
  stamps : ∀ i, i ∉ ids → g'.timing.frames.lookup i = g.timing.frames.lookup i

theorem Outside.refl {σ : Type} (ids : List UInt32) (g : FrameGenerator σ) : Outside ids g g :=
  ⟨rfl, rfl, rfl, rfl, rfl, rfl, rfl, fun _ _ => rfl, fun _ _ => rfl, fun _ _ => rfl, fun _ _ => rfl⟩

theorem Outside.trans {σ : Type} {ids : List UInt32} {g g' g'' : FrameGenerator σ} (h : Outside ids g g') (h' : Outside ids g' g'') :
    Outside ids g g'' :=
  ⟨h'.labels.trans h.labels, h'.elements.trans h.elements, h'.order.trans h.order, h'.samples.trans h.samples, h'.downMixing.trans h.downMixing,
    h'.phase.trans h.phase, h'.delay.trans h.delay, fun i hi => (h'.data i hi).trans (h.data i hi),
    fun i hi => (h'.encoders i hi).trans (h.encoders i hi), fun i hi => (h'.trimming i hi).trans (h.trimming i hi),
    fun i hi => (h'.stamps i hi).trans (h.stamps i hi)⟩

theorem Outside.mono {σ : Type} {ids ids' : List UInt32} {g g' : FrameGenerator σ} (h : Outside ids g g') (hs : ∀ i ∈ ids, i ∈ ids') :
    Outside ids' g g' :=
  ⟨h.labels, h.elements, h.order, h.samples, h.downMixing, h.phase, h.delay, fun i hi => h.data i fun hc => hi (hs i hc),
    fun i hi => h.encoders i fun hc => hi (hs i hc), fun i hi => h.trimming i fun hc => hi (hs i hc), fun i hi => h.stamps i fun hc => hi (hs i hc)⟩

/-- A substream that takes samples: its queues, its encoder, the time of its next frame, and its trimming. -/
structure OpenAt {L : EncoderLib} (C : EncoderSpec L) (n : UInt32) (g : FrameGenerator L.State) (s : UInt32) (ls : List Label) (Q : Label → List Rat)
    (E : Label → List Int32) (te ts : UInt32) (stamp : Int) (ins : List (List (List Int32) × GenFrame)) (sent : List (GenFrame × List UInt8))
    (t : TrimmingState) : Prop where
  data : ∃ d, g.data s = some d ∧ Cell n.toNat ls Q E te ts d
  enc : ∃ x, g.encoders s = some x ∧ x.finished = false ∧ Serves C s ins sent x
  stamp : ∃ r, g.timing.frames.lookup s = some ⟨r, stamp⟩
  trim : g.trimming s = some t

theorem OpenAt.outside {L : EncoderLib} {C : EncoderSpec L} {n : UInt32} {g g' : FrameGenerator L.State} {s : UInt32} {ls : List Label}
    {Q : Label → List Rat} {E : Label → List Int32} {te ts : UInt32} {stamp : Int} {ins : List (List (List Int32) × GenFrame)}
    {sent : List (GenFrame × List UInt8)} {t : TrimmingState} (h : OpenAt C n g s ls Q E te ts stamp ins sent t) {ids : List UInt32}
    (ho : Outside ids g g') (hs : s ∉ ids) : OpenAt C n g' s ls Q E te ts stamp ins sent t := by
  obtain ⟨h1, h2, h3, h4⟩ := h
  exact ⟨by rw [ho.data s hs]; exact h1, by rw [ho.encoders s hs]; exact h2, by rw [ho.stamps s hs]; exact h3, by rw [ho.trimming s hs]; exact h4⟩

/-! ### Timestamps -/

theorem lookup_advanced (id : UInt32) (d : Int) (m : List (UInt32 × TimingData)) (i : UInt32) :
    (advance id d m).lookup i = (m.lookup i).map fun t => if i = id then ⟨t.rate, t.timestamp + d⟩ else t := by
  induction m with
  | nil => rfl
  | cons x m ih =>
    obtain ⟨j, t⟩ := x
    simp only [advance]
    split
    next h =>
      subst h
      simp only [List.lookup]
      split
      next h => simp only [beq_iff_eq] at h; subst h; simp
      next h => simp only [beq_eq_false_iff_ne, ne_eq] at h; simp [h]
    next h =>
      simp only [List.lookup]
      split
      next h' => simp only [beq_iff_eq] at h'; subst h'; simp [h]
      · exact ih

/-! ### One frame -/

/-- The smaller of two numbers, as it is computed when frames are trimmed. -/
private theorem trim_min (n t : UInt32) : (if n ≤ t then n else t).toNat = min n.toNat t.toNat := by
  by_cases h : n ≤ t
  · rw [if_pos h]; rw [UInt32.le_iff_toNat_le] at h; omega
  · rw [if_neg h]; rw [UInt32.le_iff_toNat_le] at h; omega

/-- What is trimmed from one frame. -/
def trimOf (n t : UInt32) : UInt32 := if n ≤ t then n else t

/-- The frame for a substream. -/
def frameAt (n : UInt32) (element s : UInt32) (ls : List Label) (Q : Label → List Rat) (te ts : UInt32) (stamp : Int) (p : DownMixingParams) : GenFrame :=
  ⟨s, trimOf n te ≠ 0 || trimOf n ts ≠ 0, trimOf n te, trimOf n ts, stamp, stamp + n.toNat, ls.map fun l => (Q l).take n.toNat, p, element⟩

private theorem encodeFrame_spec {L : EncoderLib} {C : EncoderSpec L} (F : Faithful L C) {n : UInt32} {g : FrameGenerator L.State} {s : UInt32}
    {ls : List Label} {Q : Label → List Rat} {E : Label → List Int32} {te ts : UInt32} {stamp : Int} {ins : List (List (List Int32) × GenFrame)}
    {sent : List (GenFrame × List UInt8)} {t : TrimmingState} (h : OpenAt C n g s ls Q E te ts stamp ins sent t) {d : SubstreamData}
    (hd : Cell n.toNat ls Q E te ts d) {ko ke : Nat} (hQ : ∀ l ∈ ls, (Q l).length = ko) (hE : ∀ l ∈ ls, (E l).length = ke) (element : UInt32)
    (p : DownMixingParams) (now : Option Int) (hnow : ∀ x, now = some x → x = stamp) :
    Reports (g.encodeFrame L element n s d (ls.map fun l => (Q l).take n.toNat) (ls.map fun l => (E l).take n.toNat) p now) fun y =>
      y.1 = some stamp ∧ Outside [s] g y.2 ∧ y.2.parameters = g.parameters ∧
      OpenAt C n y.2 s ls (fun l => (Q l).drop n.toNat) (fun l => (E l).drop n.toNat) (te - trimOf n te) (ts - trimOf n ts) (stamp + n.toNat)
        (ins ++ [(ls.map fun l => (E l).take n.toNat, frameAt n element s ls Q te ts stamp p)]) sent t := by
  obtain ⟨r, hr⟩ := h.stamp
  obtain ⟨x, hx, hf, hserve⟩ := h.enc
  unfold FrameGenerator.encodeFrame
  have hnext : g.timing.nextFrame s n = ((.ok (), stamp, stamp + n.toNat), { g.timing with frames := advance s n.toNat g.timing.frames }) := by
    unfold TimingModule.nextFrame timestampsForId
    rw [hr]
  dsimp only
  rw [hnext]
  simp only
  have hany : now.any (fun x => decide (x ≠ stamp)) = false := by
    cases now with
    | none => rfl
    | some y => simp [hnow y rfl]
  rw [hany, if_neg (by simp), hx, hd.trimEnd, hd.trimStart]
  simp only
  refine Reports.bind (serves_encode F hserve hf _ _ rfl (fun c hc d hd => by
    obtain ⟨l, hl, rfl⟩ := List.mem_map.mp hc
    obtain ⟨k, hk, rfl⟩ := List.mem_map.mp hd
    rw [List.length_take, List.length_take, hE l hl, hE k hk])) fun x' hx' => ?_
  refine ⟨rfl, ⟨rfl, rfl, rfl, rfl, rfl, rfl, rfl, ?_, ?_, fun _ _ => rfl, ?_⟩, rfl, ?_⟩
  · intro i hi
    simp only [List.mem_singleton] at hi
    simp [IdMap.set, hi]
  · intro i hi
    simp only [List.mem_singleton] at hi
    simp [IdMap.set, hi]
  · intro i hi
    simp only [List.mem_singleton] at hi
    simp only [lookup_advanced, if_neg hi]
    cases List.lookup i g.timing.frames <;> rfl
  · refine ⟨⟨_, if_pos rfl, cell_pop hd hQ hE _ _⟩, ⟨x', by simp [IdMap.set], hx'.1, hx'.2⟩, ⟨r, ?_⟩, h.trim⟩
    simp only [lookup_advanced, hr, Option.map_some, if_true]

/-! ### The pass over the substreams -/

open FrameGenerator in
/-- Every substream has a whole frame: each gives one to its encoder. -/
theorem encode_full {L : EncoderLib} {C : EncoderSpec L} (F : Faithful L C) {n : UInt32} (hn : 0 < n.toNat) {Q : Label → List Rat}
    {E : Label → List Int32} {te ts : UInt32} {stamp : Int} {ins : UInt32 × List Label → List (List (List Int32) × GenFrame)}
    {sent : UInt32 → List (GenFrame × List UInt8)} {t : UInt32 → TrimmingState} (element : UInt32) (p : DownMixingParams) {ko ke : Nat}
    (hko : n.toNat ≤ ko) (hke : n.toNat ≤ ke) (subs : SubstreamLabels) : ∀ (g : FrameGenerator L.State) (r : Progress), (subs.map Prod.fst).Nodup →
    (∀ x ∈ subs, x.2 ≠ []) → (∀ x ∈ subs, ∀ l ∈ x.2, (Q l).length = ko) → (∀ x ∈ subs, ∀ l ∈ x.2, (E l).length = ke) →
    (∀ y, r.stamp = some y → y = stamp) →
    (∀ x ∈ subs, OpenAt C n g x.1 x.2 Q E te ts stamp (ins x) (sent x.1) (t x.1)) →
    Reports (encodeSubstreams L element n p subs r g) fun y => y.1.stamp = (if subs = [] then r.stamp else some stamp) ∧
      Outside (subs.map Prod.fst) g y.2 ∧ y.2.parameters = g.parameters ∧
      ∀ x ∈ subs, OpenAt C n y.2 x.1 x.2 (fun l => (Q l).drop n.toNat) (fun l => (E l).drop n.toNat) (te - trimOf n te) (ts - trimOf n ts)
        (stamp + n.toNat) (ins x ++ [(x.2.map fun l => (E l).take n.toNat, frameAt n element x.1 x.2 Q te ts stamp p)]) (sent x.1) (t x.1) := by
  induction subs with
  | nil => intro g r _ _ _ _ _ _; exact ⟨rfl, .refl _ _, rfl, fun x hx => (by cases hx)⟩
  | cons x subs ih =>
    intro g r hnd hne hQ hE hnow hopen
    obtain ⟨s, ls⟩ := x
    have h0 := hopen (s, ls) (by simp)
    obtain ⟨d, hd, hcell⟩ := h0.data
    unfold encodeSubstreams
    rw [hd]
    simp only
    have hls := hne (s, ls) (by simp)
    have hQ0 := hQ (s, ls) (by simp)
    have hE0 := hE (s, ls) (by simp)
    simp only at hls hQ0 hE0
    have hemp : d.obu.empty = false := by
      rw [cell_empty hcell hls hQ0]
      simp only [decide_eq_false_iff_not]
      omega
    rw [hemp]
    obtain ⟨obu, enc, a1, a2, a3⟩ := cell_front hcell
    rw [if_neg (by simp), a2]
    simp only [Bind.bind, Except.bind]
    rw [a1]
    simp only
    cases hm : ls.map fun l => (E l).take n.toNat with
    | nil => exact absurd (List.map_eq_nil_iff.mp hm) hls
    | cons c cs =>
      simp only
      have hc : c.length = n.toNat := by
        cases ls with
        | nil => exact absurd rfl hls
        | cons l ls' =>
          rw [List.map_cons, List.cons.injEq] at hm
          rw [← hm.1, List.length_take, hE0 l (by simp)]
          omega
      rw [if_neg (by omega), ← hm]
      rw [List.map_cons, List.nodup_cons] at hnd
      refine Reports.bind (encodeFrame_spec F h0 a3 hQ0 hE0 element p r.stamp hnow) fun y hy => ?_
      obtain ⟨hy1, hy2, hy3, hy4⟩ := hy
      obtain ⟨st, g1⟩ := y
      simp only at hy1 hy2 hy3 hy4 ⊢
      subst hy1
      have hsub : ∀ x ∈ subs, x.1 ∉ [s] := by
        intro x hx hc
        rw [List.mem_singleton] at hc
        have hm := List.mem_map_of_mem (f := Prod.fst) hx
        rw [hc] at hm
        exact hnd.1 hm
      have := ih g1 ⟨some stamp, true⟩ hnd.2 (fun x hx => hne x (by simp [hx])) (fun x hx => hQ x (by simp [hx]))
        (fun x hx => hE x (by simp [hx])) (fun y hy => (Option.some.inj hy).symm)
        (fun x hx => (hopen x (by simp [hx])).outside hy2 (hsub x hx))
      generalize encodeSubstreams L element n p subs ⟨some stamp, true⟩ g1 = q at this ⊢
      cases q with
      | error e => exact this
      | ok y =>
        obtain ⟨b1, b2, b3, b4⟩ := this
        refine ⟨?_, (hy2.mono (by simp)).trans (b2.mono fun i hi => by simp only [List.map_cons, List.mem_cons]; exact .inr hi), b3.trans hy3, ?_⟩
        · rw [b1]; simp
        · intro x hx
          rcases List.mem_cons.mp hx with rfl | hx
          · exact hy4.outside b2 hnd.1
          · exact b4 x hx

open FrameGenerator in
/-- Every substream has something to send along, but not a whole frame to encode: nothing happens, but more is to come. -/
theorem encode_short {L : EncoderLib} {C : EncoderSpec L} {n : UInt32} {Q : Label → List Rat} {E : Label → List Int32} {te ts : UInt32}
    {stamp : Int} {ins : UInt32 × List Label → List (List (List Int32) × GenFrame)} {sent : UInt32 → List (GenFrame × List UInt8)}
    {t : UInt32 → TrimmingState} (element : UInt32) (p : DownMixingParams) {ko ke : Nat} (hko : 0 < ko) (hke : ke < n.toNat)
    (subs : SubstreamLabels) : ∀ (g : FrameGenerator L.State) (r : Progress), (subs.map Prod.fst).Nodup →
    (∀ x ∈ subs, x.2 ≠ []) → (∀ x ∈ subs, ∀ l ∈ x.2, (Q l).length = ko) → (∀ x ∈ subs, ∀ l ∈ x.2, (E l).length = ke) → r.stamp = none →
    (∀ x ∈ subs, OpenAt C n g x.1 x.2 Q E te ts stamp (ins x) (sent x.1) (t x.1)) →
    Reports (encodeSubstreams L element n p subs r g) fun y => y.1.stamp = none ∧ (y.1.more = true ∨ subs = []) ∧
      Outside (subs.map Prod.fst) g y.2 ∧ y.2.parameters = g.parameters ∧
      ∀ x ∈ subs, OpenAt C n y.2 x.1 x.2 Q E te ts stamp (ins x) (sent x.1) (t x.1) := by
  induction subs with
  | nil => intro g r _ _ _ _ hr _; exact ⟨hr, .inr rfl, .refl _ _, rfl, fun x hx => (by cases hx)⟩
  | cons x subs ih =>
    intro g r hnd hne hQ hE hr hopen
    obtain ⟨s, ls⟩ := x
    have h0 := hopen (s, ls) (by simp)
    obtain ⟨d, hd, hcell⟩ := h0.data
    unfold encodeSubstreams
    rw [hd]
    simp only
    have hls := hne (s, ls) (by simp)
    have hQ0 := hQ (s, ls) (by simp)
    have hE0 := hE (s, ls) (by simp)
    simp only at hls hQ0 hE0
    have hemp : d.obu.empty = false := by
      rw [cell_empty hcell hls hQ0]
      simp only [decide_eq_false_iff_not]
      omega
    rw [hemp]
    obtain ⟨obu, enc, a1, a2, a3⟩ := cell_front hcell
    rw [if_neg (by simp), a2]
    simp only [Bind.bind, Except.bind]
    rw [a1]
    simp only
    cases hm : ls.map fun l => (E l).take n.toNat with
    | nil => exact absurd (List.map_eq_nil_iff.mp hm) hls
    | cons c cs =>
      simp only
      have hc : c.length = ke := by
        cases ls with
        | nil => exact absurd rfl hls
        | cons l ls' =>
          rw [List.map_cons, List.cons.injEq] at hm
          rw [← hm.1, List.length_take, hE0 l (by simp)]
          omega
      rw [if_pos (by omega), hr]
      rw [List.map_cons, List.nodup_cons] at hnd
      simp only [Option.isSome_none, Bool.false_eq_true, if_false]
      obtain ⟨g1, hg1⟩ : ∃ g1 : FrameGenerator L.State, g1 = ⟨g.labels, g.elements, g.order, g.encoders, g.samples,
          g.data.set s ⟨obu, enc, d.trimEnd, d.trimStart⟩, g.trimming, g.downMixing, g.parameters, g.timing, g.phase, g.delay⟩ := ⟨_, rfl⟩
      rw [← hg1]
      have hy2 : Outside [s] g g1 := by
        subst hg1
        refine ⟨rfl, rfl, rfl, rfl, rfl, rfl, rfl, ?_, fun _ _ => rfl, fun _ _ => rfl, fun _ _ => rfl⟩
        intro i hi
        simp only [List.mem_singleton] at hi
        simp [IdMap.set, hi]
      have hy4 : OpenAt C n g1 s ls Q E te ts stamp (ins (s, ls)) (sent s) (t s) := by
        subst hg1
        exact ⟨⟨_, if_pos rfl, a3⟩, h0.enc, h0.stamp, h0.trim⟩
      have hsub : ∀ x ∈ subs, x.1 ∉ [s] := by
        intro x hx hc
        rw [List.mem_singleton] at hc
        have hm := List.mem_map_of_mem (f := Prod.fst) hx
        rw [hc] at hm
        exact hnd.1 hm
      have := ih g1 ⟨none, true⟩ hnd.2 (fun x hx => hne x (by simp [hx])) (fun x hx => hQ x (by simp [hx]))
        (fun x hx => hE x (by simp [hx])) rfl (fun x hx => (hopen x (by simp [hx])).outside hy2 (hsub x hx))
      have hmore : subs = [] → encodeSubstreams L element n p subs ⟨none, true⟩ g1 = .ok (⟨none, true⟩, g1) := by
        rintro rfl; rfl
      generalize hq : encodeSubstreams L element n p subs ⟨none, true⟩ g1 = q at this hmore ⊢
      cases q with
      | error e => exact this
      | ok y =>
        obtain ⟨b1, b0, b2, b3, b4⟩ := this
        have hpar : g1.parameters = g.parameters := by subst hg1; rfl
        refine ⟨b1, .inl ?_, (hy2.mono (by simp)).trans (b2.mono fun i hi => by simp only [List.map_cons, List.mem_cons]; exact .inr hi),
          b3.trans hpar, ?_⟩
        · rcases b0 with b0 | b0
          · exact b0
          · have := hmore b0
            rw [Except.ok.injEq] at this
            rw [this]
        · intro x hx
          rcases List.mem_cons.mp hx with rfl | hx
          · exact hy4.outside b2 hnd.1
          · exact b4 x hx

open FrameGenerator in
/-- No substream has anything left. -/
theorem encode_nothing {L : EncoderLib} (n element : UInt32) (p : DownMixingParams) (subs : SubstreamLabels) (g : FrameGenerator L.State)
    (h : ∀ x ∈ subs, ∀ d, g.data x.1 = some d → d.obu.empty = true) :
    encodeSubstreams L element n p subs ⟨none, false⟩ g = .ok (⟨none, false⟩, g) := by
  induction subs with
  | nil => rfl
  | cons x subs ih =>
    obtain ⟨s, ls⟩ := x
    unfold encodeSubstreams
    cases hd : g.data s with
    | none =>
      simp only [Bool.false_eq_true, if_false]
      exact ih fun x hx => h x (by simp [hx])
    | some d =>
      simp only
      rw [h (s, ls) (by simp) d hd, if_pos rfl]
      exact ih fun x hx => h x (by simp [hx])

end Iamf.Props
