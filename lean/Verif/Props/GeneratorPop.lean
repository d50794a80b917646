import Verif.Props.GeneratorOutput
/-
  Lemmas for C44: frames are taken from the encoders, and trimmed.
-/
namespace Iamf.Props
open Iamf

/-! ### Trimming -/

private theorem ofInt_toNat {k : Nat} (h : k < 4294967296) : (UInt32.ofInt (k : Int)).toNat = k := by
  unfold UInt32.ofInt
  rw [UInt32.toNat_ofNat']
  omega

private theorem userTrim_min (n : UInt32) {k : Nat} (h : k < 4294967296) :
    (if n ≤ UInt32.ofInt (k : Int) then n else UInt32.ofInt (k : Int)) = UInt32.ofNat (min n.toNat k) := by
  rw [← UInt32.toNat_inj]
  have h1 := ofInt_toNat h
  have h2 := n.toNat_lt
  have h3 : (UInt32.ofNat (min n.toNat k)).toNat = min n.toNat k := by rw [UInt32.toNat_ofNat']; omega
  rw [h3]
  by_cases hn : n ≤ UInt32.ofInt (k : Int)
  · rw [if_pos hn]; rw [UInt32.le_iff_toNat_le, h1] at hn; omega
  · rw [if_neg hn, h1]; rw [UInt32.le_iff_toNat_le, h1] at hn; omega

open FrameGenerator in
/-- The user's trimming is applied to one frame. -/
theorem applyTrimming_spec {W : World} (hW : W.startTotal < 4294967296) {S : Spot} {H : List Round} (he : W.endTotal S H < 4294967296) (j : Nat)
    (last : Bool) (f : GenFrame) (hf : f.trimFlag = (f.trimEnd ≠ 0 || f.trimStart ≠ 0)) :
    Reports (applyTrimming S.n last (W.trim S H j) f) fun y =>
      y.2 = finalFrame S.n W.startTotal (W.endTotal S H) j last f ∧ (last = false → y.1 = W.trim S H (j + 1)) ∧
        (last = true → W.endTotal S H ≤ S.n.toNat) := by
  unfold applyTrimming applyUserTrim World.trim
  dsimp only
  rw [userTrim_min S.n (k := W.startTotal - j * S.n.toNat) (by omega), userTrim_min S.n he]
  obtain ⟨a, ha⟩ : ∃ a, a = UInt32.ofNat (min S.n.toNat (W.startTotal - j * S.n.toNat)) := ⟨_, rfl⟩
  have hat : a.toNat = min S.n.toNat (W.startTotal - j * S.n.toNat) := by
    rw [ha, UInt32.toNat_ofNat']
    have := S.n.toNat_lt
    omega
  rw [← ha]
  by_cases h1 : a < f.trimStart
  · rw [if_pos h1]; rfl
  rw [if_neg h1, if_neg (by simp)]
  simp only [bind, Except.bind]
  have hz : f.trimStart ≠ 0 → a ≠ 0 := by
    intro h2 h3
    subst h3
    rw [UInt32.lt_iff_toNat_lt] at h1
    rw [ne_eq, ← UInt32.toNat_inj] at h2
    simp only [UInt32.reduceToNat] at h1 h2
    omega
  cases last with
  | false =>
    simp only [Bool.false_eq_true, if_false]
    refine ⟨?_, fun _ => ?_, fun hc => (by cases hc)⟩
    · unfold finalFrame
      rw [hf, ← ha]
      simp only [Bool.false_eq_true, if_false]
      congr 1
      by_cases e1 : f.trimEnd = 0 <;> by_cases e2 : f.trimStart = 0 <;> by_cases e3 : a = 0 <;> simp_all
    · simp only
      congr 1
      rw [hat, Nat.succ_mul]
      omega
  | true =>
    simp only [if_true]
    obtain ⟨b, hb⟩ : ∃ b, b = UInt32.ofNat (min S.n.toNat (W.endTotal S H)) := ⟨_, rfl⟩
    have hbt : b.toNat = min S.n.toNat (W.endTotal S H) := by
      rw [hb, UInt32.toNat_ofNat']
      have := S.n.toNat_lt
      omega
    rw [← hb]
    by_cases h2 : b < f.trimEnd
    · rw [if_pos h2]; rfl
    rw [if_neg h2]
    by_cases h3 : 0 < (W.endTotal S H : Int) - (b.toNat : Int)
    · rw [if_pos ⟨h3, trivial⟩]; rfl
    rw [if_neg fun hc => h3 hc.1]
    have hbe : b = UInt32.ofNat (W.endTotal S H) := by
      rw [hb]; congr 1; omega
    have hz' : f.trimEnd ≠ 0 → b ≠ 0 := by
      intro h4 h5
      rw [h5] at h2
      rw [UInt32.lt_iff_toNat_lt] at h2
      rw [ne_eq, ← UInt32.toNat_inj] at h4
      simp only [UInt32.reduceToNat] at h2 h4
      omega
    refine ⟨?_, fun hc => (by cases hc), fun _ => by omega⟩
    unfold finalFrame
    rw [hf, ← ha, ← hbe]
    simp only [if_true]
    congr 1
    by_cases e1 : f.trimEnd = 0 <;> by_cases e2 : f.trimStart = 0 <;> by_cases e3 : a = 0 <;> by_cases e4 : b = 0 <;> simp_all

/-! ### One frame -/

private theorem answered {L : EncoderLib} {C : EncoderSpec L} {S : Spot} {s : UInt32} {ls : List Label} {H : List Round}
    {in1 w : List (List (List Int32) × GenFrame)} {sent : List (GenFrame × List UInt8)} {f : GenFrame × List UInt8} {d : List (GenFrame × List UInt8)}
    (hi : S.framesFrom s ls [] H = in1 ++ w) (h : List.Forall₂ C.Answers in1 (sent ++ f :: d)) :
    ∃ r, H[sent.length]? = some r ∧ f.1 = (S.frameOf s ls (H.take sent.length) r).2 := by
  have hlen := h.length_eq
  have hil := congrArg List.length hi
  rw [List.length_append, List.length_cons] at hlen
  rw [S.framesFrom_length, List.length_append] at hil
  have hlt : sent.length < H.length := by omega
  refine ⟨H[sent.length], by rw [List.getElem?_eq_getElem hlt], ?_⟩
  have h1 := S.framesFrom_get s ls [] H sent.length _ (List.getElem?_eq_getElem hlt)
  rw [hi, List.getElem?_append_left (by omega), List.nil_append] at h1
  have h2 := (List.forall₂_iff_get.mp h).2 sent.length (by omega) (by simp)
  rw [List.getElem?_eq_getElem (by omega), Option.some.injEq] at h1
  simp only [List.get_eq_getElem] at h2
  rw [h1] at h2
  have h3 := h2.1
  rw [List.getElem_append_right (Nat.le_refl _)] at h3
  simpa using h3

theorem stage_pop {L : EncoderLib} {C : EncoderSpec L} {W : World} {g : FrameGenerator L.State} {S : Spot} {H : List Round}
    {sent : List (GenFrame × List UInt8)} {s : UInt32} {ls : List Label} (h : Stage C W g S H sent s ls) {e : Encoder L.State}
    (he : g.encoders s = some e) {f : GenFrame × List UInt8} {d : List (GenFrame × List UInt8)} (hd : e.done = f :: d) :
    ∃ r, H[sent.length]? = some r ∧ f.1 = (S.frameOf s ls (H.take sent.length) r).2 ∧ g.trimming s = some (W.trim S H sent.length) ∧
      (e.finished = true → sent.length + 1 + d.length = H.length) ∧ (e.finished = false → (g.data s).isSome) ∧
      ∀ g' : FrameGenerator L.State, g'.data s = g.data s → g'.encoders s = some ⟨e.inner, e.delay, d, e.finished⟩ →
        ((e.finished && d.isEmpty) = false → g'.trimming s = some (W.trim S H (sent.length + 1))) →
        g'.timing.frames.lookup s = g.timing.frames.lookup s → g'.phase = g.phase → Stage C W g' S H (sent ++ [f]) s ls := by
  cases h with
  | opened h =>
    obtain ⟨x, hx, hfin, in1, w, h1, h2, h3⟩ := h.enc
    rw [he, Option.some.injEq] at hx
    subst hx
    rw [hd] at h3
    obtain ⟨r, hr, hf⟩ := answered h1 h3
    refine ⟨r, hr, hf, h.trim, fun hc => (by rw [hfin] at hc; cases hc), fun _ => ?_, fun g' k1 k2 k3 k4 k5 => .opened ⟨?_, ⟨_, k2, hfin, in1, w, h1, h2, ?_⟩, ?_, ?_⟩⟩
    · obtain ⟨dd, hdd, -⟩ := h.data
      rw [hdd]; rfl
    · rw [k1]; exact h.data
    · rw [List.append_assoc]; exact h3
    · rw [k4]; exact h.stamp
    · rw [List.length_append, List.length_singleton]; exact k3 (by rw [hfin]; rfl)
  | closed x a b c d' e' f' t =>
    rw [he, Option.some.injEq] at d'
    subst d'
    rw [hd] at f'
    obtain ⟨r, hr, hf⟩ := answered (List.append_nil _).symm f'
    refine ⟨r, hr, hf, t (by rw [hd]; simp), fun _ => ?_, fun hc => (by rw [e'] at hc; cases hc), fun g' k1 k2 k3 k4 k5 =>
      .closed _ (k1.trans a) b (k5.trans c) k2 e' ?_ ?_⟩
    · have := f'.length_eq
      rw [S.framesFrom_length, List.length_append, List.length_cons] at this
      omega
    · rw [List.append_assoc]; exact f'
    · intro hne
      rw [List.length_append, List.length_singleton]
      refine k3 ?_
      rw [Bool.and_eq_false_iff]
      right
      rw [List.isEmpty_eq_false_iff]; exact hne
  | gone a b c d' e' => rw [he] at d'; cases d'

/-! ### The loop -/

theorem lookup_of_nodup {α : Type} {m : List (UInt32 × α)} (h : (m.map Prod.fst).Nodup) {y : UInt32 × α} (hy : y ∈ m) : m.lookup y.1 = some y.2 := by
  induction m with
  | nil => cases hy
  | cons x m ih =>
    rw [List.map_cons, List.nodup_cons] at h
    rw [List.lookup_cons]
    rcases List.mem_cons.mp hy with rfl | hy
    · simp
    · have : (y.1 == x.1) = false := by
        rw [beq_eq_false_iff_ne]
        intro he
        have hm := List.mem_map_of_mem (f := Prod.fst) hy
        rw [he] at hm
        exact h.1 hm
      rw [this]
      exact ih h.2 hy

/-- A frame was taken from an encoder, and put out. -/
def History.took {σ : Type} (G : History) (g : FrameGenerator σ) (i : UInt32) (raw final : GenFrame × List UInt8) : History :=
  ⟨G.rounds, fun j => if j = i then G.sent j ++ [raw] else G.sent j, fun j => if j = i then G.out j ++ [final] else G.out j, G.pending,
    fun j => if g.phase = .flushing then G.before j else if j = i then G.before j + 1 else G.before j⟩

private theorem eq_sub' {W : World} (hW : Sane W) {x x' : UInt32 × ElementWithData} (hx : x ∈ W.elements) (hx' : x' ∈ W.elements)
    {y y' : UInt32 × List Label} (hy : y ∈ x.2.data.labels) (hy' : y' ∈ x'.2.data.labels) (h : y'.1 = y.1) : x' = x ∧ y' = y := by
  have he : x' = x := hW.same_element hx' hx (List.mem_map_of_mem hy') (h ▸ List.mem_map_of_mem hy)
  subst he
  exact ⟨rfl, eq_of_nodup_map (f := Prod.fst) (hW.substreams_nodup hx) hy' hy h⟩

open FrameGenerator in
theorem pop_spec {L : EncoderLib} {C : EncoderSpec L} {W : World} (hW : Sane W) (ids : List UInt32) : ∀ (g : FrameGenerator L.State) (G : History),
    ids.Nodup → (∀ i ∈ ids, i ∈ W.order) → Core C W g G → (∀ x ∈ W.elements, Busy g x ((W.spot x).left (G.rounds x.1))) →
    (∀ x ∈ W.elements, W.endTotal (W.spot x) (G.rounds x.1) < 4294967296) → (∀ i ∈ ids, ∀ e, g.encoders i = some e → e.done ≠ []) →
    Reports (popFrames ids g) fun y => ∃ G', Core C W y.2 G' ∧ G'.rounds = G.rounds ∧ G'.pending = G.pending ∧ y.2.data = g.data ∧ y.2.phase = g.phase ∧
      y.1.map (fun f => f.1.substream) = ids.filter (fun i => (g.encoders i).isSome) ∧
      (∀ i, G'.out i = G.out i ++ y.1.filter fun f => f.1.substream = i) ∧
      (∀ i, G'.before i = if g.phase = .flushing then G.before i else (G'.sent i).length) ∧
      ∀ i, (y.2.encoders i).isSome = (g.encoders i).isSome := by
  induction ids with
  | nil =>
    intro g G _ _ h _ _ _
    refine ⟨G, h, rfl, rfl, rfl, rfl, rfl, fun i => (List.append_nil _).symm, fun i => ?_, fun _ => rfl⟩
    split
    · rfl
    next hp => exact (h.before i).2 hp
  | cons i ids ih =>
    intro g G hnd hsub h hbusy hend hdone
    rw [List.nodup_cons] at hnd
    obtain ⟨x, hx, hi⟩ := List.mem_flatMap.mp ((hW.order.2 i).mp (hsub i (by simp)))
    obtain ⟨y, hy, rfl⟩ := List.mem_map.mp hi
    unfold popFrames
    cases he : g.encoders y.1 with
    | none =>
      simp only
      have := ih g G hnd.2 (fun i hi => hsub i (by simp [hi])) h hbusy hend fun i hi => hdone i (by simp [hi])
      rw [List.filter_cons_of_neg (by rw [he]; simp)]
      exact this
    | some e =>
      simp only
      cases hd : e.done with
      | nil => exact absurd hd (hdone y.1 (by simp) e he)
      | cons f d =>
        have hpop : e.pop = ([f], ⟨e.inner, e.delay, d, e.finished⟩) := by unfold Encoder.pop; rw [hd]
        rw [hpop]
        simp only
        obtain ⟨r, hr, hf, htrim, hfin, hopen, hnext⟩ := stage_pop (h.stage x hx y hy) he hd
        obtain ⟨c, hc⟩ := (hW.element x hx).codec
        have hcodec : (g.elements.bind (·.lookup f.1.element)).bind (·.codec) = some c := by
          rw [h.elements, hf]
          show (W.elements.lookup x.1).bind _ = _
          rw [lookup_of_nodup hW.keys hx]
          exact hc
        rw [htrim, hcodec]
        simp only
        have hn : c.config.numSamplesPerFrame = (W.spot x).n := by simp [World.spot, frameSizeOf, hc]
        rw [hn]
        have hlast : (⟨e.inner, e.delay, d, e.finished⟩ : Encoder L.State).isFinished = (e.finished && d.isEmpty) := rfl
        refine Reports.bind (applyTrimming_spec hW.startTotal (hend x hx) (G.sent y.1).length _ f.1 (by rw [hf]; rfl)) ?_
        rintro ⟨t, f'⟩ ⟨hf', ht, hfit⟩
        simp only at hf' ht hfit ⊢
        rw [hlast] at hf' ht hfit
        obtain ⟨g1, hg1⟩ : ∃ g1 : FrameGenerator L.State, g1 = ⟨g.labels, g.elements, g.order, g.encoders.set y.1 ⟨e.inner, e.delay, d, e.finished⟩,
          g.samples, g.data, g.trimming.set y.1 t, g.downMixing, g.parameters, g.timing, g.phase, g.delay⟩ := ⟨_, rfl⟩
        rw [← hg1]
        have henc : g1.encoders y.1 = some ⟨e.inner, e.delay, d, e.finished⟩ := by rw [hg1]; exact if_pos rfl
        have henc' : ∀ j, j ≠ y.1 → g1.encoders j = g.encoders j := fun j hj => by rw [hg1]; exact if_neg hj
        have htr : g1.trimming y.1 = some t := by rw [hg1]; exact if_pos rfl
        have htr' : ∀ j, j ≠ y.1 → g1.trimming j = g.trimming j := fun j hj => by rw [hg1]; exact if_neg hj
        have hdat : g1.data = g.data := by rw [hg1]
        have hph : g1.phase = g.phase := by rw [hg1]
        have htim : g1.timing = g.timing := by rw [hg1]
        have hover : isOver (g1.encoders y.1) = (e.finished && d.isEmpty) := by rw [henc]; rfl
        obtain ⟨G1, hG1⟩ : ∃ G1, G1 = G.took g y.1 f (f', f.2) := ⟨_, rfl⟩
        have hro : G1.rounds = G.rounds := by rw [hG1]; rfl
        have hse : G1.sent y.1 = G.sent y.1 ++ [f] := by rw [hG1]; exact if_pos rfl
        have hse' : ∀ j, j ≠ y.1 → G1.sent j = G.sent j := fun j hj => by rw [hG1]; exact if_neg hj
        have hou : G1.out y.1 = G.out y.1 ++ [(f', f.2)] := by rw [hG1]; exact if_pos rfl
        have hou' : ∀ j, j ≠ y.1 → G1.out j = G.out j := fun j hj => by rw [hG1]; exact if_neg hj
        have hbe : G1.before y.1 = if g.phase = .flushing then G.before y.1 else (G.sent y.1).length + 1 := by
          rw [hG1]
          show (if g.phase = .flushing then _ else if y.1 = y.1 then _ else _) = _
          split
          · rfl
          next hp => rw [if_pos rfl, (h.before y.1).2 hp]
        have hbe' : ∀ j, j ≠ y.1 → G1.before j = G.before j := fun j hj => by
          rw [hG1]
          show (if g.phase = .flushing then _ else if j = y.1 then _ else _) = _
          rw [if_neg hj]; split <;> rfl
        have hle := (h.before y.1).1
        have hcore : Core C W g1 G1 := by
          refine ⟨by rw [hg1]; exact h.labels, by rw [hg1]; exact h.elements, by rw [hg1]; exact h.order, by rw [hg1]; exact h.downMixing,
            by rw [hg1]; exact h.safe, by rw [hg1]; exact h.filed, by rw [hg1, hro]; exact h.mixes, by rw [hro]; exact h.even, fun x' hx' y' hy' => ?_, ?_, fun j => ?_, fun x' hx' y' hy' => ?_, fun x' hx' y' hy' => ?_,
            fun x' hx' y' hy' p hp => ?_⟩
          · rw [hro]
            by_cases hne : y'.1 = y.1
            · obtain ⟨rfl, rfl⟩ := eq_sub' hW hx hx' hy hy' hne
              rw [hse]
              exact hnext g1 (by rw [hdat]) henc (fun hb => by rw [htr, ht hb]) (by rw [htim]) hph
            · rw [hse' _ hne]
              exact (h.stage x' hx' y' hy').transport (by rw [hdat]) (henc' _ hne) (htr' _ hne) (by rw [htim]) (by rw [hph]; exact _root_.id)
          · intro x' hx' ls' hl'
            rw [hg1, hG1]
            exact h.waits x' hx' ls' hl'
          · rw [hph]
            by_cases hne : j = y.1
            · subst hne
              rw [hse, hbe, List.length_append, List.length_singleton]
              by_cases hp : g.phase = .flushing
              · rw [if_pos hp]; exact ⟨by omega, fun hc => absurd hp hc⟩
              · rw [if_neg hp]; exact ⟨by omega, fun _ => rfl⟩
            · rw [hse' j hne, hbe' j hne]; exact h.before j
          · rw [hro]
            by_cases hne : y'.1 = y.1
            · obtain ⟨rfl, rfl⟩ := eq_sub' hW hx hx' hy hy' hne
              rw [hover, hse, hbe, List.length_append, List.length_singleton]
              intro hno
              by_cases hp : g.phase = .flushing
              · rw [if_pos hp]
                cases hfi : e.finished with
                | true =>
                  have := hfin hfi
                  rw [hfi, Bool.true_and, List.isEmpty_eq_false_iff] at hno
                  have := List.length_pos_iff.mpr hno
                  right; left; omega
                | false => right; right; exact hbusy x' hx' hp y' hy' (hopen hfi)
              · rw [if_neg hp]; exact .inl rfl
            · rw [henc' _ hne, hse' _ hne, hbe' _ hne]
              exact h.late x' hx' y' hy'
          · rw [hro]
            by_cases hne : y'.1 = y.1
            · obtain ⟨rfl, rfl⟩ := eq_sub' hW hx hx' hy hy' hne
              rw [hou, hse, h.out x' hx' y' hy']
              unfold World.outputs
              rw [List.mapIdx_concat]
              have hnot : isOver (g.encoders y'.1) = false := by
                rw [he]
                show (e.finished && e.done.isEmpty) = false
                rw [hd]; simp
              congr 1
              · refine List.mapIdx_eq_mapIdx_iff.mpr fun j hj => ?_
                have hflag : isLastFrame (g.encoders y'.1) (G.before y'.1) (G.rounds x'.1).length j =
                    isLastFrame (g1.encoders y'.1) (G1.before y'.1) (G.rounds x'.1).length j := by
                  unfold isLastFrame
                  rw [hnot, hover, Bool.false_and, Bool.false_and]
                  symm
                  rw [Bool.and_assoc, Bool.and_eq_false_iff]
                  cases hfi : e.finished with
                  | false => left; rfl
                  | true =>
                    right
                    have := hfin hfi
                    rw [Bool.and_eq_false_iff, decide_eq_false_iff_not, decide_eq_false_iff_not]
                    right; omega
                rw [hflag]
              · have hflag : isLastFrame (g1.encoders y'.1) (G1.before y'.1) (G.rounds x'.1).length (G.sent y'.1).length = (e.finished && d.isEmpty) := by
                  unfold isLastFrame
                  rw [hover]
                  cases hb : (e.finished && d.isEmpty) with
                  | false => simp
                  | true =>
                    rw [Bool.and_eq_true] at hb
                    have h1 := hfin hb.1
                    have h2 : d = [] := List.isEmpty_iff.mp hb.2
                    rw [h2, List.length_nil] at h1
                    have hp : g.phase = .flushing := by
                      cases h.stage x' hx' y' hy' with
                      | opened ho =>
                        obtain ⟨z, hz, hz', -⟩ := ho.enc
                        rw [he, Option.some.injEq] at hz
                        subst hz
                        rw [hb.1] at hz'; cases hz'
                      | closed _ _ _ hp => exact hp
                      | gone _ _ hp => exact hp
                    rw [hbe, if_pos hp]
                    simp only [Bool.true_and, Bool.and_eq_true, decide_eq_true_eq]
                    omega
                rw [hflag, ← hf']
            · rw [hou' _ hne, hse' _ hne, henc' _ hne, hbe' _ hne]
              exact h.out x' hx' y' hy'
          · by_cases hne : y'.1 = y.1
            · obtain ⟨rfl, rfl⟩ := eq_sub' hW hx hx' hy hy' hne
              rw [hou, List.mem_append, List.mem_singleton] at hp
              rcases hp with hp | rfl
              · exact h.fits x' hx' y' hy' p hp
              · have hnlt := (W.spot x').n.toNat_lt
                rw [UInt32.le_iff_toNat_le, hf', finalFrame]
                simp only
                split
                next hb =>
                  have := hfit hb
                  rw [UInt32.toNat_ofNat']
                  omega
                · rw [hf]
                  simp only [Spot.frameOf]
                  rw [UInt32.toNat_ofNat']
                  omega
            · rw [hou' _ hne] at hp
              exact h.fits x' hx' y' hy' p hp
        have := ih g1 G1 hnd.2 (fun i hi => hsub i (by simp [hi])) hcore (fun x hx => by rw [hro]; unfold Busy; rw [hph, hdat]; exact hbusy x hx)
          (fun x hx => by rw [hro]; exact hend x hx) (fun i hi e' he' => hdone i (by simp [hi]) e' (by
            rw [← henc' i (fun hc => hnd.1 (hc ▸ hi))]; exact he'))
        show Reports ((popFrames ids g1).bind fun z => .ok ((f', f.2) :: z.1, z.2)) _
        refine Reports.bind this ?_
        rintro ⟨fs, g2⟩ ⟨G2, k1, k2, k3, k4, k5, k6, k7, k8, k9⟩
        simp only at k1 k4 k5 k6 k7
        have hsubst : f'.substream = y.1 := by rw [hf', hf]; rfl
        refine ⟨G2, k1, k2.trans hro, k3.trans (by rw [hG1]; rfl), k4.trans hdat, k5.trans hph, ?_, fun j => ?_, fun j => ?_, fun j => (k9 j).trans ?_⟩
        · rw [List.map_cons, k6, List.filter_cons_of_pos (by rw [he]; rfl), hsubst]
          congr 1
          refine List.filter_congr fun j hj => ?_
          rw [henc' j fun hc => hnd.1 (hc ▸ hj)]
        · rw [k7 j]
          by_cases hne : j = y.1
          · subst hne
            rw [hou, List.filter_cons_of_pos (by simp [hsubst]), List.append_assoc, List.singleton_append]
          · rw [hou' j hne, List.filter_cons_of_neg (by simp only [hsubst, decide_eq_true_eq]; exact fun hc => hne hc.symm)]
        · rw [k8 j, hph]
          by_cases hp : g.phase = .flushing
          · rw [if_pos hp, if_pos hp]
            by_cases hne : j = y.1
            · subst hne; rw [hbe, if_pos hp]
            · exact hbe' j hne
          · rw [if_neg hp, if_neg hp]
        · by_cases hne : j = y.1
          · subst hne; rw [henc, he]; rfl
          · rw [henc' j hne]

end Iamf.Props
