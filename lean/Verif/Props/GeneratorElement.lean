import Verif.Props.GeneratorEncode
/-
  Lemmas for C44: all that happens to an audio element when samples are complete, or when it is flushed.
-/
namespace Iamf.Props
open Iamf

/-! ### Pushing and padding all substreams -/

theorem push_spec {n : Nat} {Q : Label → List Rat} {E : Label → List Int32} {te ts : UInt32} (linear : Int16 → Rat) (gains : LabelGains) (m : SamplesMap)
    (subs : SubstreamLabels) : ∀ data : IdMap SubstreamData, (subs.map Prod.fst).Nodup →
    (∀ x ∈ subs, ∀ d, data x.1 = some d → Cell n x.2 Q E te ts d) →
    Reports (pushSubstreams linear gains m subs data) fun data' => (∀ x ∈ subs, (data x.1).isSome) ∧ (∀ x ∈ subs, ∀ l ∈ x.2, (m l).isSome) ∧
      (∀ x ∈ subs, ∃ d, data' x.1 = some d ∧
        Cell n x.2 (fun l => Q l ++ (m l).getD []) (fun l => E l ++ toEncoder linear gains l ((m l).getD [])) te ts d) ∧
      ∀ i, i ∉ subs.map Prod.fst → data' i = data i := by
  induction subs with
  | nil => intro data _ _; exact ⟨fun x hx => (by cases hx), fun x hx => (by cases hx), fun x hx => (by cases hx), fun _ _ => rfl⟩
  | cons x subs ih =>
    intro data hnd hc
    obtain ⟨s, ls⟩ := x
    rw [List.map_cons, List.nodup_cons] at hnd
    unfold pushSubstreams
    cases hd : data s with
    | none => rfl
    | some d =>
      refine Reports.bind (cell_push (hc (s, ls) (by simp) d hd) linear gains m) fun d' hd' => ?_
      have hne : ∀ x ∈ subs, x.1 ≠ s := by
        intro x hx he
        have hm := List.mem_map_of_mem (f := Prod.fst) hx
        rw [he] at hm
        exact hnd.1 hm
      have := ih (data.set s d') hnd.2 fun x hx d'' hd'' => by
        simp only [IdMap.set, if_neg (hne x hx)] at hd''
        exact hc x (by simp [hx]) d'' hd''
      generalize pushSubstreams linear gains m subs (data.set s d') = q at this ⊢
      cases q with
      | error e => exact this
      | ok data' =>
        obtain ⟨h1, h2, h3, h4⟩ := this
        refine ⟨fun x hx => ?_, fun x hx => ?_, fun x hx => ?_, fun i hi => ?_⟩
        · rcases List.mem_cons.mp hx with rfl | hx
          · rw [hd]; rfl
          · have := h1 x hx
            simpa only [IdMap.set, if_neg (hne x hx)] using this
        · rcases List.mem_cons.mp hx with rfl | hx
          · exact hd'.1
          · exact h2 x hx
        · rcases List.mem_cons.mp hx with rfl | hx
          · refine ⟨d', ?_, hd'.2⟩
            rw [h4 s hnd.1]
            simp [IdMap.set]
          · exact h3 x hx
        · simp only [List.map_cons, List.mem_cons, not_or] at hi
          rw [h4 i hi.2]
          simp [IdMap.set, hi.1]

/-- The trimming of a substream after padding. -/
def TrimmingState.after (t : TrimmingState) (pad : Nat) : TrimmingState :=
  ⟨t.addPadding, if t.addPadding then t.endLeft + (pad : Nat) else t.endLeft, t.startLeft⟩

theorem pad_spec {n : UInt32} {Q : Label → List Rat} {E : Label → List Int32} {te ts : UInt32} (noSample : Bool) {t : UInt32 → TrimmingState}
    {ko ke : Nat} (subs : SubstreamLabels) : ∀ (data : IdMap SubstreamData) (trimming : IdMap TrimmingState), (subs.map Prod.fst).Nodup →
    (∀ x ∈ subs, x.2 ≠ []) → (∀ x ∈ subs, ∀ l ∈ x.2, (Q l).length = ko) → (∀ x ∈ subs, ∀ l ∈ x.2, (E l).length = ke) →
    (∀ x ∈ subs, 0 ≤ (t x.1).endLeft ∧ (ko < n.toNat → (t x.1).endLeft + n.toNat < 4294967296)) →
    (∀ x ∈ subs, ∃ d, data x.1 = some d ∧ Cell n.toNat x.2 Q E te ts d) → (∀ x ∈ subs, trimming x.1 = some (t x.1)) →
    Reports (padSubstreams n noSample subs data trimming) fun y =>
      (∀ x ∈ subs, ∃ d, y.1 x.1 = some d ∧ Cell n.toNat x.2 (fun l => padded n.toNat 0 (Q l))
        (fun l => if noSample then padded n.toNat 0 (E l ++ List.replicate (n.toNat - ko) 0) else E l ++ List.replicate (n.toNat - ko) 0)
        (if ko < n.toNat then UInt32.ofNat (n.toNat - ko) else te) ts d) ∧
      (∀ x ∈ subs, y.2 x.1 = some (TrimmingState.after (t x.1) (n.toNat - ko)) ∧
        ((n.toNat - ko : Nat) : Int) ≤ (TrimmingState.after (t x.1) (n.toNat - ko)).endLeft) ∧
      (∀ i, i ∉ subs.map Prod.fst → y.1 i = data i) ∧ ∀ i, i ∉ subs.map Prod.fst → y.2 i = trimming i := by
  induction subs with
  | nil => intro data trimming _ _ _ _ _ _ _; exact ⟨fun x hx => (by cases hx), fun x hx => (by cases hx), fun _ _ => rfl, fun _ _ => rfl⟩
  | cons x subs ih =>
    intro data trimming hnd hls hQ hE ht hc htr
    obtain ⟨s, ls⟩ := x
    rw [List.map_cons, List.nodup_cons] at hnd
    obtain ⟨d, hd, hcell⟩ := hc (s, ls) (by simp)
    unfold padSubstreams
    simp only at hd hcell
    rw [hd, htr (s, ls) (by simp)]
    have ht0 := ht (s, ls) (by simp)
    refine Reports.bind (cell_padInObu hcell (hls (s, ls) (by simp)) (hQ (s, ls) (by simp)) (hE (s, ls) (by simp)) ht0.1 ht0.2) fun y hy => ?_
    obtain ⟨d1, t1⟩ := y
    obtain ⟨hy1, hy2, hy3⟩ := hy
    simp only at hy1 hy2 hy3 ⊢
    subst hy2
    obtain ⟨d2, e1, e2⟩ := cell_padToEncode hy1 (hls (s, ls) (by simp)) (ke := ke + (n.toNat - ko)) (fun l hl => by
      rw [List.length_append, List.length_replicate, hE (s, ls) (by simp) l hl]) noSample
    rw [e1]
    simp only [Bind.bind, Except.bind]
    have hne : ∀ x ∈ subs, x.1 ≠ s := by
      intro x hx he
      have hm := List.mem_map_of_mem (f := Prod.fst) hx
      rw [he] at hm
      exact hnd.1 hm
    have := ih (data.set s d2) (trimming.set s (TrimmingState.after (t s) (n.toNat - ko))) hnd.2 (fun x hx => hls x (by simp [hx]))
      (fun x hx => hQ x (by simp [hx])) (fun x hx => hE x (by simp [hx])) (fun x hx => ht x (by simp [hx]))
      (fun x hx => by
        obtain ⟨d'', a, b⟩ := hc x (by simp [hx])
        exact ⟨d'', by simp only [IdMap.set, if_neg (hne x hx)]; exact a, b⟩)
      (fun x hx => by simp only [IdMap.set, if_neg (hne x hx)]; exact htr x (by simp [hx]))
    change Reports (padSubstreams n noSample subs (data.set s d2) (trimming.set s (TrimmingState.after (t s) (n.toNat - ko)))) _
    generalize padSubstreams n noSample subs (data.set s d2) (trimming.set s (TrimmingState.after (t s) (n.toNat - ko))) = q at this ⊢
    cases q with
    | error e => exact this
    | ok y =>
      obtain ⟨h1, h2, h3, h4⟩ := this
      refine ⟨fun x hx => ?_, fun x hx => ?_, fun i hi => ?_, fun i hi => ?_⟩
      · rcases List.mem_cons.mp hx with rfl | hx
        · refine ⟨d2, ?_, e2⟩
          rw [h3 s hnd.1]
          simp [IdMap.set]
        · exact h1 x hx
      · rcases List.mem_cons.mp hx with rfl | hx
        · refine ⟨?_, hy3⟩
          rw [h4 s hnd.1]
          simp [IdMap.set]
        · exact h2 x hx
      · simp only [List.map_cons, List.mem_cons, not_or] at hi
        rw [h3 i hi.2]
        simp [IdMap.set, hi.1]
      · simp only [List.map_cons, List.mem_cons, not_or] at hi
        rw [h4 i hi.2]
        simp [IdMap.set, hi.1]

/-! ### One iteration -/

/-- What the down-mixed samples add to the queues. -/
theorem next_spec {L : EncoderLib} {C : EncoderSpec L} {n : UInt32} {Q : Label → List Rat} {E : Label → List Int32} {te ts : UInt32}
    {stamp : Int} {ins : UInt32 × List Label → List (List (List Int32) × GenFrame)} {sent : UInt32 → List (GenFrame × List UInt8)}
    {t : UInt32 → TrimmingState} (linear : Int16 → Rat) (element : UInt32) {ko ke k : Nat} {subs : SubstreamLabels} {g : FrameGenerator L.State}
    {cfg : DownmixingConfig} {m : LabeledSamples} (mixing : DownMixingParams) (hcfg : g.downMixing element = some cfg) (hsub : cfg.substreams = subs)
    (hmix : ∀ d ∈ cfg.mixers, d.inputs ≠ []) (hm : Uniform k m.toMap) (hnd : (subs.map Prod.fst).Nodup) (hls : ∀ x ∈ subs, x.2 ≠ [])
    (hQ : ∀ x ∈ subs, ∀ l ∈ x.2, (Q l).length = ko) (hE : ∀ x ∈ subs, ∀ l ∈ x.2, (E l).length = ke)
    (ht : ∀ x ∈ subs, (g.data x.1).isSome → 0 ≤ (t x.1).endLeft ∧ (ko + k < n.toNat → (t x.1).endLeft + n.toNat < 4294967296))
    (hp : SafeParams g.parameters) (hgo : ¬ ((m.all fun x => x.2.isEmpty) = true ∧ g.noSamplesLeft = true))
    (hopen : ∀ x ∈ subs, ∀ d, g.data x.1 = some d → OpenAt C n g x.1 x.2 Q E te ts stamp (ins x) (sent x.1) (t x.1)) :
    Reports (g.nextFrameData linear element n subs m mixing) fun y => (g.parameters.getDownMixing element).1 = .ok y.1 ∧
      y.2.parameters = (g.parameters.getDownMixing element).2 ∧ SafeParams y.2.parameters ∧ Outside (subs.map Prod.fst) g y.2 ∧
      ∃ m', runDownMixers y.1.factors cfg.mixers m.toMap = .ok m' ∧ Uniform k m' ∧ (∀ x ∈ subs, ∀ l ∈ x.2, (m' l).isSome) ∧
      (∀ x ∈ subs, OpenAt C n y.2 x.1 x.2 (fun l => padded n.toNat 0 (Q l ++ (m' l).getD []))
        (fun l => if m.all fun x => x.2.isEmpty
          then padded n.toNat 0 ((E l ++ toEncoder linear cfg.gains l ((m' l).getD [])) ++ List.replicate (n.toNat - (ko + k)) 0)
          else (E l ++ toEncoder linear cfg.gains l ((m' l).getD [])) ++ List.replicate (n.toNat - (ko + k)) 0)
        (if ko + k < n.toNat then UInt32.ofNat (n.toNat - (ko + k)) else te) ts stamp (ins x) (sent x.1)
        (TrimmingState.after (t x.1) (n.toNat - (ko + k)))) ∧ ∀ x ∈ subs, (g.data x.1).isSome := by
  unfold FrameGenerator.nextFrameData
  dsimp only
  rw [if_neg hgo]
  have hget := getDownMixing_safe hp element
  obtain ⟨⟨a, pm⟩, hg⟩ : ∃ x, x = g.parameters.getDownMixing element := ⟨_, rfl⟩
  rw [← hg] at hget ⊢
  simp only at hget
  cases a with
  | error e => exact hget.1 e rfl
  | ok p =>
    simp only
    unfold downMixInto
    rw [hcfg]
    simp only [hsub]
    have hmu := downMix_uniform p.factors cfg.mixers hmix m.toMap hm
    cases hrun : runDownMixers p.factors cfg.mixers m.toMap with
    | error e => rw [hrun] at hmu; exact hmu
    | ok m' =>
      rw [hrun] at hmu
      have hmu : Uniform k m' := hmu
      refine Reports.bind (Q := fun data' => (∀ x ∈ subs, (g.data x.1).isSome) ∧ (∀ x ∈ subs, ∀ l ∈ x.2, (m' l).isSome) ∧
        (∀ x ∈ subs, ∃ d, data' x.1 = some d ∧
          Cell n.toNat x.2 (fun l => Q l ++ (m' l).getD []) (fun l => E l ++ toEncoder linear cfg.gains l ((m' l).getD [])) te ts d) ∧
        ∀ i, i ∉ subs.map Prod.fst → data' i = g.data i) ?_ fun data' hdata => ?_
      · refine push_spec linear cfg.gains m' subs g.data hnd fun x hx d hd => ?_
        obtain ⟨d', h1, h2⟩ := (hopen x hx d hd).data
        rw [h1, Option.some.injEq] at hd
        exact hd ▸ h2
      · obtain ⟨h1, h2, h3, h4⟩ := hdata
        have hlen : ∀ x ∈ subs, ∀ l ∈ x.2, ((m' l).getD []).length = k := by
          intro x hx l hl
          obtain ⟨s, hs⟩ := Option.isSome_iff_exists.mp (h2 x hx l hl)
          rw [hs]
          exact hmu l s hs
        have hall : ∀ x ∈ subs, OpenAt C n g x.1 x.2 Q E te ts stamp (ins x) (sent x.1) (t x.1) := fun x hx => by
          obtain ⟨d, hd⟩ := Option.isSome_iff_exists.mp (h1 x hx)
          exact hopen x hx d hd
        refine Reports.bind (pad_spec (m.all fun x => x.2.isEmpty) (t := t) (ko := ko + k) (ke := ke + k) subs data' g.trimming hnd hls ?_ ?_
          (fun x hx => ht x hx (h1 x hx)) h3 fun x hx => (hall x hx).trim) fun y hy => ?_
        · intro x hx l hl
          rw [List.length_append, hQ x hx l hl, hlen x hx l hl]
        · intro x hx l hl
          unfold toEncoder
          rw [List.length_append, List.length_map, hE x hx l hl, hlen x hx l hl]
        · obtain ⟨data2, trimming2⟩ := y
          obtain ⟨k1, k2, k3, k4⟩ := hy
          refine ⟨rfl, rfl, hget.2.1, ⟨rfl, rfl, rfl, rfl, rfl, rfl, rfl, ?_, fun _ _ => rfl, k4, fun _ _ => rfl⟩, m', hrun, hmu, h2, ?_, h1⟩
          · intro i hi
            exact (k3 i hi).trans (h4 i hi)
          · intro x hx
            exact ⟨k1 x hx, (hall x hx).enc, (hall x hx).stamp, (k2 x hx).1⟩

/-! ### A round -/

theorem OpenAt.congr {L : EncoderLib} {C : EncoderSpec L} {n : UInt32} {g : FrameGenerator L.State} {s : UInt32} {ls : List Label}
    {Q Q' : Label → List Rat} {E E' : Label → List Int32} {te ts : UInt32} {stamp : Int} {ins : List (List (List Int32) × GenFrame)}
    {sent : List (GenFrame × List UInt8)} {t : TrimmingState} (h : OpenAt C n g s ls Q E te ts stamp ins sent t) (hQ : ∀ l ∈ ls, Q l = Q' l)
    (hE : ∀ l ∈ ls, E l = E' l) : OpenAt C n g s ls Q' E' te ts stamp ins sent t := by
  obtain ⟨d, h1, h2⟩ := h.data
  refine ⟨⟨d, h1, ?_, ?_, h2.obuSize, h2.encSize, h2.trimEnd, h2.trimStart⟩, h.enc, h.stamp, h.trim⟩
  · rw [← List.map_congr_left hQ]; exact h2.obu
  · rw [← List.map_congr_left hE]; exact h2.enc

/-- A substream that takes samples, after rounds `H`. -/
def OpenAfter {L : EncoderLib} (C : EncoderSpec L) (S : Spot) (g : FrameGenerator L.State) (H : List Round) (s : UInt32) (ls : List Label)
    (sent : List (GenFrame × List UInt8)) (t : TrimmingState) : Prop :=
  OpenAt C S.n g s ls (S.obuQueue H) (S.encQueue H) 0 (UInt32.ofNat (S.delay - H.length * S.n.toNat)) (H.length * S.n.toNat : Nat)
    (S.framesFrom s ls [] H) sent t

theorem OpenAfter.outside {L : EncoderLib} {C : EncoderSpec L} {S : Spot} {g g' : FrameGenerator L.State} {H : List Round} {s : UInt32}
    {ls : List Label} {sent : List (GenFrame × List UInt8)} {t : TrimmingState} (h : OpenAfter C S g H s ls sent t) {ids : List UInt32}
    (ho : Outside ids g g') (hs : s ∉ ids) : OpenAfter C S g' H s ls sent t := OpenAt.outside h ho hs

private theorem trimOf_small {n : UInt32} {k : Nat} (h : k ≤ n.toNat) :
    trimOf n (UInt32.ofNat k) = UInt32.ofNat k ∧ UInt32.ofNat k - trimOf n (UInt32.ofNat k) = 0 := by
  have hk : (UInt32.ofNat k).toNat = k := by
    rw [UInt32.toNat_ofNat']
    have := n.toNat_lt
    exact Nat.mod_eq_of_lt (by omega)
  have : trimOf n (UInt32.ofNat k) = UInt32.ofNat k := by
    unfold trimOf
    by_cases hle : n ≤ UInt32.ofNat k
    · rw [if_pos hle]
      rw [UInt32.le_iff_toNat_le, hk] at hle
      rw [← UInt32.toNat_inj, hk]
      omega
    · rw [if_neg hle]
  rw [this]
  exact ⟨rfl, by simp⟩

private theorem trimOf_start {n : UInt32} {D j : Nat} (hD : D < 4294967296) :
    trimOf n (UInt32.ofNat (D - j * n.toNat)) = UInt32.ofNat (min n.toNat (D - j * n.toNat)) ∧
      UInt32.ofNat (D - j * n.toNat) - trimOf n (UInt32.ofNat (D - j * n.toNat)) = UInt32.ofNat (D - (j + 1) * n.toNat) := by
  have hn := n.toNat_lt
  have hv : ∀ k, k ≤ D → (UInt32.ofNat k).toNat = k := by
    intro k hk
    rw [UInt32.toNat_ofNat']
    exact Nat.mod_eq_of_lt (by omega)
  have hm : (UInt32.ofNat (min n.toNat (D - j * n.toNat))).toNat = min n.toNat (D - j * n.toNat) := hv _ (by omega)
  have h1 : trimOf n (UInt32.ofNat (D - j * n.toNat)) = UInt32.ofNat (min n.toNat (D - j * n.toNat)) := by
    unfold trimOf
    by_cases hle : n ≤ UInt32.ofNat (D - j * n.toNat)
    · rw [if_pos hle]
      rw [UInt32.le_iff_toNat_le, hv _ (by omega)] at hle
      rw [← UInt32.toNat_inj, hm]
      omega
    · rw [if_neg hle]
      rw [UInt32.le_iff_toNat_le, hv _ (by omega)] at hle
      rw [← UInt32.toNat_inj, hm, hv _ (by omega)]
      omega
  refine ⟨h1, ?_⟩
  rw [h1, ← UInt32.toNat_inj, UInt32.toNat_sub_of_le _ _ (by rw [UInt32.le_iff_toNat_le, hm, hv _ (by omega)]; omega), hm, hv _ (by omega), hv _ (by omega),
    Nat.add_mul, Nat.one_mul]
  omega

open FrameGenerator in
/-- The frames of a round, once whole frames are there. -/
theorem finish_round {L : EncoderLib} {C : EncoderSpec L} (F : Faithful L C) (S : Spot) (hn : 0 < S.n.toNat) (hD : S.delay < 4294967296)
    {subs : SubstreamLabels} (hsubs : subs ≠ []) (hnd : (subs.map Prod.fst).Nodup) (hls : ∀ x ∈ subs, x.2 ≠ []) {H : List Round} {r : Round}
    (hH : Even (subs.flatMap Prod.snd) (H ++ [r])) {Q : Label → List Rat} {E : Label → List Int32} {sent : UInt32 → List (GenFrame × List UInt8)}
    {t : UInt32 → TrimmingState}
    (hQ : ∀ x ∈ subs, ∀ l ∈ x.2, Q l = padded S.n.toNat 0 (S.obuQueue H l ++ r.block l))
    (hE : ∀ x ∈ subs, ∀ l ∈ x.2, E l = padded S.n.toNat 0 (S.encQueue H l ++ toEncoder S.linear S.gains l (r.block l)))
    {g : FrameGenerator L.State}
    (h : ∀ x ∈ subs, OpenAt C S.n g x.1 x.2 Q E (if S.left H + r.ticks < S.n.toNat then UInt32.ofNat (S.n.toNat - (S.left H + r.ticks)) else 0)
      (UInt32.ofNat (S.delay - H.length * S.n.toNat)) (H.length * S.n.toNat : Nat) (S.framesFrom x.1 x.2 [] H) (sent x.1) (t x.1)) :
    Reports (encodeSubstreams L S.element S.n r.mixing subs ⟨none, false⟩ g) fun y => y.1.stamp = some ((H.length * S.n.toNat : Nat) : Int) ∧
      Outside (subs.map Prod.fst) g y.2 ∧ y.2.parameters = g.parameters ∧
      ∀ x ∈ subs, OpenAfter C S y.2 (H ++ [r]) x.1 x.2 (sent x.1) (t x.1) := by
  have hHH : Even (subs.flatMap Prod.snd) H := fun r' hr' => hH r' (by simp [hr'])
  have hr : ∀ x ∈ subs, ∀ l ∈ x.2, (r.block l).length = r.ticks := fun x hx l hl => hH r (by simp) l (List.mem_flatMap.mpr ⟨x, hx, hl⟩)
  have hte : (if S.left H + r.ticks < S.n.toNat then UInt32.ofNat (S.n.toNat - (S.left H + r.ticks)) else 0) =
      UInt32.ofNat (S.n.toNat - (S.left H + r.ticks)) := by
    split
    · rfl
    · rw [show S.n.toNat - (S.left H + r.ticks) = 0 by omega]; rfl
  rw [hte] at h
  have := encode_full F hn S.element r.mixing (ko := S.left H + r.ticks + (S.n.toNat - (S.left H + r.ticks)))
    (ke := restLength S.n.toNat S.start (H.map Round.ticks) + r.ticks + (S.n.toNat - (restLength S.n.toNat S.start (H.map Round.ticks) + r.ticks)))
    (by omega) (by omega) subs g ⟨none, false⟩ hnd hls
    (fun x hx l hl => by
      rw [hQ x hx l hl, padded_length, List.length_append, obuQueue_length S hHH (List.mem_flatMap.mpr ⟨x, hx, hl⟩), hr x hx l hl])
    (fun x hx l hl => by
      rw [hE x hx l hl, padded_length, List.length_append, encQueue_length S hHH (List.mem_flatMap.mpr ⟨x, hx, hl⟩)]
      unfold toEncoder
      rw [List.length_map, hr x hx l hl])
    (fun y hy => by cases hy) h
  generalize encodeSubstreams L S.element S.n r.mixing subs ⟨none, false⟩ g = q at this ⊢
  cases q with
  | error e => exact this
  | ok y =>
    obtain ⟨h1, h2, h3, h4⟩ := this
    refine ⟨by rw [h1, if_neg hsubs], h2, h3, fun x hx => ?_⟩
    have h5 := h4 x hx
    unfold OpenAfter
    have e1 := trimOf_small (n := S.n) (k := S.n.toNat - (S.left H + r.ticks)) (by omega)
    have e2 := trimOf_start (n := S.n) (j := H.length) hD
    rw [e1.2, e2.2] at h5
    rw [List.length_append, List.length_singleton, S.framesFrom_append, List.nil_append]
    have hframe : (x.2.map fun l => (E l).take S.n.toNat, frameAt S.n S.element x.1 x.2 Q (UInt32.ofNat (S.n.toNat - (S.left H + r.ticks)))
        (UInt32.ofNat (S.delay - H.length * S.n.toNat)) ((H.length * S.n.toNat : Nat) : Int) r.mixing) = S.frameOf x.1 x.2 H r := by
      unfold frameAt Spot.frameOf
      rw [e1.1, e2.1]
      rw [show x.2.map (fun l => (E l).take S.n.toNat) =
          x.2.map fun l => (padded S.n.toNat 0 (S.encQueue H l ++ toEncoder S.linear S.gains l (r.block l))).take S.n.toNat from
        List.map_congr_left fun l hl => by rw [hE x hx l hl]]
      rw [show x.2.map (fun l => (Q l).take S.n.toNat) = x.2.map fun l => (padded S.n.toNat 0 (S.obuQueue H l ++ r.block l)).take S.n.toNat from
        List.map_congr_left fun l hl => by rw [hQ x hx l hl]]
      rw [show ((H.length * S.n.toNat : Nat) : Int) + (S.n.toNat : Int) = (((H.length + 1) * S.n.toNat : Nat) : Int) by
        rw [Nat.add_mul, Nat.one_mul, Int.natCast_add]]
    rw [hframe] at h5
    rw [show ((H.length * S.n.toNat : Nat) : Int) + (S.n.toNat : Int) = (((H.length + 1) * S.n.toNat : Nat) : Int) by
        rw [Nat.add_mul, Nat.one_mul, Int.natCast_add]] at h5
    refine h5.congr (fun l hl => ?_) fun l hl => ?_
    · rw [S.obuQueue_append, hQ x hx l hl]
    · rw [S.encQueue_append, hE x hx l hl]

private theorem padded_more {α : Type} (n : Nat) (zero : α) (q : List α) (k : Nat) (h : k = 0 ∨ q.length + k ≤ n) :
    padded n zero (q ++ List.replicate k zero) = padded n zero q := by
  unfold padded
  rcases h with rfl | h
  · simp
  · rw [List.append_assoc, List.replicate_append_replicate, List.length_append, List.length_replicate,
      show k + (n - (q.length + k)) = n - q.length by omega]

theorem padded_full {α : Type} {n : Nat} {zero : α} {q : List α} (h : n ≤ q.length) : padded n zero q = q := by
  unfold padded
  rw [show n - q.length = 0 by omega]
  simp

open FrameGenerator in
/-- A round of `k` samples, or of flushing. -/
theorem loop_spec {L : EncoderLib} {C : EncoderSpec L} (F : Faithful L C) (S : Spot) (hn : 0 < S.n.toNat) (hD : S.delay < 4294967296)
    (hstart : S.start ≤ S.delay) {subs : SubstreamLabels} (hsubs : subs ≠ []) (hnd : (subs.map Prod.fst).Nodup) (hls : ∀ x ∈ subs, x.2 ≠ [])
    {H : List Round} (hH : Even (subs.flatMap Prod.snd) H) {sent : UInt32 → List (GenFrame × List UInt8)} {t : UInt32 → TrimmingState}
    {g : FrameGenerator L.State} {cfg : DownmixingConfig} (hcfg : g.downMixing S.element = some cfg) (hsub : cfg.substreams = subs)
    (hgains : cfg.gains = S.gains) (hmix : ∀ d ∈ cfg.mixers, d.inputs ≠ []) {m : LabeledSamples} {k : Nat} (hm : ∀ y ∈ m, y.2.length = k)
    (hne : m ≠ []) (hp : SafeParams g.parameters) (horder : ∀ x ∈ subs, x.1 ∈ g.order) (hgo : ¬ (k = 0 ∧ g.noSamplesLeft = true))
    (ht : ∀ x ∈ subs, (g.data x.1).isSome →
      0 ≤ (t x.1).endLeft ∧ (S.left H + k < S.n.toNat → (t x.1).endLeft + S.n.toNat < 4294967296))
    (hopen : ∀ x ∈ subs, ∀ d, g.data x.1 = some d → OpenAfter C S g H x.1 x.2 (sent x.1) (t x.1)) :
    Reports (encodeLoop L S.linear S.element S.n subs (m.map fun x => (x.1, ([] : Samples))) 16 m noMixing g) fun y =>
      y.1 = some ((H.length * S.n.toNat : Nat) : Int) ∧ Outside (subs.map Prod.fst) g y.2 ∧ SafeParams y.2.parameters ∧
      (∀ x ∈ subs, (g.data x.1).isSome) ∧ y.2.parameters = (g.parameters.getDownMixing S.element).2 ∧
      ∃ r : Round, (g.parameters.getDownMixing S.element).1 = .ok r.mixing ∧ r.demixing = waitingBlock g.parameters S.element ∧
        r.ticks = k ∧ (∀ x ∈ subs, ∀ l ∈ x.2, (r.block l).length = k) ∧
        (∃ m', runDownMixers r.mixing.factors cfg.mixers m.toMap = .ok m' ∧ ∀ x ∈ subs, ∀ l ∈ x.2, m' l = some (r.block l)) ∧
        ∀ x ∈ subs, OpenAfter C S y.2 (H ++ [r]) x.1 x.2 (sent x.1) (TrimmingState.after (t x.1) (S.n.toNat - (S.left H + k))) := by
  have hlook : ∀ (m : LabeledSamples) (k : Nat), (∀ y ∈ m, y.2.length = k) → Uniform k m.toMap := by
    intro m
    induction m with
    | nil => intro k _ l s hs; cases hs
    | cons x m ih =>
      intro k hk l s hs
      unfold LabeledSamples.toMap at hs
      rw [List.lookup_cons] at hs
      split at hs
      · rw [Option.some.injEq] at hs; exact hs ▸ hk x (by simp)
      · exact ih k (fun y hy => hk y (by simp [hy])) l s hs
  have hall : (m.all fun x => x.2.isEmpty) = true ↔ k = 0 := by
    rw [List.all_eq_true]
    constructor
    · intro h
      cases m with
      | nil => exact absurd rfl hne
      | cons x m =>
        have := h x (by simp)
        rw [List.isEmpty_iff] at this
        rw [← hm x (by simp), this]; rfl
    · rintro rfl x hx
      rw [List.isEmpty_iff]
      exact List.length_eq_zero_iff.mp (hm x hx)
  have hLe : restLength S.n.toNat S.start (H.map Round.ticks) ≤ S.left H := restLength_mono _ hstart _
  have hQl : ∀ x ∈ subs, ∀ l ∈ x.2, (S.obuQueue H l).length = S.left H := fun x hx l hl => obuQueue_length S hH (List.mem_flatMap.mpr ⟨x, hx, hl⟩)
  have hEl : ∀ x ∈ subs, ∀ l ∈ x.2, (S.encQueue H l).length = restLength S.n.toNat S.start (H.map Round.ticks) :=
    fun x hx l hl => encQueue_length S hH (List.mem_flatMap.mpr ⟨x, hx, hl⟩)
  unfold encodeLoop
  refine Reports.bind (next_spec S.linear S.element noMixing hcfg hsub hmix (hlook m k hm) hnd hls hQl hEl ht hp (by rw [hall]; exact hgo) hopen) fun y hy => ?_
  obtain ⟨p, g1⟩ := y
  obtain ⟨y1, y2, y3, y4, m', y5, y6, y7, y8, hsome⟩ := hy
  simp only at y1 y2 y3 y4 y5 y8 ⊢
  rw [hgains] at y8
  obtain ⟨r, hr⟩ : ∃ r : Round, r = ⟨waitingBlock g.parameters S.element, p, k, fun l => (m' l).getD []⟩ := ⟨_, rfl⟩
  have hr1 : r.mixing = p := by subst hr; rfl
  have hr0 : r.demixing = waitingBlock g.parameters S.element := by subst hr; rfl
  have hr2 : r.ticks = k := by subst hr; rfl
  have hr3 : ∀ l, (m' l).getD [] = r.block l := by subst hr; intro l; rfl
  have hr4 : ∀ x ∈ subs, ∀ l ∈ x.2, m' l = some (r.block l) := by
    intro x hx l hl
    obtain ⟨s, hs⟩ := Option.isSome_iff_exists.mp (y7 x hx l hl)
    rw [← hr3, hs]; rfl
  have hr5 : ∀ x ∈ subs, ∀ l ∈ x.2, (r.block l).length = k := fun x hx l hl => y6 l _ (hr4 x hx l hl)
  have hHr : Even (subs.flatMap Prod.snd) (H ++ [r]) := by
    intro r' hr' l hl
    rcases List.mem_append.mp hr' with h | h
    · exact hH r' h l hl
    · rw [List.mem_singleton] at h
      obtain ⟨x, hx, hl⟩ := List.mem_flatMap.mp hl
      rw [h, hr5 x hx l hl, hr2]
  clear hr
  have heq : (fun l => padded S.n.toNat (0 : Rat) (S.obuQueue H l ++ (m' l).getD [])) = fun l => padded S.n.toNat 0 (S.obuQueue H l ++ r.block l) := by
    funext l; rw [hr3]
  rw [heq] at y8
  by_cases hshort : (m.all fun x => x.2.isEmpty) = true ∨
      S.n.toNat ≤ restLength S.n.toNat S.start (H.map Round.ticks) + k + (S.n.toNat - (S.left H + k))
  · -- one iteration
    have := finish_round F S hn hD hsubs hnd hls hHr (g := g1) (sent := sent) (t := fun s => TrimmingState.after (t s) (S.n.toNat - (S.left H + k)))
      (Q := fun l => padded S.n.toNat 0 (S.obuQueue H l ++ r.block l))
      (E := fun l => if (m.all fun x => x.2.isEmpty) = true
          then padded S.n.toNat 0 ((S.encQueue H l ++ toEncoder S.linear S.gains l ((m' l).getD [])) ++ List.replicate (S.n.toNat - (S.left H + k)) 0)
          else (S.encQueue H l ++ toEncoder S.linear S.gains l ((m' l).getD [])) ++ List.replicate (S.n.toNat - (S.left H + k)) 0)
      (fun x hx l hl => rfl)
      (fun x hx l hl => by
        have hlen : (S.encQueue H l ++ toEncoder S.linear S.gains l (r.block l)).length = restLength S.n.toNat S.start (H.map Round.ticks) + k := by
          unfold toEncoder
          rw [List.length_append, List.length_map, hEl x hx l hl, hr5 x hx l hl]
        have hpad : S.n.toNat - (S.left H + k) = 0 ∨
            (S.encQueue H l ++ toEncoder S.linear S.gains l (r.block l)).length + (S.n.toNat - (S.left H + k)) ≤ S.n.toNat := by
          rw [hlen]; omega
        rw [hr3]
        by_cases ha : (m.all fun x => x.2.isEmpty) = true
        · rw [if_pos ha, padded_more _ _ _ _ hpad]
        · rw [if_neg ha]
          rcases hshort with h | h
          · exact absurd h ha
          · rw [← padded_more _ _ _ _ hpad, padded_full]
            rw [List.length_append, List.length_replicate, hlen]
            exact h)
      (by rw [hr2]; exact y8)
    rw [hr1] at this
    refine Reports.bind this fun z hz => ?_
    obtain ⟨z1, z2, z3, z4⟩ := hz
    obtain ⟨pr, g2⟩ := z
    simp only at z1 z2 z3 z4 ⊢
    rw [if_neg (by rw [z1]; simp)]
    refine ⟨z1, y4.trans z2, by rw [z3]; exact y3, hsome, z3.trans y2, r, hr1 ▸ y1, hr0, hr2, hr5, ⟨m', by rw [hr1]; exact y5, hr4⟩, z4⟩
  · -- another one, for the encoders
    have hns : (m.all fun x => x.2.isEmpty) = false := by
      cases hb : m.all fun x => x.2.isEmpty with
      | true => exact absurd (.inl hb) hshort
      | false => rfl
    have hke : restLength S.n.toNat S.start (H.map Round.ticks) + k + (S.n.toNat - (S.left H + k)) < S.n.toNat := by omega
    rw [hns] at y8
    simp only [Bool.false_eq_true, if_false] at y8
    have := encode_short (Q := fun l => padded S.n.toNat 0 (S.obuQueue H l ++ r.block l))
      (E := fun l => (S.encQueue H l ++ toEncoder S.linear S.gains l ((m' l).getD [])) ++ List.replicate (S.n.toNat - (S.left H + k)) 0)
      (ins := fun x => S.framesFrom x.1 x.2 [] H) (sent := sent) (t := fun s => TrimmingState.after (t s) (S.n.toNat - (S.left H + k)))
      S.element p (ko := S.left H + k + (S.n.toNat - (S.left H + k)))
      (by omega) hke subs g1 ⟨none, false⟩ hnd hls
      (fun x hx l hl => by rw [padded_length, List.length_append, hQl x hx l hl, hr5 x hx l hl])
      (fun x hx l hl => by
        unfold toEncoder
        rw [List.length_append, List.length_append, List.length_map, List.length_replicate, hEl x hx l hl, hr3, hr5 x hx l hl]) rfl y8
    refine Reports.bind this fun z hz => ?_
    obtain ⟨z1, z0, z2, z3, z4⟩ := hz
    obtain ⟨pr, g2⟩ := z
    simp only at z1 z0 z2 z3 z4 ⊢
    have hmore : pr.more = true := z0.resolve_right hsubs
    rw [if_pos ⟨by rw [z1]; rfl, hmore⟩]
    unfold encodeLoop
    have hcfg2 : g2.downMixing S.element = some cfg := by rw [z2.downMixing, y4.downMixing]; exact hcfg
    have hempties : ∀ y ∈ (m.map fun x => (x.1, ([] : Samples))), y.2.length = 0 := by
      intro y hy
      obtain ⟨x, -, rfl⟩ := List.mem_map.mp hy
      rfl
    have hall2 : ((m.map fun x => (x.1, ([] : Samples))).all fun x => x.2.isEmpty) = true := by
      rw [List.all_eq_true]
      intro y hy
      rw [List.isEmpty_iff]
      exact List.length_eq_zero_iff.mp (hempties y hy)
    have hleft : g2.noSamplesLeft = false := by
      cases subs with
      | nil => exact absurd rfl hsubs
      | cons x subs =>
        unfold FrameGenerator.noSamplesLeft
        rw [List.all_eq_false]
        refine ⟨x.1, by rw [z2.order, y4.order]; exact horder x (by simp), ?_⟩
        obtain ⟨d, hd, hc⟩ := (z4 x (by simp)).data
        rw [hd]
        simp only [Bool.not_eq_true]
        rw [cell_empty hc (hls x (by simp)) (k := S.left H + k + (S.n.toNat - (S.left H + k)))
          (fun l hl => by rw [padded_length, List.length_append, hQl x (by simp) l hl, hr5 x (by simp) l hl])]
        simp only [decide_eq_false_iff_not]
        omega
    refine Reports.bind (next_spec (ins := fun x => S.framesFrom x.1 x.2 [] H) (sent := sent)
      (Q := fun l => padded S.n.toNat 0 (S.obuQueue H l ++ r.block l))
      (E := fun l => (S.encQueue H l ++ toEncoder S.linear S.gains l ((m' l).getD [])) ++ List.replicate (S.n.toNat - (S.left H + k)) 0)
      (k := 0) (ko := S.left H + k + (S.n.toNat - (S.left H + k)))
      (ke := restLength S.n.toNat S.start (H.map Round.ticks) + k + (S.n.toNat - (S.left H + k))) S.linear S.element p hcfg2 hsub hmix
      (hlook _ 0 hempties) hnd hls
      (fun x hx l hl => by rw [padded_length, List.length_append, hQl x hx l hl, hr5 x hx l hl])
      (fun x hx l hl => by
        unfold toEncoder
        rw [List.length_append, List.length_append, List.length_map, List.length_replicate, hEl x hx l hl, hr3, hr5 x hx l hl])
      (t := fun s => TrimmingState.after (t s) (S.n.toNat - (S.left H + k)))
      (fun x hx _ => ⟨by
        have := (ht x hx (hsome x hx)).1
        unfold TrimmingState.after
        simp only
        split <;> omega, fun hc => by omega⟩)
      (by rw [z3]; exact y3) (by rw [hleft]; simp) fun x hx _ _ => z4 x hx) fun w hw => ?_
    obtain ⟨p2, g3⟩ := w
    obtain ⟨w1, w2, w3, w4, m2, w5, w6, w7, w8, -⟩ := hw
    simp only at w1 w2 w3 w4 w5 w8 ⊢
    have hp2 : p2 = p := by
      have := (getDownMixing_safe hp S.element).2.2 p y1
      rw [z3, y2] at w1
      rw [w1] at this
      exact Except.ok.inj this
    subst hp2
    rw [hgains, hall2] at w8
    simp only [if_true] at w8
    have hm2 : ∀ x ∈ subs, ∀ l ∈ x.2, (m2 l).getD [] = [] := by
      intro x hx l hl
      obtain ⟨s, hs⟩ := Option.isSome_iff_exists.mp (w7 x hx l hl)
      rw [hs]
      exact List.length_eq_zero_iff.mp (w6 l s hs)
    have haft : ∀ t : TrimmingState, TrimmingState.after t 0 = t := by
      intro t
      unfold TrimmingState.after
      cases t with
      | mk a b c => simp
    have hz0 : S.n.toNat - (S.left H + k + (S.n.toNat - (S.left H + k)) + 0) = 0 := by omega
    have hnot : ¬ (S.left H + k + (S.n.toNat - (S.left H + k)) + 0 < S.n.toNat) := by omega
    simp only [hz0, haft, if_neg hnot] at w8
    have := finish_round F S hn hD hsubs hnd hls hHr (g := g3) (sent := sent) (t := fun s => TrimmingState.after (t s) (S.n.toNat - (S.left H + k)))
      (Q := fun l => padded S.n.toNat 0 (padded S.n.toNat 0 (S.obuQueue H l ++ r.block l) ++ (m2 l).getD []))
      (E := fun l => padded S.n.toNat 0 (((S.encQueue H l ++ toEncoder S.linear S.gains l ((m' l).getD [])) ++
          List.replicate (S.n.toNat - (S.left H + k)) 0) ++ toEncoder S.linear S.gains l ((m2 l).getD []) ++ List.replicate 0 0))
      (fun x hx l hl => by
        show padded _ _ _ = _
        rw [hm2 x hx l hl, List.append_nil, padded_full]
        rw [padded_length]; omega)
      (fun x hx l hl => by
        show padded _ _ _ = _
        rw [hm2 x hx l hl, hr3]
        simp only [toEncoder, List.map_nil, List.append_nil, List.replicate_zero]
        rw [padded_more]
        right
        rw [List.length_append, List.length_map, hEl x hx l hl, hr5 x hx l hl]
        omega)
      (by rw [hr2]; exact w8)
    rw [hr1] at this
    refine Reports.bind this fun v hv => ?_
    obtain ⟨v1, v2, v3, v4⟩ := hv
    obtain ⟨pr2, g4⟩ := v
    simp only at v1 v2 v3 v4 ⊢
    rw [if_neg (by rw [v1]; simp)]
    refine ⟨v1, ((y4.trans z2).trans w4).trans v2, by rw [v3]; exact w3, hsome, ?_, r, hr1 ▸ y1, hr0, hr2, hr5, ⟨m', by rw [hr1]; exact y5, hr4⟩, v4⟩
    rw [v3, w2, z3, y2, getDownMixing_again y1]

end Iamf.Props
