import Verif.Cli.FrameGenerator
import Verif.Props.SubstreamFrames
import Verif.Props.Labels
/-
  Lemmas for C44: what one substream's queues hold while a round of samples goes through the generator of audio frames.
-/
namespace Iamf.Props
open Iamf

/-! ### Lists -/

section lists
variable {S : Type}

/-- A list with zeros added until it is a whole frame. -/
def padded (n : Nat) (zero : S) (q : List S) : List S := q ++ List.replicate (n - q.length) zero

/-- What is left of a queue after rounds of samples: each adds its samples, fills up with zeros if there is not a whole frame, and takes
away one frame. -/
def restOf (n : Nat) (zero : S) : List S → List (List S) → List S
  | q, [] => q
  | q, b :: bs => restOf n zero ((padded n zero (q ++ b)).drop n) bs

/-- The frames that are taken away. -/
def cutFrames (n : Nat) (zero : S) : List S → List (List S) → List (List S)
  | _, [] => []
  | q, b :: bs => (padded n zero (q ++ b)).take n :: cutFrames n zero ((padded n zero (q ++ b)).drop n) bs

/-- The lengths of what is left. -/
def restLength (n : Nat) : Nat → List Nat → Nat
  | q, [] => q
  | q, b :: bs => restLength n (q + b + (n - (q + b)) - n) bs

/-- How many zeros are added in each round. -/
def padLengths (n : Nat) : Nat → List Nat → List Nat
  | _, [] => []
  | q, b :: bs => (n - (q + b)) :: padLengths n (q + b + (n - (q + b)) - n) bs

theorem padded_length (n : Nat) (zero : S) (q : List S) : (padded n zero q).length = q.length + (n - q.length) := by
  simp [padded]

theorem restOf_append (n : Nat) (zero : S) (q : List S) (bs : List (List S)) (b : List S) :
    restOf n zero q (bs ++ [b]) = (padded n zero (restOf n zero q bs ++ b)).drop n := by
  induction bs generalizing q with
  | nil => rfl
  | cons c bs ih => exact ih _

theorem cutFrames_append (n : Nat) (zero : S) (q : List S) (bs : List (List S)) (b : List S) :
    cutFrames n zero q (bs ++ [b]) = cutFrames n zero q bs ++ [(padded n zero (restOf n zero q bs ++ b)).take n] := by
  induction bs generalizing q with
  | nil => rfl
  | cons c bs ih => simp only [List.cons_append, cutFrames, ih, restOf]

theorem cutFrames_length (n : Nat) (zero : S) (q : List S) (bs : List (List S)) : (cutFrames n zero q bs).length = bs.length := by
  induction bs generalizing q with
  | nil => rfl
  | cons c bs ih => simp [cutFrames, ih]

theorem cutFrames_full (n : Nat) (zero : S) (q : List S) (bs : List (List S)) : ∀ f ∈ cutFrames n zero q bs, f.length = n := by
  induction bs generalizing q with
  | nil => intro f hf; cases hf
  | cons c bs ih =>
    intro f hf
    rcases List.mem_cons.mp hf with rfl | hf
    · rw [List.length_take, padded_length]; omega
    · exact ih _ f hf

theorem restOf_length (n : Nat) (zero : S) (q : List S) (bs : List (List S)) :
    (restOf n zero q bs).length = restLength n q.length (bs.map List.length) := by
  induction bs generalizing q with
  | nil => rfl
  | cons c bs ih =>
    simp only [restOf, List.map_cons, restLength]
    rw [ih, List.length_drop, padded_length, List.length_append]

theorem restLength_append (n q : Nat) (bs : List Nat) (b : Nat) :
    restLength n q (bs ++ [b]) = restLength n q bs + b + (n - (restLength n q bs + b)) - n := by
  induction bs generalizing q with
  | nil => rfl
  | cons c bs ih => exact ih _

theorem padLengths_append (n q : Nat) (bs : List Nat) (b : Nat) :
    padLengths n q (bs ++ [b]) = padLengths n q bs ++ [n - (restLength n q bs + b)] := by
  induction bs generalizing q with
  | nil => rfl
  | cons c bs ih => simp only [List.cons_append, padLengths, ih, restLength]

theorem padLengths_length (n q : Nat) (bs : List Nat) : (padLengths n q bs).length = bs.length := by
  induction bs generalizing q with
  | nil => rfl
  | cons c bs ih => simp [padLengths, ih]

theorem restLength_mono (n : Nat) {p q : Nat} (h : p ≤ q) (bs : List Nat) : restLength n p bs ≤ restLength n q bs := by
  induction bs generalizing p q with
  | nil => exact h
  | cons c bs ih => exact ih (by omega)

end lists

/-! ### The queues of a substream -/

/-- What a substream holds: queues for the frame and for the encoder, by label, and what is to be trimmed. -/
structure Cell (n : Nat) (labels : List Label) (Q : Label → List Rat) (E : Label → List Int32) (trimEnd trimStart : UInt32) (d : SubstreamData) :
    Prop where
  obu : Holds d.obu (labels.map Q)
  enc : Holds d.enc (labels.map E)
  obuSize : d.obu.perFrame = n
  encSize : d.enc.perFrame = n
  trimEnd : d.trimEnd = trimEnd
  trimStart : d.trimStart = trimStart

/-- The factor for the samples of a label. -/
def gainOf (linear : Int16 → Rat) (gains : LabelGains) (l : Label) : Rat := match gains.lookup l with
  | none => 1
  | some g => linear g

/-- The samples that go to the encoder. -/
def toEncoder (linear : Int16 → Rat) (gains : LabelGains) (l : Label) (s : Samples) : List Int32 :=
  s.map fun x => normalizedToInt32 (x / gainOf linear gains l)

private theorem modify_at {α : Type} (pre : List α) (q : α) (post : List α) (f : α → α) :
    (pre ++ q :: post).modify pre.length f = pre ++ f q :: post := by
  induction pre with
  | nil => rfl
  | cons a pre ih => simp only [List.cons_append, List.length_cons, List.modify_succ_cons, ih]

private theorem pushSamples_spec (gain : Rat) (s : Samples) : ∀ (d : SubstreamData) (preo posto : List (List Rat)) (pree poste : List (List Int32))
    (qo : List Rat) (qe : List Int32), preo.length = pree.length → Holds d.obu (preo ++ qo :: posto) → Holds d.enc (pree ++ qe :: poste) →
    ∃ d', pushSamples preo.length gain s d = .ok d' ∧ Holds d'.obu (preo ++ (qo ++ s) :: posto) ∧
      Holds d'.enc (pree ++ (qe ++ s.map fun x => normalizedToInt32 (x / gain)) :: poste) ∧ d'.obu.perFrame = d.obu.perFrame ∧
      d'.enc.perFrame = d.enc.perFrame ∧ d'.trimEnd = d.trimEnd ∧ d'.trimStart = d.trimStart := by
  induction s with
  | nil => intro d preo posto pree poste qo qe _ h1 h2; exact ⟨d, rfl, by simpa using h1, by simpa using h2, rfl, rfl, rfl, rfl⟩
  | cons x xs ih =>
    intro d preo posto pree poste qo qe hlen h1 h2
    obtain ⟨o, ho, ho', hon, -⟩ := holds_push h1 (ch := preo.length) (by simp) x
    obtain ⟨e, he, he', hen, -⟩ := holds_push h2 (ch := preo.length) (by simp [hlen]) (normalizedToInt32 (x / gain))
    rw [modify_at] at ho'
    rw [hlen, modify_at] at he'
    obtain ⟨d', hd, h3, h4, h5, h6, h7, h8⟩ := ih ⟨o, e, d.trimEnd, d.trimStart⟩ preo posto pree poste _ _ hlen ho' he'
    refine ⟨d', ?_, by simpa using h3, by simpa using h4, h5.trans hon, h6.trans hen, h7, h8⟩
    simp only [pushSamples, ho, he, Bind.bind, Except.bind]
    exact hd

private theorem pushChannels_spec (linear : Int16 → Rat) (gains : LabelGains) (m : SamplesMap) (ls : List Label) : ∀ (d : SubstreamData)
    (preo posto : List (List Rat)) (pree poste : List (List Int32)), preo.length = pree.length → posto.length = ls.length → poste.length = ls.length →
    Holds d.obu (preo ++ posto) → Holds d.enc (pree ++ poste) →
    Reports (pushChannels linear gains m preo.length ls d) fun d' => (∀ l ∈ ls, (m l).isSome) ∧
      Holds d'.obu (preo ++ List.zipWith (fun q l => q ++ (m l).getD []) posto ls) ∧
      Holds d'.enc (pree ++ List.zipWith (fun q l => q ++ toEncoder linear gains l ((m l).getD [])) poste ls) ∧
      d'.obu.perFrame = d.obu.perFrame ∧ d'.enc.perFrame = d.enc.perFrame ∧ d'.trimEnd = d.trimEnd ∧ d'.trimStart = d.trimStart := by
  induction ls with
  | nil =>
    intro d preo posto pree poste _ ho he h1 h2
    rw [List.length_eq_zero_iff.mp ho] at h1 ⊢
    rw [List.length_eq_zero_iff.mp he] at h2 ⊢
    exact ⟨fun l hl => (by cases hl), by simpa using h1, by simpa using h2, rfl, rfl, rfl, rfl⟩
  | cons l ls ih =>
    intro d preo posto pree poste hlen ho he h1 h2
    cases posto with
    | nil => simp at ho
    | cons qo posto =>
      cases poste with
      | nil => simp at he
      | cons qe poste =>
        unfold pushChannels
        cases hm : m l with
        | none => rfl
        | some s =>
          simp only
          obtain ⟨d', hd, h3, h4, h5, h6, h7, h8⟩ := pushSamples_spec (gainOf linear gains l) s d preo posto pree poste qo qe hlen h1 h2
          change Reports ((pushSamples preo.length (gainOf linear gains l) s d).bind fun d => pushChannels linear gains m (preo.length + 1) ls d) _
          rw [hd]
          simp only [Except.bind]
          have := ih d' (preo ++ [qo ++ s]) posto (pree ++ [qe ++ toEncoder linear gains l s]) poste (by simp [hlen]) (by simpa using ho)
            (by simpa using he) (by simpa using h3) (by simpa [toEncoder] using h4)
          rw [show (preo ++ [qo ++ s]).length = preo.length + 1 by simp] at this
          generalize pushChannels linear gains m (preo.length + 1) ls d' = r at this ⊢
          cases r with
          | error e => exact this
          | ok d'' =>
            obtain ⟨a0, a1, a2, a3, a4, a5, a6⟩ := this
            refine ⟨?_, ?_, ?_, a3.trans h5, a4.trans h6, a5.trans h7, a6.trans h8⟩
            · intro k hk
              rcases List.mem_cons.mp hk with rfl | hk
              · rw [hm]; rfl
              · exact a0 k hk
            · simpa [hm] using a1
            · simpa [hm] using a2

theorem zipWith_map_self {α β γ : Type} (f : α → β → γ) (g : β → α) (l : List β) : List.zipWith f (l.map g) l = l.map fun x => f (g x) x := by
  induction l with
  | nil => rfl
  | cons a l ih => simp [ih]

/-- Pushing the down-mixed samples of a round. -/
theorem cell_push {n : Nat} {labels : List Label} {Q : Label → List Rat} {E : Label → List Int32} {te ts : UInt32} {d : SubstreamData}
    (h : Cell n labels Q E te ts d) (linear : Int16 → Rat) (gains : LabelGains) (m : SamplesMap) :
    Reports (pushChannels linear gains m 0 labels d) fun d' => (∀ l ∈ labels, (m l).isSome) ∧
      Cell n labels (fun l => Q l ++ (m l).getD []) (fun l => E l ++ toEncoder linear gains l ((m l).getD [])) te ts d' := by
  have := pushChannels_spec linear gains m labels d [] (labels.map Q) [] (labels.map E) rfl (by simp) (by simp) (by simpa using h.obu)
    (by simpa using h.enc)
  simp only [List.nil_append, List.length_nil] at this
  generalize pushChannels linear gains m 0 labels d = r at this ⊢
  cases r with
  | error e => exact this
  | ok d' =>
    obtain ⟨h0, h1, h2, h3, h4, h5, h6⟩ := this
    rw [zipWith_map_self] at h1 h2
    exact ⟨h0, h1, h2, h3.trans h.obuSize, h4.trans h.encSize, h5.trans h.trimEnd, h6.trans h.trimStart⟩

/-- All labels of a substream have the same number of samples. -/
theorem balanced_map {S : Type} {labels : List Label} {Q : Label → List S} {k : Nat} (h : ∀ l ∈ labels, (Q l).length = k) : Balanced (labels.map Q) := by
  refine ⟨k, fun q hq => ?_⟩
  obtain ⟨l, hl, rfl⟩ := List.mem_map.mp hq
  exact h l hl

theorem frontTicks_spec {S : Type} {f : SubstreamFrames S} {n k : Nat} {labels : List Label} {Q : Label → List S} (h : Holds f (labels.map Q))
    (hn : f.perFrame = n) (hl : labels ≠ []) (hk : ∀ l ∈ labels, (Q l).length = k) :
    ∃ g, frontTicks f = .ok (min n k, g) ∧ Holds g (labels.map Q) ∧ g.perFrame = n := by
  obtain ⟨g, h1, h2, h3, -⟩ := holds_front h
  refine ⟨g, ?_, h2, h3.trans hn⟩
  unfold frontTicks
  rw [h1]
  cases labels with
  | nil => exact absurd rfl hl
  | cons l ls =>
    simp only [List.map_cons, Bind.bind, Except.bind, List.length_take, hn, hk l (by simp)]

/-- Padding the frame that is sent along. -/
theorem cell_padInObu {n : UInt32} {labels : List Label} {Q : Label → List Rat} {E : Label → List Int32} {te ts : UInt32} {d : SubstreamData}
    (h : Cell n.toNat labels Q E te ts d) (hl : labels ≠ []) {ko ke : Nat} (hQ : ∀ l ∈ labels, (Q l).length = ko) (hE : ∀ l ∈ labels, (E l).length = ke)
    {t : TrimmingState} (h0 : 0 ≤ t.endLeft) (h1 : ko < n.toNat → t.endLeft + n.toNat < 4294967296) :
    Reports (padInObu n d (some t)) fun r => (Cell n.toNat labels (fun l => padded n.toNat 0 (Q l))
        (fun l => E l ++ List.replicate (n.toNat - ko) 0) (if ko < n.toNat then UInt32.ofNat (n.toNat - ko) else te) ts r.1 ∧
      r.2 = some ⟨t.addPadding, if t.addPadding then t.endLeft + (n.toNat - ko : Nat) else t.endLeft, t.startLeft⟩ ∧
      ((n.toNat - ko : Nat) : Int) ≤ (if t.addPadding then t.endLeft + (n.toNat - ko : Nat) else t.endLeft)) := by
  unfold padInObu
  obtain ⟨obu, a1, a2, a3⟩ := frontTicks_spec h.obu h.obuSize hl hQ
  rw [a1]
  simp only [Bind.bind, Except.bind]
  have hlt := n.toNat_lt
  by_cases hk : ko < n.toNat
  · rw [if_pos (by omega), Nat.min_eq_right (by omega)]
    unfold samplesToPad
    have hr : (UInt32.ofNat (n.toNat - ko)).toNat = n.toNat - ko := by
      rw [UInt32.toNat_ofNat']; exact Nat.mod_eq_of_lt (by omega)
    simp only [hr]
    generalize he : (if t.addPadding then t.endLeft + ((n.toNat - ko : Nat) : Int) else t.endLeft) = e
    have he0 : 0 ≤ e := by rw [← he]; split <;> omega
    have he1 : e < 4294967296 := by
      have := h1 hk
      rw [← he]; split <;> omega
    by_cases hlt : e < ((n.toNat - ko : Nat) : Int)
    · rw [if_pos hlt]; rfl
    · rw [if_neg hlt]
      have hofInt : (UInt32.ofInt e).toNat = e.toNat := by
        unfold UInt32.ofInt
        rw [UInt32.toNat_ofNat']
        omega
      rw [if_pos (by rw [UInt32.le_iff_toNat_le, hr, hofInt]; omega)]
      simp only [hr]
      have hc : 0 < labels.length := by cases labels with
        | nil => exact absurd rfl hl
        | cons _ _ => simp
      have hcx := a2.len
      have hcy := h.enc.len
      simp only [List.length_map] at hcx hcy
      obtain ⟨o, b1, b2, b3, -⟩ := holds_pad a2 (by omega) 0 (n.toNat - ko) (balanced_map hQ)
      obtain ⟨en, c1, c2, c3, -⟩ := holds_pad h.enc (by omega) 0 (n.toNat - ko) (balanced_map hE)
      rw [b1]
      simp only
      rw [c1]
      refine ⟨⟨?_, ?_, b3.trans a3, c3.trans h.encSize, ?_, h.trimStart⟩, rfl, by omega⟩
      · rw [List.map_map] at b2
        rw [show labels.map (fun l => padded n.toNat 0 (Q l)) = labels.map ((fun q => q ++ List.replicate (n.toNat - ko) 0) ∘ Q) from
          List.map_congr_left fun l hl => by simp only [padded, hQ l hl, Function.comp]]
        exact b2
      · rw [List.map_map] at c2
        exact c2
      · rw [if_pos hk]
  · rw [if_neg (by omega)]
    refine ⟨⟨?_, ?_, a3, h.encSize, ?_, h.trimStart⟩, ?_, ?_⟩
    · rw [show labels.map (fun l => padded n.toNat 0 (Q l)) = labels.map Q from
          List.map_congr_left fun l hl => by simp only [padded, hQ l hl, show n.toNat - ko = 0 by omega, List.replicate_zero, List.append_nil]]
      exact a2
    · rw [show labels.map (fun l => E l ++ List.replicate (n.toNat - ko) 0) = labels.map E from
          List.map_congr_left fun l hl => by simp only [show n.toNat - ko = 0 by omega, List.replicate_zero, List.append_nil]]
      exact h.enc
    · rw [if_neg hk]; exact h.trimEnd
    · simp [show n.toNat - ko = 0 by omega]
    · simp only [show n.toNat - ko = 0 by omega]
      split <;> simp [h0]

/-- Padding what goes to the encoder. -/
theorem cell_padToEncode {n : UInt32} {labels : List Label} {Q : Label → List Rat} {E : Label → List Int32} {te ts : UInt32} {d : SubstreamData}
    (h : Cell n.toNat labels Q E te ts d) (hl : labels ≠ []) {ke : Nat} (hE : ∀ l ∈ labels, (E l).length = ke) (noSample : Bool) :
    ∃ d', padToEncode n noSample d = .ok d' ∧ Cell n.toNat labels Q (fun l => if noSample then padded n.toNat 0 (E l) else E l) te ts d' := by
  unfold padToEncode
  obtain ⟨enc, a1, a2, a3⟩ := frontTicks_spec h.enc h.encSize hl hE
  rw [a1]
  simp only [Bind.bind, Except.bind]
  by_cases hk : noSample = true ∧ ke < n.toNat
  · rw [if_pos ⟨hk.1, by omega⟩]
    have hcx := a2.len
    simp only [List.length_map] at hcx
    have hc : 0 < labels.length := by cases labels with
      | nil => exact absurd rfl hl
      | cons _ _ => simp
    obtain ⟨en, c1, c2, c3, -⟩ := holds_pad a2 (by omega) 0 (n.toNat - ke) (balanced_map hE)
    rw [Nat.min_eq_right (by omega), c1]
    refine ⟨_, rfl, h.obu, ?_, h.obuSize, c3.trans a3, h.trimEnd, h.trimStart⟩
    rw [List.map_map] at c2
    rw [show labels.map (fun l => if noSample = true then padded n.toNat 0 (E l) else E l) =
        labels.map ((fun q => q ++ List.replicate (n.toNat - ke) 0) ∘ E) from
      List.map_congr_left fun l hl => by simp only [hk.1, if_true, padded, hE l hl, Function.comp]]
    exact c2
  · rw [if_neg (by intro hc; exact hk ⟨hc.1, by omega⟩)]
    refine ⟨_, rfl, h.obu, ?_, h.obuSize, a3, h.trimEnd, h.trimStart⟩
    rw [show labels.map (fun l => if noSample = true then padded n.toNat 0 (E l) else E l) = labels.map E from
      List.map_congr_left fun l hl => by
        by_cases hs : noSample = true
        · rw [if_pos hs]
          simp only [padded, hE l hl, show n.toNat - ke = 0 by
            have : ¬ ke < n.toNat := fun hc => hk ⟨hs, hc⟩
            omega, List.replicate_zero, List.append_nil]
        · rw [if_neg hs]]
    exact a2

/-- The queue is empty if there are no samples. -/
theorem cell_empty {n : Nat} {labels : List Label} {Q : Label → List Rat} {E : Label → List Int32} {te ts : UInt32} {d : SubstreamData}
    (h : Cell n labels Q E te ts d) (hl : labels ≠ []) {k : Nat} (hQ : ∀ l ∈ labels, (Q l).length = k) : d.obu.empty = decide (k = 0) := by
  rw [holds_empty h.obu, Bool.eq_iff_iff]
  simp only [List.all_eq_true, List.mem_map, List.isEmpty_iff, decide_eq_true_eq]
  constructor
  · intro ha
    cases labels with
    | nil => exact absurd rfl hl
    | cons l ls =>
      have := ha (Q l) ⟨l, by simp, rfl⟩
      rw [← hQ l (by simp), this]; rfl
  · rintro rfl q ⟨l, hm, rfl⟩
    exact List.length_eq_zero_iff.mp (hQ l hm)

/-- Looking at the front frames, and taking them away. -/
theorem cell_front {n : Nat} {labels : List Label} {Q : Label → List Rat} {E : Label → List Int32} {te ts : UInt32} {d : SubstreamData}
    (h : Cell n labels Q E te ts d) :
    ∃ obu enc, d.obu.front = .ok (labels.map fun l => (Q l).take n, obu) ∧ d.enc.front = .ok (labels.map fun l => (E l).take n, enc) ∧
      Cell n labels Q E te ts ⟨obu, enc, d.trimEnd, d.trimStart⟩ := by
  obtain ⟨obu, a1, a2, a3, -⟩ := holds_front h.obu
  obtain ⟨enc, b1, b2, b3, -⟩ := holds_front h.enc
  rw [h.obuSize, List.map_map] at a1
  rw [h.encSize, List.map_map] at b1
  exact ⟨obu, enc, a1, b1, a2, b2, a3.trans h.obuSize, b3.trans h.encSize, h.trimEnd, h.trimStart⟩

theorem cell_pop {n : Nat} {labels : List Label} {Q : Label → List Rat} {E : Label → List Int32} {te ts : UInt32} {d : SubstreamData}
    (h : Cell n labels Q E te ts d) {ko ke : Nat} (hQ : ∀ l ∈ labels, (Q l).length = ko) (hE : ∀ l ∈ labels, (E l).length = ke) (te' ts' : UInt32) :
    Cell n labels (fun l => (Q l).drop n) (fun l => (E l).drop n) te' ts' ⟨d.obu.popFront, d.enc.popFront, te', ts'⟩ := by
  obtain ⟨a1, a2, -⟩ := holds_pop h.obu (balanced_map hQ)
  obtain ⟨b1, b2, -⟩ := holds_pop h.enc (balanced_map hE)
  rw [h.obuSize, List.map_map] at a1
  rw [h.encSize, List.map_map] at b1
  exact ⟨a1, b1, a2.trans h.obuSize, b2.trans h.encSize, rfl, rfl⟩

end Iamf.Props
