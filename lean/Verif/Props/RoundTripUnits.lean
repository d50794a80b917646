import Verif.Props.Pipeline
import Verif.Props.GeneratorLpcm
/-
  Towards C48: frames as temporal units, and the bytes of temporal units put together.
-/
namespace Iamf.Props
open Iamf

/-! ### One frame for each substream -/

private theorem count_perm {fs : List (GenFrame × List UInt8)} {subs : List UInt32} (hn : subs.Nodup) (h : (fs.map fun f => f.1.substream).Perm subs) (i : UInt32) :
    (ofSubstream i fs).length = if i ∈ subs then 1 else 0 := by
  have h1 : (ofSubstream i fs).length = (fs.map fun f => f.1.substream).count i := by
    unfold ofSubstream
    rw [List.count_eq_countP, List.countP_map, List.countP_eq_length_filter]
    congr 1
  rw [h1, h.count_eq]
  split
  · next hi => exact List.count_eq_one_of_mem hn hi
  · next hi => exact List.count_eq_zero_of_not_mem hi

theorem one_at_most : ∀ (fss : List (List (GenFrame × List UInt8))) {subs : List UInt32}, subs.Nodup → OneFrameEach subs fss → ∀ fs ∈ fss, ∀ i,
    (ofSubstream i fs).length ≤ 1 := by
  intro fss
  induction fss with
  | nil => intro _ _ _ fs hfs; cases hfs
  | cons fs fss ih =>
    rintro subs hn ⟨h1, left, h2, h3⟩ fs' hfs' i
    rcases List.mem_cons.mp hfs' with rfl | hfs'
    · rcases h1 with rfl | h1
      · simp [ofSubstream]
      · rw [count_perm hn h1]
        split <;> omega
    · exact ih (h2.nodup hn) h3 fs' hfs' i

private theorem only_left : ∀ (fss : List (List (GenFrame × List UInt8))) {subs : List UInt32}, subs.Nodup → OneFrameEach subs fss → ∀ i, i ∉ subs →
    (ofSubstream i fss.flatten).length = 0 := by
  intro fss
  induction fss with
  | nil => intro _ _ _ i _; rfl
  | cons fs fss ih =>
    rintro subs hn ⟨h1, left, h2, h3⟩ i hi
    rw [List.flatten_cons, ofSubstream_append, List.length_append, ih (h2.nodup hn) h3 i fun hc => hi (h2.subset hc)]
    rcases h1 with rfl | h1
    · rfl
    · rw [count_perm hn h1, if_neg hi]

/-- If all substreams have equally many frames, every call puts out no frame or one for every substream. -/
theorem whole_units : ∀ (fss : List (List (GenFrame × List UInt8))) {subs : List UInt32}, subs.Nodup → OneFrameEach subs fss → ∀ N,
    (∀ i ∈ subs, (ofSubstream i fss.flatten).length = N) → ∀ fs ∈ fss, fs ≠ [] → (fs.map fun f => f.1.substream).Perm subs := by
  intro fss
  induction fss with
  | nil => intro _ _ _ _ _ fs hfs; cases hfs
  | cons fs fss ih =>
    rintro subs hn ⟨h1, left, h2, h3⟩ N hc fs' hfs' hne
    rcases List.mem_cons.mp hfs' with rfl | hmem
    · exact h1.resolve_left hne
    · -- a frame of that call
      have hc0 : ∃ c0, ∀ i ∈ subs, (ofSubstream i fs).length = c0 := by
        rcases h1 with rfl | h1
        · exact ⟨0, fun i _ => rfl⟩
        · exact ⟨1, fun i hi => by rw [count_perm hn h1, if_pos hi]⟩
      obtain ⟨c0, hc0⟩ := hc0
      have hrest : ∀ i ∈ subs, (ofSubstream i fss.flatten).length = N - c0 := by
        intro i hi
        have := hc i hi
        rw [List.flatten_cons, ofSubstream_append, List.length_append, hc0 i hi] at this
        omega
      obtain ⟨f, hf⟩ := List.exists_mem_of_ne_nil _ hne
      have hj : 0 < (ofSubstream f.1.substream fss.flatten).length := by
        refine List.length_pos_of_mem (a := f) (List.mem_filter.mpr ⟨List.mem_flatten.mpr ⟨fs', hmem, hf⟩, by simp⟩)
      have hjl : f.1.substream ∈ left := Decidable.byContradiction fun hcon => by
        have := only_left fss (h2.nodup hn) h3 _ hcon
        omega
      have hall : ∀ i ∈ subs, i ∈ left := by
        intro i hi
        refine Decidable.byContradiction fun hcon => ?_
        have h0 := only_left fss (h2.nodup hn) h3 i hcon
        have h4 := hrest i hi
        have h5 := hrest _ (h2.subset hjl)
        omega
      have heq : left.Perm subs := (List.perm_ext_iff_of_nodup (h2.nodup hn) hn).mpr fun i => ⟨fun h => h2.subset h, hall i⟩
      have : left = subs := h2.eq_of_length heq.length_eq
      subst this
      exact ih hn h3 (N - c0) hrest fs' hmem hne

/-- The frame of a substream in the `k`-th temporal unit is its `k`-th frame. -/
theorem kth_frame : ∀ (units : List (List (GenFrame × List UInt8))) {subs : List UInt32}, subs.Nodup →
    (∀ fs ∈ units, (fs.map fun f => f.1.substream).Perm subs) → ∀ i ∈ subs, (ofSubstream i units.flatten).length = units.length ∧
    ∀ (k : Nat) (fs : List (GenFrame × List UInt8)), units[k]? = some fs → ∀ f ∈ fs, f.1.substream = i → (ofSubstream i units.flatten)[k]? = some f := by
  intro units
  induction units with
  | nil => intro subs _ _ i _; exact ⟨rfl, fun k fs hk => (by simp at hk)⟩
  | cons fs units ih =>
    intro subs hn h i hi
    obtain ⟨h1, h2⟩ := ih hn (fun fs hfs => h fs (List.mem_cons_of_mem _ hfs)) i hi
    have hone : (ofSubstream i fs).length = 1 := by rw [count_perm hn (h fs List.mem_cons_self), if_pos hi]
    obtain ⟨f0, hf0⟩ := List.length_eq_one_iff.mp hone
    rw [List.flatten_cons, ofSubstream_append, hf0]
    refine ⟨by simp [h1], fun k fs' hk f hf hfi => ?_⟩
    cases k with
    | zero =>
      simp only [List.getElem?_cons_zero, Option.some.injEq] at hk
      subst hk
      have : f ∈ ofSubstream i fs := List.mem_filter.mpr ⟨hf, by simpa using hfi⟩
      rw [hf0, List.mem_singleton] at this
      rw [this]
      rfl
    | succ k => exact h2 k fs' hk f hf hfi

/-! ### Bytes -/

theorem delivered_congr {size : UInt8} {sampleType : Nat} {order : List Label} {input input' : Label → List Int32} {start start' ticks : Nat}
    {bytes : List UInt8} (h : DeliveredUnit size sampleType order input start ticks bytes)
    (he : ∀ l ∈ order, l ≠ .omitted → ∀ i < ticks, (input' l).getD (start' + i) 0 = (input l).getD (start + i) 0) :
    DeliveredUnit size sampleType order input' start' ticks bytes := by
  refine ⟨h.1, fun c i l hc hi => ?_⟩
  rw [h.2 c i l hc hi]
  split
  · rfl
  · next hl => rw [he l (List.mem_of_getElem? hc) hl i hi]

theorem delivered_append {size : UInt8} {sampleType : Nat} {order : List Label} {w1 w2 : Label → List Int32} {t1 t2 : Nat} {b1 b2 : List UInt8}
    (hl : ∀ l ∈ order, l ≠ .omitted → (w1 l).length = t1) (h1 : DeliveredUnit size sampleType order w1 0 t1 b1) (h2 : DeliveredUnit size sampleType order w2 0 t2 b2) :
    DeliveredUnit size sampleType order (fun l => w1 l ++ w2 l) 0 (t1 + t2) (b1 ++ b2) := by
  have hlen1 := h1.1
  refine ⟨by rw [List.length_append, h1.1, h2.1, Nat.mul_add, Nat.add_mul], fun c i l hc hi => ?_⟩
  have hcl : c < order.length := (List.getElem?_eq_some_iff.mp hc).1
  by_cases hit : i < t1
  · have key : (i * order.length + c + 1) * (2 * sampleType) ≤ b1.length := by
      rw [hlen1, Nat.mul_comm order.length]
      refine Nat.mul_le_mul_right _ ?_
      have := Nat.mul_le_mul_right order.length (show i + 1 ≤ t1 from hit)
      rw [Nat.succ_mul] at this
      omega
    rw [Nat.succ_mul] at key
    rw [List.drop_append_of_le_length (by omega), List.take_append_of_le_length (by rw [List.length_drop]; omega), h1.2 c i l hc hit]
    split
    · rfl
    · next hlo => rw [Nat.zero_add, List.getD_eq_getElem?_getD, List.getD_eq_getElem?_getD, List.getElem?_append_left (by rw [hl l (List.mem_of_getElem? hc) hlo]; exact hit)]
  · obtain ⟨j, rfl⟩ : ∃ j, i = t1 + j := ⟨i - t1, by omega⟩
    have hpos : ((t1 + j) * order.length + c) * (2 * sampleType) = b1.length + (j * order.length + c) * (2 * sampleType) := by
      rw [hlen1, ← Nat.add_mul]
      congr 1
      rw [Nat.add_mul, Nat.mul_comm order.length]
      omega
    rw [hpos, ← List.drop_drop, List.drop_left, h2.2 c j l hc (by omega)]
    split
    · rfl
    · next hlo =>
      have := hl l (List.mem_of_getElem? hc) hlo
      rw [Nat.zero_add, Nat.zero_add, List.getD_eq_getElem?_getD, List.getD_eq_getElem?_getD, List.getElem?_append_right (by omega), this, Nat.add_sub_cancel_left]

/-- All temporal units together. -/
theorem delivered_all {size : UInt8} {sampleType : Nat} {order : List Label} {input : Nat → Label → List Int32} {start ticks : Nat → Nat} :
    ∀ (bs : List (List UInt8)) (m : Nat), (∀ k (hk : k < bs.length), DeliveredUnit size sampleType order (input (m + k)) (start (m + k)) (ticks (m + k)) bs[k]) →
    (∀ k < bs.length, ∀ l ∈ order, l ≠ .omitted → start (m + k) + ticks (m + k) ≤ (input (m + k) l).length) →
    DeliveredUnit size sampleType order (fun l => (List.range bs.length).flatMap fun k => ((input (m + k) l).drop (start (m + k))).take (ticks (m + k))) 0
      ((List.range bs.length).map fun k => ticks (m + k)).sum bs.flatten := by
  intro bs
  induction bs with
  | nil => intro m _ _; exact ⟨by simp, fun c i l _ hi => (by simp at hi)⟩
  | cons b bs ih =>
    intro m h1 h2
    have hrest := ih (m + 1) (fun k hk => by
        have := h1 (k + 1) (by simpa using hk)
        rw [show m + (k + 1) = m + 1 + k by omega] at this
        simpa using this) (fun k hk l hl hlo => by
        have := h2 (k + 1) (by simpa using hk) l hl hlo
        rw [show m + (k + 1) = m + 1 + k by omega] at this
        exact this)
    have hfirst : DeliveredUnit size sampleType order (fun l => ((input m l).drop (start m)).take (ticks m)) 0 (ticks m) b := by
      have := h1 0 (by simp)
      simp only [Nat.add_zero, List.getElem_cons_zero] at this
      refine delivered_congr this fun l _ _ i hi => ?_
      simp only [List.getD_eq_getElem?_getD, Nat.zero_add]
      rw [List.getElem?_take_of_lt hi, List.getElem?_drop]
    have := delivered_append (fun l hl hlo => by
        have := h2 0 (by simp) l hl hlo
        simp only [Nat.add_zero] at this
        rw [List.length_take, List.length_drop]; omega) hfirst hrest
    have e1 : ((List.range (b :: bs).length).map fun k => ticks (m + k)).sum = ticks m + ((List.range bs.length).map fun k => ticks (m + 1 + k)).sum := by
      rw [List.length_cons, List.range_succ_eq_map, List.map_cons, List.sum_cons, List.map_map]
      congr 2
      exact List.map_congr_left fun k _ => by simp only [Function.comp, Nat.succ_eq_add_one]; rw [show m + (k + 1) = m + 1 + k by omega]
    have e2 : ∀ l, ((List.range (b :: bs).length).flatMap fun k => ((input (m + k) l).drop (start (m + k))).take (ticks (m + k))) =
        ((input m l).drop (start m)).take (ticks m) ++ (List.range bs.length).flatMap fun k => ((input (m + 1 + k) l).drop (start (m + 1 + k))).take (ticks (m + 1 + k)) := by
      intro l
      rw [List.length_cons, List.range_succ_eq_map, List.flatMap_cons, List.flatMap_map]
      congr 1
      refine List.flatMap_congr fun k _ => ?_
      rw [Nat.succ_eq_add_one, show m + (k + 1) = m + 1 + k by omega]
    rw [e1, List.flatten_cons]
    refine delivered_congr this fun l _ _ i _ => ?_
    rw [e2 l]

end Iamf.Props
