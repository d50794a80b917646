import Verif.Cli.Labels
/-
  Properties of the assignment of channels to substreams: C27.
-/
namespace Iamf.Props
open Iamf

/-! ## C27: every channel of the highest layer is carried by exactly one substream -/

/-- The label lists of all substreams, one after the other. -/
def allLabels (m : SubstreamLabels) : List Label := m.flatMap Prod.snd

private theorem pushLabels_new {id : UInt32} {ls : List Label} {m : SubstreamLabels} (h : id ∉ m.map Prod.fst) :
    pushLabels id ls m = m ++ [(id, ls)] := by
  induction m with
  | nil => rfl
  | cons x m ih =>
    obtain ⟨i, l⟩ := x
    simp only [List.map_cons, List.mem_cons, not_or] at h
    simp only [pushLabels]
    rw [if_neg (fun e => h.1 e.symm), ih h.2, List.cons_append]

private theorem not_mem_take {ids : List UInt32} (hn : ids.Nodup) {i : Nat} {s : UInt32} (h : ids[i]? = some s) :
    s ∉ ids.take i := by
  intro hm
  obtain ⟨j, hj, he⟩ := List.mem_take_iff_getElem.mp hm
  obtain ⟨hi, hs⟩ := List.getElem?_eq_some_iff.mp h
  have : j = i := (List.getElem_inj hn).mp (he.trans hs.symm)
  omega

private theorem take_succ' {ids : List UInt32} {i : Nat} {s : UInt32} (h : ids[i]? = some s) :
    ids.take (i + 1) = ids.take i ++ [s] := by
  rw [List.take_add_one, h]; rfl

private theorem addSingle_ok {ids : List UInt32} (hn : ids.Nodup) (l : List Label) (m : SubstreamLabels) (i : Nat)
    (hk : m.map Prod.fst = ids.take i) (hl : i + l.length ≤ ids.length) :
    ∃ x, addSingle ids l m i = .ok (m ++ x, i + l.length) ∧ (m ++ x).map Prod.fst = ids.take (i + l.length) ∧
      allLabels x = l ∧ x.map (fun y => y.2.length) = List.replicate l.length 1 := by
  induction l generalizing m i with
  | nil => exact ⟨[], by simp [addSingle], by simpa using hk, rfl, rfl⟩
  | cons a l ih =>
    simp only [List.length_cons] at hl
    have hi : i < ids.length := by omega
    have hg : ids[i]? = some ids[i] := List.getElem?_eq_getElem hi
    simp only [addSingle, hg]
    have hnot : ids[i] ∉ m.map Prod.fst := by rw [hk]; exact not_mem_take hn hg
    rw [pushLabels_new hnot]
    obtain ⟨x, h1, h2, h3, h4⟩ := ih (m ++ [(ids[i], [a])]) (i + 1)
      (by rw [List.map_append, hk, take_succ' hg]; rfl) (by omega)
    refine ⟨(ids[i], [a]) :: x, ?_, ?_, ?_, ?_⟩
    · rw [h1]; simp [Nat.add_comm, Nat.add_left_comm]
    · rw [List.append_assoc] at h2
      simpa [Nat.add_comm, Nat.add_left_comm] using h2
    · simp only [allLabels, List.flatMap_cons] at h3 ⊢; rw [h3]; rfl
    · simp [h4, List.replicate_succ]

private theorem addCoupled_ok {ids : List UInt32} (hn : ids.Nodup) (k : Nat) (l : List Label) (m : SubstreamLabels) (i : Nat)
    (hk : m.map Prod.fst = ids.take i) (h2 : l.length = 2 * k) (hl : i + k ≤ ids.length) :
    ∃ x, addCoupled ids l m i = .ok (m ++ x, i + k) ∧ (m ++ x).map Prod.fst = ids.take (i + k) ∧
      allLabels x = l ∧ x.map (fun y => y.2.length) = List.replicate k 2 := by
  induction k generalizing l m i with
  | zero =>
    have : l = [] := List.length_eq_zero_iff.mp (by omega)
    subst this
    exact ⟨[], by simp [addCoupled], by simpa using hk, rfl, rfl⟩
  | succ k ih =>
    match l with
    | [] => simp at h2
    | [_] => simp at h2; omega
    | a :: b :: l =>
      simp only [List.length_cons] at h2
      have hi : i < ids.length := by omega
      have hg : ids[i]? = some ids[i] := List.getElem?_eq_getElem hi
      simp only [addCoupled, hg]
      have hnot : ids[i] ∉ m.map Prod.fst := by rw [hk]; exact not_mem_take hn hg
      rw [pushLabels_new hnot]
      obtain ⟨x, h1, h2', h3, h4⟩ := ih l (m ++ [(ids[i], [a, b])]) (i + 1)
        (by rw [List.map_append, hk, take_succ' hg]; rfl) (by omega) (by omega)
      refine ⟨(ids[i], [a, b]) :: x, ?_, ?_, ?_, ?_⟩
      · rw [h1]; simp [Nat.add_comm, Nat.add_left_comm]
      · rw [List.append_assoc] at h2'
        simpa [Nat.add_comm, Nat.add_left_comm] using h2'
      · simp only [allLabels, List.flatMap_cons] at h3 ⊢; rw [h3]; rfl
      · simp [h4, List.replicate_succ]

theorem add_ok {ids : List UInt32} (hn : ids.Nodup) {g : GroupLabels} {m m' : SubstreamLabels} {i i' : Nat}
    (hk : m.map Prod.fst = ids.take i) (h : addSubstreamLabels g ids m i = .ok (m', i')) :
    ∃ x, m' = m ++ x ∧ i' = i + (g.coupled.length / 2 + g.single.length) ∧ i' ≤ ids.length ∧
      m'.map Prod.fst = ids.take i' ∧ allLabels x = g.coupled ++ g.single ∧
      x.map Prod.fst = (ids.drop i).take (i' - i) ∧
      x.map (fun y => y.2.length) = List.replicate (g.coupled.length / 2) 2 ++ List.replicate g.single.length 1 := by
  unfold addSubstreamLabels at h
  split at h
  · simp at h
  next he =>
    split at h
    · simp at h
    next hl =>
      obtain ⟨x, a1, a2, a3, a4⟩ := addCoupled_ok hn (g.coupled.length / 2) g.coupled m i hk (by omega) (by omega)
      obtain ⟨y, b1, b2, b3, b4⟩ := addSingle_ok hn g.single (m ++ x) (i + g.coupled.length / 2) a2 (by omega)
      rw [a1] at h
      simp only [Except.bind, bind, b1, Except.ok.injEq, Prod.mk.injEq] at h
      obtain ⟨rfl, rfl⟩ := h
      refine ⟨x ++ y, by simp, by omega, by omega, b2, ?_, ?_, ?_⟩
      · simp only [allLabels, List.flatMap_append] at a3 b3 ⊢
        rw [a3, b3]
      · rw [List.append_assoc, List.map_append, hk] at b2
        have h3 : ids.take (i + g.coupled.length / 2 + g.single.length) =
            ids.take i ++ (ids.drop i).take (i + g.coupled.length / 2 + g.single.length - i) := by
          rw [Nat.add_assoc, List.take_add, Nat.add_sub_cancel_left]
        rw [h3] at b2
        exact List.append_cancel_left b2
      · simp [a4, b4]

private theorem add_safe {ids : List UInt32} (hn : ids.Nodup) {g : GroupLabels} {m : SubstreamLabels} {i : Nat} {e : Err}
    (hk : m.map Prod.fst = ids.take i) (hg : g.coupled.length % 2 = 0) (h : addSubstreamLabels g ids m i = .error e) :
    e.fatal = false := by
  unfold addSubstreamLabels at h
  rw [if_neg (by omega)] at h
  split at h
  · simp only [Except.error.injEq] at h; subst h; rfl
  next hl =>
    obtain ⟨x, a1, a2, a3, a4⟩ := addCoupled_ok hn (g.coupled.length / 2) g.coupled m i hk (by omega) (by omega)
    obtain ⟨y, b1, b2, b3, b4⟩ := addSingle_ok hn g.single (m ++ x) (i + g.coupled.length / 2) a2 (by omega)
    rw [a1] at h
    simp [Except.bind, bind, b1] at h

/-! ### Channel groups -/

/-- The channel numbers of the layouts that are not expanded. -/
def plainNumbers : List ChannelNumbers :=
  [⟨1, 0, 0, 0⟩, ⟨2, 0, 0, 0⟩, ⟨5, 1, 0, 0⟩, ⟨5, 1, 2, 0⟩, ⟨5, 1, 4, 0⟩, ⟨7, 1, 0, 0⟩, ⟨7, 1, 2, 0⟩, ⟨7, 1, 4, 0⟩, ⟨3, 1, 2, 0⟩]

theorem plain_of_layout {l : UInt8} {c : ChannelNumbers} (h : layoutChannels l = .ok c) : c ∈ plainNumbers := by
  unfold layoutChannels at h
  split at h <;> simp only [Except.ok.injEq, reduceCtorEq] at h <;> subst h <;> decide

/-- Whether a layer with these channel numbers may have been given this label. -/
private def allowed (c : ChannelNumbers) : Label → Bool
  | .mono => c.surround ≥ 1
  | .l2 | .r2 => c.surround ≥ 2
  | .l3 | .r3 | .centre => c.surround ≥ 3
  | .l5 | .r5 | .ls5 | .rs5 => c.surround ≥ 5
  | .l7 | .r7 | .lss7 | .rss7 | .lrs7 | .rrs7 => c.surround ≥ 7
  | .ltf2 | .rtf2 | .ltf3 | .rtf3 => c.height ≥ 2
  | .ltf4 | .rtf4 | .ltb4 | .rtb4 => c.height ≥ 4
  | .lfe => c.lfe ≥ 1
  | _ => false

def grows (acc c : ChannelNumbers) : Bool := acc.surround ≤ c.surround && acc.lfe ≤ c.lfe && acc.height ≤ c.height

private def ifOk (x : Except Err GroupLabels) (f : GroupLabels → Bool) : Bool :=
  match x with
  | .ok g => f g
  | .error e => !e.fatal

private theorem ifOk_ok {x : Except Err GroupLabels} {f : GroupLabels → Bool} {g : GroupLabels} (h : ifOk x f = true) (hx : x = .ok g) :
    f g = true := by subst hx; exact h

private theorem ifOk_error {x : Except Err GroupLabels} {f : GroupLabels → Bool} {e : Err} (h : ifOk x f = true) (hx : x = .error e) :
    e.fatal = false := by subst hx; simpa [ifOk] using h

private theorem base_all : (plainNumbers.all fun c => ifOk (baseGroup c) fun g =>
    decide (g.coupled.length % 2 = 0) && decide ((g.coupled ++ g.single).Nodup) &&
    decide ((g.coupled ++ g.single).length = c.total) && (g.coupled ++ g.single).all (allowed c)) = true := by decide +kernel

private theorem demixed_all : (plainNumbers.all fun acc => plainNumbers.all fun c => !grows acc c || ifOk (demixedGroup acc c) fun g =>
    decide (g.coupled.length % 2 = 0) && decide ((g.coupled ++ g.single).Nodup) &&
    decide (acc.total + (g.coupled ++ g.single).length = c.total) &&
    (g.coupled ++ g.single).all fun l => allowed c l && !allowed acc l) = true := by decide +kernel

private theorem base_facts {c : ChannelNumbers} (hc : c ∈ plainNumbers) {g : GroupLabels} (h : baseGroup c = .ok g) :
    g.coupled.length % 2 = 0 ∧ (g.coupled ++ g.single).Nodup ∧ (g.coupled ++ g.single).length = c.total ∧
      (∀ l ∈ g.coupled ++ g.single, allowed c l = true) := by
  have := ifOk_ok (List.all_eq_true.mp base_all c hc) h
  simpa only [Bool.and_eq_true, decide_eq_true_eq, List.all_eq_true, and_assoc] using this

private theorem demixed_facts {acc c : ChannelNumbers} (ha : acc ∈ plainNumbers) (hc : c ∈ plainNumbers) (hg : grows acc c = true)
    {g : GroupLabels} (h : demixedGroup acc c = .ok g) :
    g.coupled.length % 2 = 0 ∧ (g.coupled ++ g.single).Nodup ∧ acc.total + (g.coupled ++ g.single).length = c.total ∧
      (∀ l ∈ g.coupled ++ g.single, allowed c l = true ∧ allowed acc l = false) := by
  have h1 := List.all_eq_true.mp (List.all_eq_true.mp demixed_all acc ha) c hc
  rw [hg, Bool.not_true, Bool.false_or] at h1
  have := ifOk_ok h1 h
  simpa only [Bool.and_eq_true, decide_eq_true_eq, List.all_eq_true, and_assoc, Bool.not_eq_true'] using this

private theorem allowed_mono {acc c : ChannelNumbers} (h : grows acc c = true) {l : Label} (hl : allowed acc l = true) :
    allowed c l = true := by
  simp only [grows, Bool.and_eq_true, decide_eq_true_eq] at h
  cases l <;> simp only [allowed, decide_eq_true_eq, Bool.false_eq_true] at hl ⊢ <;> omega

private theorem expanded_facts {e : Option UInt8} {c : ChannelNumbers} {g : GroupLabels} (h : expandedGroup 0 e = .ok (c, g)) :
    g.coupled.length % 2 = 0 ∧ (g.coupled ++ g.single).Nodup ∧ (g.coupled ++ g.single).length = c.total := by
  unfold expandedGroup at h
  simp only [ne_eq, not_true_eq_false, ↓reduceIte] at h
  split at h
  · simp at h
  · split at h <;> simp only [Except.ok.injEq, reduceCtorEq, Prod.mk.injEq] at h <;> obtain ⟨rfl, rfl⟩ := h <;> decide

private theorem expanded_safe {i : Nat} {e : Option UInt8} {x : Err} (h : expandedGroup i e = .error x) : x = .invalidArgument := by
  unfold expandedGroup at h
  split at h
  · simp only [Except.error.injEq] at h; exact h.symm
  · split at h
    · simp only [Except.error.injEq] at h; exact h.symm
    · split at h <;> simp only [Except.error.injEq, reduceCtorEq] at h; exact h.symm

/-- The state of the loop over the layers, before layer `index`. -/
private structure Inv (ids : List UInt32) (done : List ChannelLayer) (acc : ChannelNumbers) (si : Nat) (r : ElementLabels) : Prop where
  keys : r.labels.map Prod.fst = ids.take si
  le : si ≤ ids.length
  nodup : (allLabels r.labels).Nodup
  total : (allLabels r.labels).length = acc.total
  counts : r.labels.map (fun y => y.2.length) = done.flatMap fun y =>
    List.replicate y.coupledSubstreamCount.toNat 2 ++ List.replicate (y.substreamCount.toNat - y.coupledSubstreamCount.toNat) 1
  layers : r.layers.length = done.length
  last : done ≠ [] → r.layers.getLast? = some acc
  numbers : ∀ x ∈ done.zip r.layers, x.1.layout = kLayoutExpanded ∨ layoutChannels x.1.layout = .ok x.2

private theorem counts_replicate {g : GroupLabels} {layer : ChannelLayer} (h : substreamCountsOk g layer = true) :
    List.replicate (g.coupled.length / 2) 2 ++ List.replicate g.single.length 1 =
      List.replicate layer.coupledSubstreamCount.toNat 2 ++
        List.replicate (layer.substreamCount.toNat - layer.coupledSubstreamCount.toNat) 1 := by
  simp only [substreamCountsOk, Bool.and_eq_true, beq_iff_eq] at h
  rw [h.1, h.2]
  congr 2
  omega

/-- One layer keeps the invariant if its labels are new, distinct and as many as the channels added. -/
private theorem inv_step {ids : List UInt32} (hn : ids.Nodup) {done : List ChannelLayer} {acc : ChannelNumbers} {si : Nat} {r : ElementLabels}
    (hI : Inv ids done acc si r) {layer : ChannelLayer} {c : ChannelNumbers} {g : GroupLabels} {m : SubstreamLabels} {si' : Nat}
    {gs : LabelGains} (ha : addSubstreamLabels g ids r.labels si = .ok (m, si')) (hc : substreamCountsOk g layer = true)
    (hd : (g.coupled ++ g.single).Nodup) (hnew : ∀ l ∈ g.coupled ++ g.single, l ∉ allLabels r.labels)
    (ht : acc.total + (g.coupled ++ g.single).length = c.total)
    (hcn : layer.layout = kLayoutExpanded ∨ layoutChannels layer.layout = .ok c) :
    Inv ids (done ++ [layer]) c si' ⟨m, gs, r.layers ++ [c]⟩ := by
  obtain ⟨x, h1, h2, h3, h4, h5, h6, h7⟩ := add_ok hn hI.keys ha
  subst h1
  refine ⟨h4, h3, ?_, ?_, ?_, ?_, ?_, ?_⟩
  · show (allLabels (r.labels ++ x)).Nodup
    simp only [allLabels, List.flatMap_append]
    rw [List.nodup_append]
    refine ⟨hI.nodup, ?_, ?_⟩
    · rw [show x.flatMap Prod.snd = g.coupled ++ g.single from h5]; exact hd
    · intro a ha' b hb hab
      subst hab
      have hb' : a ∈ g.coupled ++ g.single := by rw [← h5]; exact hb
      exact hnew a hb' ha'
  · show (allLabels (r.labels ++ x)).length = c.total
    have := hI.total
    simp only [allLabels, List.flatMap_append, List.length_append] at this h5 ⊢
    rw [this, h5]
    simpa using ht
  · show (r.labels ++ x).map _ = _
    rw [List.map_append, hI.counts, h7, List.flatMap_append, counts_replicate hc]
    simp
  · simp [hI.layers]
  · intro _; simp
  · show ∀ y ∈ (done ++ [layer]).zip (r.layers ++ [c]), _
    rw [List.zip_append hI.layers.symm]
    intro y hy
    rcases List.mem_append.mp hy with hy | hy
    · exact hI.numbers y hy
    · simp only [List.zip_cons_cons, List.zip_nil_left, List.mem_singleton] at hy
      subst hy
      exact hcn

private theorem except_bind_ok {ε α β : Type} {x : Except ε α} {f : α → Except ε β} {b : β} (h : (x >>= f) = .ok b) :
    ∃ a, x = .ok a ∧ f a = .ok b := by
  cases x with
  | error e => simp [bind, Except.bind] at h
  | ok a => exact ⟨a, rfl, h⟩

theorem layer_step {ids : List UInt32} {layer : ChannelLayer} {ls : List ChannelLayer} {index : Nat} {acc : ChannelNumbers}
    {si : Nat} {r r' : ElementLabels} (h : finalizeLayers ids (layer :: ls) index acc si r = .ok r') :
    ∃ c g m si' gs, layerGroup index layer acc = .ok (c, g) ∧ addSubstreamLabels g ids r.labels si = .ok (m, si') ∧
      substreamCountsOk g layer = true ∧
      (if layer.outputGainPresent then layerGains layer m ((ids.drop si).take (si' - si)) r.gains else .ok r.gains) = .ok gs ∧
      finalizeLayers ids ls (index + 1) c si' ⟨m, gs, r.layers ++ [c]⟩ = .ok r' := by
  unfold finalizeLayers at h
  obtain ⟨⟨c, g⟩, h1, h⟩ := except_bind_ok h
  simp only at h
  obtain ⟨⟨m, si'⟩, h2, h⟩ := except_bind_ok h
  simp only at h
  split at h
  · simp at h
  next hc =>
    obtain ⟨gs, h3, h⟩ := except_bind_ok h
    exact ⟨c, g, m, si', gs, h1, h2, by simpa using hc, h3, h⟩

theorem layout_step {i : Nat} {l : UInt8} {acc c : ChannelNumbers} {g : GroupLabels} (h : layoutGroup i l acc = .ok (c, g)) :
    layoutChannels l = .ok c ∧ grows acc c = true ∧ (if i = 0 then baseGroup c else demixedGroup acc c) = .ok g := by
  unfold layoutGroup at h
  obtain ⟨c', h1, h⟩ := except_bind_ok h
  split at h
  · simp at h
  next hc =>
    obtain ⟨g', h2, h⟩ := except_bind_ok h
    simp only [Except.ok.injEq, Prod.mk.injEq] at h
    obtain ⟨rfl, rfl⟩ := h
    refine ⟨h1, ?_, h2⟩
    simp only [grows, Bool.and_eq_true, decide_eq_true_eq]
    omega

/-- The layers behind the first. -/
private theorem inv_rest {ids : List UInt32} (hn : ids.Nodup) (ls : List ChannelLayer) {done : List ChannelLayer} {index : Nat}
    {acc : ChannelNumbers} {si : Nat} {r r' : ElementLabels} (hne : done ≠ []) (hi : index ≠ 0)
    (hp : acc ∈ plainNumbers) (hall : ∀ l ∈ allLabels r.labels, allowed acc l = true) (hI : Inv ids done acc si r)
    (h : finalizeLayers ids ls index acc si r = .ok r') :
    ∃ acc' si', Inv ids (done ++ ls) acc' si' r' := by
  induction ls generalizing done index acc si r with
  | nil =>
    simp only [finalizeLayers, Except.ok.injEq] at h
    subst h
    exact ⟨acc, si, by simpa using hI⟩
  | cons layer ls ih =>
    obtain ⟨c, g, m, si', gs, h1, h2, h3, -, h⟩ := layer_step h
    unfold layerGroup at h1
    split at h1
    · unfold expandedGroup at h1
      rw [if_pos hi] at h1
      simp at h1
    · obtain ⟨a1, a2, a3⟩ := layout_step h1
      rw [if_neg hi] at a3
      have hc := plain_of_layout a1
      obtain ⟨-, f2, f3, f4⟩ := demixed_facts hp hc a2 a3
      have hI' := inv_step (gs := gs) hn hI h2 h3 f2 (fun l hl hm => by
        have := hall l hm
        rw [(f4 l hl).2] at this
        simp at this) f3 (.inr a1)
      obtain ⟨x, b1, -, -, -, b5, -, -⟩ := add_ok hn hI.keys h2
      have := ih (done := done ++ [layer]) (by simp) (by omega) hc (by
        intro l hl
        simp only [b1, allLabels, List.flatMap_append] at hl
        rcases List.mem_append.mp hl with hl | hl
        · exact allowed_mono a2 (hall l hl)
        · exact (f4 l (b5 ▸ hl)).1) hI' h
      simpa using this

private theorem inv_all {ids : List UInt32} (hn : ids.Nodup) (ls : List ChannelLayer) {r' : ElementLabels}
    (hx : ∀ l ∈ ls, l.layout = kLayoutExpanded → ls.length = 1)
    (h : finalizeLayers ids ls 0 ⟨0, 0, 0, 0⟩ 0 ⟨[], [], []⟩ = .ok r') :
    ∃ acc' si', Inv ids ls acc' si' r' := by
  have hI0 : Inv ids [] ⟨0, 0, 0, 0⟩ 0 ⟨[], [], []⟩ :=
    ⟨by simp, by omega, by simp [allLabels], rfl, rfl, rfl, fun h => absurd rfl h, by simp⟩
  cases ls with
  | nil =>
    simp only [finalizeLayers, Except.ok.injEq] at h
    subst h
    exact ⟨_, _, hI0⟩
  | cons layer ls =>
    obtain ⟨c, g, m, si', gs, h1, h2, h3, -, h⟩ := layer_step h
    unfold layerGroup at h1
    split at h1
    next he =>
      have hl := hx layer List.mem_cons_self he
      have : ls = [] := List.length_eq_zero_iff.mp (by simpa using hl)
      subst this
      simp only [finalizeLayers, Except.ok.injEq] at h
      subst h
      obtain ⟨-, f2, f3⟩ := expanded_facts h1
      have hI' := inv_step (gs := gs) hn hI0 h2 h3 f2 (fun l _ (hm : l ∈ []) => absurd hm List.not_mem_nil)
        (show 0 + 0 + 0 + 0 + _ = c.total by omega) (.inl he)
      exact ⟨c, si', by simpa using hI'⟩
    · obtain ⟨a1, a2, a3⟩ := layout_step h1
      rw [if_pos rfl] at a3
      have hc := plain_of_layout a1
      obtain ⟨-, f2, f3, f4⟩ := base_facts hc a3
      have hI' := inv_step (gs := gs) hn hI0 h2 h3 f2 (fun l _ (hm : l ∈ []) => absurd hm List.not_mem_nil)
        (show 0 + 0 + 0 + 0 + _ = c.total by omega) (.inr a1)
      obtain ⟨x, b1, -, -, -, b5, -, -⟩ := add_ok hn hI0.keys h2
      have := inv_rest hn ls (done := [layer]) (by simp) (by omega) hc (by
        intro l hl
        simp only [b1, List.nil_append] at hl
        rw [b5] at hl
        exact f4 l hl) hI' h
      simpa using this

/-- **C27 (channels).** If labels are generated for a channel-based element (with an expanded layout only as the single
layer), then
* exactly the substreams of the element have labels, in each layer first two for each coupled substream, then one for each other,
* no label is given twice,
* there are as many labels as the highest layer has channels, and
* the channel numbers recorded for the layers are those of their layouts. -/
theorem C27_channels (ids : List UInt32) (c : ScalableLayout) (r : ElementLabels)
    (hlen : 1 ≤ c.layers.length ∧ c.layers.length ≤ 255)
    (hx : ∀ l ∈ c.layers, l.layout = kLayoutExpanded → c.layers.length = 1)
    (h : finalizeScalable ids c = .ok r) :
    r.labels.map Prod.fst = ids ∧
    r.labels.map (fun y => y.2.length) = c.layers.flatMap (fun y =>
      List.replicate y.coupledSubstreamCount.toNat 2 ++
        List.replicate (y.substreamCount.toNat - y.coupledSubstreamCount.toNat) 1) ∧
    (allLabels r.labels).Nodup ∧
    (∃ last, r.layers.getLast? = some last ∧
      (allLabels r.labels).length = last.surround + last.lfe + last.height + last.bottom) ∧
    r.layers.length = c.layers.length ∧
    ∀ x ∈ c.layers.zip r.layers, x.1.layout = kLayoutExpanded ∨ layoutChannels x.1.layout = .ok x.2 := by
  unfold finalizeScalable at h
  split at h
  · simp at h
  next hn =>
    simp only [Decidable.not_not] at hn
    obtain ⟨r', h1, h⟩ := except_bind_ok h
    have hnum : c.numLayers.toNat = c.layers.length := by
      unfold ScalableLayout.numLayers
      rw [UInt8.toNat_ofNat']
      omega
    rw [hnum, List.take_length] at h1
    split at h
    · simp at h
    next hl =>
      simp only [Except.ok.injEq] at h
      subst h
      simp only [Decidable.not_not] at hl
      obtain ⟨acc, si, hI⟩ := inv_all hn c.layers hx h1
      have hne : c.layers ≠ [] := by intro e; simp [e] at hlen
      refine ⟨?_, hI.counts, hI.nodup, ⟨acc, hI.last hne, hI.total⟩, hI.layers, hI.numbers⟩
      have hk := hI.keys
      have h2 := congrArg List.length hk
      rw [List.length_map, List.length_take] at h2
      rw [hk]
      exact List.take_of_length_le (by omega)

/-- Four layers: mono, stereo, 3.1.2 and 5.1.4, with gains. -/
private def exampleLayout : ScalableLayout :=
  ⟨0, [⟨0, false, false, 0, 1, 0, 0, 0, 0, none⟩, ⟨1, true, true, 0, 1, 0, 32, 0, -256, none⟩,
    ⟨8, false, true, 0, 3, 1, 0, 0, 0, none⟩, ⟨4, true, true, 0, 2, 2, 12, 0, 256, none⟩]⟩

example : finalizeScalable [10, 11, 12, 13, 14, 15, 16] exampleLayout = .ok
    ⟨[(10, [.mono]), (11, [.l2]), (12, [.ltf3, .rtf3]), (13, [.centre]), (14, [.lfe]), (15, [.l5, .r5]), (16, [.ltf4, .rtf4])],
      [(.l2, -256)], [⟨1, 0, 0, 0⟩, ⟨2, 0, 0, 0⟩, ⟨3, 1, 2, 0⟩, ⟨5, 1, 4, 0⟩]⟩ := by decide +kernel

example : finalizeScalable [7, 8] ⟨0, [⟨15, false, false, 0, 2, 1, 0, 0, 0, some 7⟩]⟩ = .ok
    ⟨[(7, [.l7, .r7]), (8, [.centre])], [], [⟨3, 0, 0, 0⟩]⟩ := by decide +kernel

/-- **C27 (finding).** Without the restriction on expanded layouts the claim is false: an expanded first layer (top front
pair) followed by 5.1.4 is accepted although "expanded layout is only permitted when there is a single layer"; two labels
are then given twice and the ten channels of the second layer get only nine labels. -/
theorem C27_expanded_layer_with_others_is_accepted :
    ∃ r, finalizeScalable [1, 2, 3, 4, 5, 6]
        ⟨0, [⟨15, false, false, 0, 1, 1, 0, 0, 0, some 4⟩, ⟨4, false, false, 0, 5, 2, 0, 0, 0, none⟩]⟩ = .ok r ∧
      r.layers.getLast? = some ⟨5, 1, 4, 0⟩ ∧ (allLabels r.labels).length = 9 ∧ ¬ (allLabels r.labels).Nodup :=
  ⟨⟨[(1, [.ltf4, .rtf4]), (2, [.l5, .r5]), (3, [.ltf4, .rtf4]), (4, [.centre]), (5, [.lfe]), (6, [.l2])], [],
    [⟨0, 0, 2, 0⟩, ⟨5, 1, 4, 0⟩]⟩, by decide +kernel, rfl, rfl, by decide +kernel⟩

/-! ### Labelling never crashes -/

/-- Whatever goes wrong is reported as a status. -/
def Reports {α : Type} (x : Except Err α) (Q : α → Prop) : Prop :=
  match x with
  | .ok a => Q a
  | .error e => e.fatal = false

theorem Reports.bind {α β : Type} {x : Except Err α} {f : α → Except Err β} {Q : α → Prop} {R : β → Prop}
    (h : Reports x Q) (hf : ∀ a, Q a → Reports (f a) R) : Reports (x >>= f) R := by
  cases x with
  | error e => exact h
  | ok a => exact hf a h

theorem Reports.of {α : Type} {x : Except Err α} {Q : α → Prop} (h : Reports x Q) :
    (∀ a, x = .ok a → Q a) ∧ ∀ e, x = .error e → e.fatal = false := by
  constructor
  · rintro a rfl; exact h
  · rintro e rfl; exact h

private theorem demixedSurround_reports (n s : Nat) :
    Reports (demixedSurround n s) (fun g => g.1.coupled.length % 2 = 0) := by
  induction n generalizing s with
  | zero => exact rfl
  | succ n ih =>
    unfold demixedSurround
    refine Reports.bind (Q := fun (g : GroupLabels × Bool) => g.1.coupled.length % 2 = 0) ?_ fun g hg => ?_
    · split
      · rfl
      · rfl
      · rfl
      · rfl
      · split <;> rfl
    · refine (ih (s + 1)).bind fun g' hg' => ?_
      show (g.1.coupled ++ g'.1.coupled).length % 2 = 0
      rw [List.length_append]; omega

private theorem demixedGroup_reports (acc c : ChannelNumbers) : Reports (demixedGroup acc c) (fun g => g.coupled.length % 2 = 0) := by
  unfold demixedGroup
  refine (demixedSurround_reports _ _).bind fun g hg => ?_
  refine Reports.bind (Q := fun (l : List Label) => l.length % 2 = 0) ?_ fun h hh => Reports.bind (Q := fun _ => True) ?_ fun e _ => ?_
  · repeat' split
    all_goals rfl
  · repeat' split
    all_goals first | rfl | trivial
  · show (g.1.coupled ++ h).length % 2 = 0
    rw [List.length_append]; omega

private theorem baseGroup_reports (c : ChannelNumbers) : Reports (baseGroup c) (fun g => g.coupled.length % 2 = 0) := by
  unfold baseGroup
  refine Reports.bind (Q := fun (g : GroupLabels) => g.coupled.length % 2 = 0) ?_ fun g hg =>
    Reports.bind (Q := fun (l : List Label) => l.length % 2 = 0) ?_ fun h hh => Reports.bind (Q := fun _ => True) ?_ fun e _ => ?_
  · split <;> rfl
  · repeat' split
    all_goals rfl
  · split <;> first | rfl | trivial
  · show (g.coupled ++ h).length % 2 = 0
    rw [List.length_append]; omega

private theorem layerGroup_reports (i : Nat) (layer : ChannelLayer) (acc : ChannelNumbers) :
    Reports (layerGroup i layer acc) (fun g => g.2.coupled.length % 2 = 0) := by
  unfold layerGroup
  split
  · match h : expandedGroup i layer.expanded with
    | .error e => rw [expanded_safe h]; rfl
    | .ok (c, g) =>
      by_cases hi : i = 0
      · subst hi; exact (expanded_facts h).1
      · unfold expandedGroup at h; rw [if_pos hi] at h; simp at h
  · unfold layoutGroup
    refine Reports.bind (Q := fun _ => True) ?_ fun c _ => ?_
    · unfold layoutChannels; split <;> first | trivial | rfl
    · split
      · rfl
      · refine Reports.bind (Q := fun (g : GroupLabels) => g.coupled.length % 2 = 0) ?_ fun g hg => hg
        split
        · exact baseGroup_reports c
        · exact demixedGroup_reports acc c

private theorem layerGains_reports (layer : ChannelLayer) (m : SubstreamLabels) (ids : List UInt32) (gs : LabelGains)
    (h : ∀ s ∈ ids, s ∈ m.map Prod.fst) : Reports (layerGains layer m ids gs) (fun _ => True) := by
  induction ids generalizing gs with
  | nil => trivial
  | cons s l ih =>
    unfold layerGains
    have hs := h s List.mem_cons_self
    cases hl : m.lookup s with
    | none =>
      rw [List.mem_map] at hs
      obtain ⟨⟨a, b⟩, hm, rfl⟩ := hs
      exact absurd hl (by
        rw [List.lookup_eq_none_iff]
        intro hc
        have := hc _ hm
        simp at this)
    | some ls => exact ih _ fun x hx => h x (List.mem_cons_of_mem _ hx)

private theorem finalizeLayers_reports {ids : List UInt32} (hn : ids.Nodup) (ls : List ChannelLayer) (index : Nat)
    (acc : ChannelNumbers) (si : Nat) (r : ElementLabels) (hk : r.labels.map Prod.fst = ids.take si) :
    Reports (finalizeLayers ids ls index acc si r) (fun _ => True) := by
  induction ls generalizing index acc si r with
  | nil => trivial
  | cons layer ls ih =>
    unfold finalizeLayers
    refine (layerGroup_reports index layer acc).bind fun g hg => ?_
    refine Reports.bind (Q := fun m => addSubstreamLabels g.2 ids r.labels si = .ok m) ?_ fun m hm => ?_
    · match h : addSubstreamLabels g.2 ids r.labels si with
      | .error e => exact add_safe hn hk hg h
      | .ok m => rfl
    · simp only
      split
      · rfl
      · obtain ⟨x, h1, h2, h3, h4, h5, h6, -⟩ := add_ok hn hk hm
        refine Reports.bind (Q := fun _ => True) ?_ fun gs _ => ih _ _ _ _ h4
        split
        · refine layerGains_reports _ _ _ _ fun s hs => ?_
          rw [h1, List.map_append, h6]
          exact List.mem_append_right _ hs
        · trivial

theorem finalizeScalable_reports (ids : List UInt32) (c : ScalableLayout) : Reports (finalizeScalable ids c) (fun _ => True) := by
  unfold finalizeScalable
  split
  · rfl
  next hn =>
    simp only [Decidable.not_not] at hn
    refine (finalizeLayers_reports hn _ _ _ _ _ (by simp)).bind fun r _ => ?_
    split <;> trivial

/-- **C27 (no crash).** Generating the labels of a channel-based element ends with labels or with an error status, whatever
the substreams and layers are: the internal consistency checks hold and no container is accessed out of range. -/
theorem C27_labelling_never_crashes (ids : List UInt32) (c : ScalableLayout) :
    ∀ e, finalizeScalable ids c = .error e → e ≠ .abort ∧ e ≠ .ub ∧ e ≠ .diverge := by
  intro e he
  have := (finalizeScalable_reports ids c).of.2 e he
  refine ⟨?_, ?_, ?_⟩ <;> rintro rfl <;> simp [Err.fatal] at this

/-- Not vacuous: too few substreams for 5.1 are refused. -/
example : finalizeScalable [1, 2] ⟨0, [⟨2, false, false, 0, 4, 2, 0, 0, 0, none⟩]⟩ = .error .outOfRange := by decide +kernel

end Iamf.Props
