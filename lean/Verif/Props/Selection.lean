import Verif.Cli.Selection
/-
  Properties of the selection of the mix presentation and the layout to render: C23.
-/
namespace Iamf.Props
open Iamf

/-! ## Specification -/

/-- The first sub-mix consists of one channel based audio element whose highest layer has the given loudspeaker layout. -/
def SingleElement (aes : List (UInt32 × AudioElement)) (layout : UInt8) (m : MixPresentation) : Prop :=
  ∃ s ss e a c ls x, m.subMixes = s :: ss ∧ s.elements = [e] ∧ aes.lookup e.id = some a ∧ a.config = .scalable c ∧
    c.layers = ls ++ [x] ∧ x.layout = layout

/-- Some sub-mix has a layout with the property. -/
def SomeLayout (p : Layout → Prop) (m : MixPresentation) : Prop := ∃ s ∈ m.subMixes, ∃ l ∈ s.layouts, p l.layout

/-- The first sub-mix has exactly one layout, and this is stereo (sound system A). -/
def OneStereoLayout (m : MixPresentation) : Prop :=
  ∃ s ss l r, m.subMixes = s :: ss ∧ s.layouts = [l] ∧ l.layout.specific = .soundSystem 0 r

/-- The first element of the first sub-mix asks for stereo rendering on headphones. -/
def StereoOnHeadphones (m : MixPresentation) : Prop :=
  ∃ s ss e es, m.subMixes = s :: ss ∧ s.elements = e :: es ∧ e.rendering.headphonesMode = 0

/-- The preferences of section 7.4.1 of the specification for the wanted layout, in decreasing order. -/
def layoutPreferences (aes : List (UInt32 × AudioElement)) (d : Layout) : List (MixPresentation → Prop) :=
  if d.type = 3 then [SingleElement aes 9, SomeLayout (·.type = 3)]
  else match d.specific with
    | .soundSystem 0 _ =>
      [fun m => OneStereoLayout m ∧ SingleElement aes 1 m ∧ StereoOnHeadphones m,
       fun m => OneStereoLayout m ∧ SingleElement aes 1 m]
    | _ => [SomeLayout (· = d)]

/-- All preferences: the wanted identifier counts more than the wanted layout. -/
def preferences (aes : List (UInt32 × AudioElement)) (desired : Option Layout) (id : Option UInt32) :
    List (MixPresentation → Prop) :=
  (match id with | some i => [fun m => m.id = i] | none => []) ++
  (match desired with | some d => layoutPreferences aes d | none => [])

/-- `i` is the first mix that meets the most important preference met by any mix, and 0 if no preference is met. -/
def FirstPreferred : List (MixPresentation → Prop) → List MixPresentation → Nat → Prop
  | [], _, i => i = 0
  | p :: ps, ms, i =>
    (∃ m, ms[i]? = some m ∧ p m ∧ ∀ j < i, ∀ m', ms[j]? = some m' → ¬ p m') ∨
    ((∀ m ∈ ms, ¬ p m) ∧ FirstPreferred ps ms i)

/-- Every channel based audio element of the mix presentation has a layer (guaranteed by the parser and the profiles). -/
def LayeredFor (aes : List (UInt32 × AudioElement)) (m : MixPresentation) : Prop :=
  ∀ s ∈ m.subMixes, ∀ e ∈ s.elements, ∀ a c, aes.lookup e.id = some a → a.config = .scalable c → c.layers ≠ []

/-- The same for all of them. -/
def Layered (aes : List (UInt32 × AudioElement)) (ms : List MixPresentation) : Prop := ∀ m ∈ ms, LayeredFor aes m

/-- The sub-mix that is rendered: the first one that has the wanted layout; the first one of all if none has it or none is wanted. -/
def ChosenSubMix (desired : Option Layout) (m : MixPresentation) (k : Nat) : Prop :=
  match desired with
  | none => k = 0
  | some d =>
    (∃ s, m.subMixes[k]? = some s ∧ (∃ l ∈ s.layouts, l.layout = d) ∧
      ∀ j < k, ∀ s', m.subMixes[j]? = some s' → ∀ l ∈ s'.layouts, l.layout ≠ d) ∨
    (k = 0 ∧ ∀ s ∈ m.subMixes, ∀ l ∈ s.layouts, l.layout ≠ d)

/-! ## Proofs -/

private theorem find_spec {cond : MixPresentation → Except Err Bool} {p : MixPresentation → Prop} {all : List MixPresentation}
    (hc : ∀ m ∈ all, ∃ b, cond m = .ok b ∧ (b = true ↔ p m)) (ms : List MixPresentation) (n : Nat) (h : ms = all.drop n)
    (hb : ∀ j < n, ∀ m, all[j]? = some m → ¬ p m) :
    ∃ r, findMixFrom cond ms n = .ok r ∧
      match r with
      | some i => ∃ m, all[i]? = some m ∧ p m ∧ ∀ j < i, ∀ m', all[j]? = some m' → ¬ p m'
      | none => ∀ m ∈ all, ¬ p m := by
  induction ms generalizing n with
  | nil =>
    refine ⟨none, rfl, ?_⟩
    intro m hm
    obtain ⟨j, hj, he⟩ := List.mem_iff_getElem.mp hm
    have : all.length ≤ n := by
      have := congrArg List.length h
      simp at this; omega
    exact hb j (by omega) m (List.getElem?_eq_some_iff.mpr ⟨hj, he⟩)
  | cons m ms ih =>
    have hn : all[n]? = some m := by
      have := congrArg (·[0]?) h
      simpa using this.symm
    obtain ⟨b, h1, h2⟩ := hc m (List.mem_of_getElem? hn)
    simp only [findMixFrom, h1, bind, Except.bind]
    by_cases hbt : b = true
    · rw [if_pos hbt]
      exact ⟨some n, rfl, m, hn, h2.mp hbt, hb⟩
    · rw [if_neg hbt]
      refine ih (n + 1) ?_ ?_
      · have := congrArg (List.drop 1) h
        simpa [List.drop_drop, Nat.add_comm] using this
      · intro j hj m' hm'
        rcases Nat.lt_succ_iff_lt_or_eq.mp hj with h' | rfl
        · exact hb j h' m' hm'
        · rw [hn] at hm'; cases hm'
          exact fun hp => hbt (h2.mpr hp)

private theorem single_spec {aes : List (UInt32 × AudioElement)} (layout : UInt8) (m : MixPresentation) (hl : LayeredFor aes m)
    (s : SubMix) (ss : List SubMix) (hm : m.subMixes = s :: ss) :
    ∃ b, hasOneElementWithLayout s.elements aes layout = .ok b ∧ (b = true ↔ SingleElement aes layout m) := by
  unfold hasOneElementWithLayout
  have inv : SingleElement aes layout m → ∃ e a c ls x, s.elements = [e] ∧ aes.lookup e.id = some a ∧
      a.config = .scalable c ∧ c.layers = ls ++ [x] ∧ x.layout = layout := by
    rintro ⟨s', ss', e, a, c, ls, x, h1, h2, h3, h4, h5, h6⟩
    rw [hm] at h1; cases h1
    exact ⟨e, a, c, ls, x, h2, h3, h4, h5, h6⟩
  split
  next e he =>
    split
    next h0 =>
      refine ⟨false, rfl, by simp, fun h => ?_⟩
      obtain ⟨e', a, c, ls, x, h2, h3, _⟩ := inv h
      rw [he] at h2; cases h2
      rw [h0] at h3; cases h3
    next a ha =>
      split
      next c hc =>
        split
        next hx => exact absurd (List.getLast?_eq_none_iff.mp hx) (hl s (by rw [hm]; simp) e (by rw [he]; simp) _ _ ha hc)
        next x hx =>
          refine ⟨_, rfl, ?_⟩
          obtain ⟨ls, hls⟩ := List.getLast?_eq_some_iff.mp hx
          rw [beq_iff_eq]
          constructor
          · exact fun h => ⟨s, ss, e, a, c, ls, x, hm, he, ha, hc, hls, h⟩
          · intro h
            obtain ⟨e', a', c', ls', x', h2, h3, h4, h5, h6⟩ := inv h
            rw [he] at h2; cases h2
            rw [ha] at h3; cases h3
            rw [hc] at h4; cases h4
            rw [h5, List.getLast?_concat] at hx; cases hx
            exact h6
      next hne =>
        refine ⟨false, rfl, by simp, fun h => ?_⟩
        obtain ⟨e', a', c', ls', x', h2, h3, h4, h5, h6⟩ := inv h
        rw [he] at h2; cases h2
        rw [ha] at h3; cases h3
        exact absurd h4 (hne _)
  next hne =>
    refine ⟨false, rfl, by simp, fun h => ?_⟩
    obtain ⟨e', a', c', ls', x', h2, _⟩ := inv h
    exact absurd h2 (hne _)

private theorem single_nil {aes : List (UInt32 × AudioElement)} {layout : UInt8} {m : MixPresentation} (h : m.subMixes = []) :
    ¬ SingleElement aes layout m := by
  rintro ⟨s', ss', e, a, c, ls, x, h1, _⟩
  rw [h] at h1; cases h1

private theorem binaural_spec {aes : List (UInt32 × AudioElement)} (m : MixPresentation) (hl : LayeredFor aes m) :
    ∃ b, hasOneBinauralElement m aes = .ok b ∧ (b = true ↔ SingleElement aes 9 m) := by
  unfold hasOneBinauralElement
  split
  next h => exact ⟨false, rfl, by simp, fun h' => absurd h' (single_nil h)⟩
  next s ss h => exact single_spec 9 m hl s ss h

private theorem stereo_spec {aes : List (UInt32 × AudioElement)} (m : MixPresentation) (hl : LayeredFor aes m) :
    ∃ b, hasOneStereo m aes = .ok b ∧ (b = true ↔ OneStereoLayout m ∧ SingleElement aes 1 m) := by
  unfold hasOneStereo
  split
  next h => exact ⟨false, rfl, by simp, fun h' => absurd h'.2 (single_nil h)⟩
  next s ss h =>
    split
    next l hls =>
      split
      next hst =>
        obtain ⟨b, h1, h2⟩ := single_spec 1 m hl s ss h
        refine ⟨b, h1, h2.trans ⟨fun x => ⟨?_, x⟩, (·.2)⟩⟩
        unfold Layout.isStereo at hst
        split at hst
        next r hr =>
          rw [beq_iff_eq.mp hst] at hr
          exact ⟨s, ss, l, _, h, hls, hr⟩
        · simp at hst
      next hst =>
        refine ⟨false, rfl, by simp, fun h' => ?_⟩
        obtain ⟨⟨s', ss', l', r, h1, h2, h3⟩, _⟩ := h'
        rw [h] at h1; cases h1
        rw [hls] at h2; cases h2
        exact absurd (by simp [Layout.isStereo, h3]) hst
    next hne =>
      refine ⟨false, rfl, by simp, fun h' => ?_⟩
      obtain ⟨⟨s', ss', l', r, h1, h2, h3⟩, _⟩ := h'
      rw [h] at h1; cases h1
      exact absurd h2 (hne _)

private theorem stereoH_spec {aes : List (UInt32 × AudioElement)} (m : MixPresentation) (hl : LayeredFor aes m) :
    ∃ b, hasOneStereoForHeadphones m aes = .ok b ∧
      (b = true ↔ OneStereoLayout m ∧ SingleElement aes 1 m ∧ StereoOnHeadphones m) := by
  obtain ⟨b, h1, h2⟩ := stereo_spec m hl
  unfold hasOneStereoForHeadphones
  simp only [h1, bind, Except.bind]
  by_cases hb : b = true
  · obtain ⟨a1, a2⟩ := h2.mp hb
    obtain ⟨s, ss, e, a, c, ls, x, b1, b2, b3⟩ := a2
    subst hb
    simp only [b1, b2]
    refine ⟨_, rfl, ?_⟩
    rw [beq_iff_eq]
    constructor
    · exact fun h => ⟨a1, ⟨s, ss, e, a, c, ls, x, b1, b2, b3⟩, s, ss, e, [], b1, b2, h⟩
    · rintro ⟨_, _, s', ss', e', es', c1, c2, c3⟩
      rw [b1] at c1; cases c1
      rw [b2] at c2; cases c2
      exact c3
  · have : b = false := by simpa using hb
    subst this
    refine ⟨false, rfl, by simp, fun h => absurd (h2.mpr ⟨h.1, h.2.1⟩) hb⟩

private theorem some_spec (q : Layout → Bool) (m : MixPresentation) :
    (m.subMixes.any fun s => s.layouts.any fun l => q l.layout) = true ↔ SomeLayout (fun l => q l = true) m := by
  simp [SomeLayout, List.any_eq_true]

private theorem two_prefs {ms : List MixPresentation} {c1 c2 : MixPresentation → Except Err Bool} {p1 p2 : MixPresentation → Prop}
    (h1 : ∀ m ∈ ms, ∃ b, c1 m = .ok b ∧ (b = true ↔ p1 m)) (h2 : ∀ m ∈ ms, ∃ b, c2 m = .ok b ∧ (b = true ↔ p2 m)) :
    ∃ r, (do match ← findMixFrom c1 ms 0 with
            | some i => .ok (some i)
            | none => findMixFrom c2 ms 0 : Except Err (Option Nat)) = .ok r ∧ FirstPreferred [p1, p2] ms (r.getD 0) := by
  obtain ⟨r1, e1, q1⟩ := find_spec h1 ms 0 rfl (by simp)
  obtain ⟨r2, e2, q2⟩ := find_spec h2 ms 0 rfl (by simp)
  rw [e1]
  match r1, q1 with
  | some i, q1 => exact ⟨some i, rfl, .inl q1⟩
  | none, q1 =>
    refine ⟨r2, e2, .inr ⟨q1, ?_⟩⟩
    match r2, q2 with
    | some i, q2 => exact .inl q2
    | none, q2 => exact .inr ⟨q2, rfl⟩

private theorem layout_choice {aes : List (UInt32 × AudioElement)} (ms : List MixPresentation) (hl : Layered aes ms) (d : Layout) :
    ∃ r, (if d.isBinaural then findPreferredBinaural ms aes
      else if d.isStereo then findPreferredStereo ms aes
      else findMixFrom (fun m => .ok (m.containsLayout d)) ms 0) = .ok r ∧
      FirstPreferred (layoutPreferences aes d) ms (r.getD 0) := by
  unfold layoutPreferences
  by_cases hb : d.type = 3
  · rw [if_pos (by simpa [Layout.isBinaural] using hb), if_pos hb]
    exact two_prefs (fun m hm => binaural_spec m (hl m hm)) (fun m _ => ⟨_, rfl, by
      have := some_spec Layout.isBinaural m
      simpa [MixPresentation.hasBinauralLayout, Layout.isBinaural] using this⟩)
  · rw [if_neg (by simpa [Layout.isBinaural] using hb), if_neg hb]
    by_cases hs : ∃ r, d.specific = .soundSystem 0 r
    · obtain ⟨r, hr⟩ := hs
      rw [if_pos (by simp [Layout.isStereo, hr])]
      simp only [hr]
      exact two_prefs (fun m hm => stereoH_spec m (hl m hm)) (fun m hm => stereo_spec m (hl m hm))
    · have hst : ¬ d.isStereo = true := by
        intro h
        unfold Layout.isStereo at h
        split at h
        next r hr => rw [beq_iff_eq.mp h] at hr; exact hs ⟨_, hr⟩
        · simp at h
      rw [if_neg hst]
      have : (match d.specific with
        | .soundSystem 0 _ => [fun m => OneStereoLayout m ∧ SingleElement aes 1 m ∧ StereoOnHeadphones m,
            fun m => OneStereoLayout m ∧ SingleElement aes 1 m]
        | _ => [SomeLayout (· = d)]) = [SomeLayout (· = d)] := by
        split
        next r hr => exact absurd ⟨r, hr⟩ hs
        · rfl
      rw [this]
      obtain ⟨r, e, q⟩ := find_spec (all := ms) (cond := fun m => .ok (m.containsLayout d)) (p := SomeLayout (· = d))
        (fun m _ => ⟨_, rfl, by
          have := some_spec (· == d) m
          simpa [MixPresentation.containsLayout] using this⟩) ms 0 rfl (by simp)
      refine ⟨r, e, ?_⟩
      match r, q with
      | some i, q => exact .inl q
      | none, q => exact .inr ⟨q, rfl⟩

private theorem choose_spec {aes : List (UInt32 × AudioElement)} (ms : List MixPresentation) (hl : Layered aes ms)
    (desired : Option Layout) (id : Option UInt32) :
    ∃ i, chooseMix aes ms desired id = .ok i ∧ FirstPreferred (preferences aes desired id) ms i := by
  have hd : ∃ r : Option Nat, ((match desired with
      | some d =>
        if d.isBinaural then findPreferredBinaural ms aes
        else if d.isStereo then findPreferredStereo ms aes
        else findMixFrom (fun m => .ok (m.containsLayout d)) ms 0
      | none => .ok none) : Except Err (Option Nat)) = .ok r ∧
      FirstPreferred (match desired with | some d => layoutPreferences aes d | none => []) ms (r.getD 0) := by
    match desired with
    | none => exact ⟨none, rfl, rfl⟩
    | some d => exact layout_choice ms hl d
  obtain ⟨r, e, q⟩ := hd
  unfold chooseMix preferences
  match id with
  | none =>
    refine ⟨r.getD 0, ?_, by simpa using q⟩
    match desired, e with
    | none, e => cases e; rfl
    | some d, e => simp only [bind, Except.bind] at e ⊢; rw [e]
  | some i =>
    obtain ⟨r1, e1, q1⟩ := find_spec (all := ms) (cond := fun m => .ok (m.id == i)) (p := (·.id = i))
      (fun m _ => ⟨_, rfl, by simp⟩) ms 0 rfl (by simp)
    match r1, q1, e1 with
    | some k, q1, e1 =>
      refine ⟨k, ?_, .inl q1⟩
      simp only [e1, bind, Except.bind]; rfl
    | none, q1, e1 =>
      refine ⟨r.getD 0, ?_, .inr ⟨q1, q⟩⟩
      simp only [e1, bind, Except.bind]
      match desired, e with
      | none, e => cases e; rfl
      | some d, e => simp only at e ⊢; rw [e]

private theorem findLayout_some {d : Layout} {ls : List MixLayout} {n k : Nat} (h : findLayout d ls n = some k) :
    n ≤ k ∧ ∃ x, ls[k - n]? = some x ∧ x.layout = d := by
  induction ls generalizing n with
  | nil => simp [findLayout] at h
  | cons l ls ih =>
    unfold findLayout at h
    split at h
    next hd => cases h; exact ⟨Nat.le_refl _, l, by simp, hd.symm⟩
    next hd =>
      obtain ⟨h1, x, h2, h3⟩ := ih h
      refine ⟨by omega, x, ?_, h3⟩
      rw [show k - n = (k - (n + 1)) + 1 by omega]
      simpa using h2

private theorem findLayout_none {d : Layout} {ls : List MixLayout} {n : Nat} (h : findLayout d ls n = none) :
    ∀ l ∈ ls, l.layout ≠ d := by
  induction ls generalizing n with
  | nil => simp
  | cons l ls ih =>
    unfold findLayout at h
    split at h
    · simp at h
    next hd =>
      intro x hx
      rcases List.mem_cons.mp hx with rfl | hx
      · exact fun e => hd e.symm
      · exact ih h x hx

private theorem findSub_some {d : Layout} {ss : List SubMix} {n a b : Nat} (h : findSubMixAndLayout d ss n = some (a, b)) :
    n ≤ a ∧ (∃ s x, ss[a - n]? = some s ∧ s.layouts[b]? = some x ∧ x.layout = d) ∧
      ∀ j < a - n, ∀ s', ss[j]? = some s' → ∀ l ∈ s'.layouts, l.layout ≠ d := by
  induction ss generalizing n with
  | nil => simp [findSubMixAndLayout] at h
  | cons s ss ih =>
    unfold findSubMixAndLayout at h
    split at h
    next k hk =>
      cases h
      obtain ⟨_, x, h2, h3⟩ := findLayout_some hk
      exact ⟨Nat.le_refl _, ⟨s, x, by simp, by simpa using h2, h3⟩, fun j hj => by omega⟩
    next hk =>
      obtain ⟨h1, ⟨s', x, h2, h3⟩, h4⟩ := ih h
      refine ⟨by omega, ⟨s', x, ?_, h3⟩, fun j hj s1 hs1 => ?_⟩
      · rw [show a - n = (a - (n + 1)) + 1 by omega]
        simpa using h2
      · cases j with
        | zero => cases hs1; exact findLayout_none hk
        | succ j => exact h4 j (by omega) s1 (by simpa using hs1)

private theorem findSub_none {d : Layout} {ss : List SubMix} {n : Nat} (h : findSubMixAndLayout d ss n = none) :
    ∀ s ∈ ss, ∀ l ∈ s.layouts, l.layout ≠ d := by
  induction ss generalizing n with
  | nil => simp
  | cons s ss ih =>
    unfold findSubMixAndLayout at h
    split at h
    · simp at h
    next hk =>
      intro x hx
      rcases List.mem_cons.mp hx with rfl | hx
      · exact findLayout_none hk
      · exact ih h x hx

/-! ## C23 -/

/-- The mix `m` afterwards: unchanged if some sub-mix has the wanted layout or none is wanted; otherwise the wanted layout is
added, without loudness information, after the layouts of the first sub-mix. -/
inductive Extended (desired : Option Layout) (m : MixPresentation) : MixPresentation → Prop
  | same : (∀ d, desired = some d → SomeLayout (· = d) m) → Extended desired m m
  | added (d : Layout) (s : SubMix) (ss : List SubMix) : desired = some d → ¬ SomeLayout (· = d) m → m.subMixes = s :: ss →
      Extended desired m
        { m with subMixes := { s with layouts := s.layouts ++ [⟨d, ⟨0, 0, 0, 0, [], []⟩⟩] } :: ss }

/-- C23: a mix presentation is selected whenever there is one and the preferred one has a sub-mix (and, if no layout is wanted,
a layout in it); the preferred one is the first that meets the most important preference; the layout is the wanted one, or
the first one of the mix; it is found in the mix at the returned position, in the first sub-mix that has it; no other mix presentation is touched. -/
theorem C23_selection (aes : List (UInt32 × AudioElement)) (ms : List MixPresentation) (desired : Option Layout)
    (id : Option UInt32) (hl : Layered aes ms) (hne : ms ≠ []) :
    ∃ i m, FirstPreferred (preferences aes desired id) ms i ∧ ms[i]? = some m ∧
      match findMixAndLayout aes ms desired id with
      | .error e => e = .invalidArgument ∧
          (m.subMixes = [] ∨ desired = none ∧ ∃ s ss, m.subMixes = s :: ss ∧ s.layouts = [])
      | .ok r => r.mix = i ∧ (∀ d, desired = some d → r.layout = d) ∧
          (desired = none → r.subMixIndex = 0 ∧ r.layoutIndex = 0) ∧
          ChosenSubMix desired m r.subMixIndex ∧
          ∃ m' s x, Extended desired m m' ∧ r.mixes = ms.set i m' ∧ m'.subMixes[r.subMixIndex]? = some s ∧
            s.layouts[r.layoutIndex]? = some x ∧ x.layout = r.layout := by
  obtain ⟨i, hi, hp⟩ := choose_spec ms hl desired id
  have hlt : i < ms.length := by
    have : ∀ ps, FirstPreferred ps ms i → i < ms.length := by
      intro ps
      induction ps with
      | nil => intro h; rw [h]; exact List.length_pos_iff.mpr hne
      | cons p ps ih =>
        rintro (⟨m, h, _⟩ | ⟨_, h⟩)
        · exact (List.getElem?_eq_some_iff.mp h).1
        · exact ih h
    exact this _ hp
  have hm : ms[i]? = some ms[i] := List.getElem?_eq_getElem hlt
  refine ⟨i, ms[i], hp, hm, ?_⟩
  generalize ms[i] = m at hm
  have hset : ms.set i m = ms := by
    apply List.ext_getElem?
    intro j
    rw [List.getElem?_set]
    split
    next h => subst h; exact hm.symm
    · rfl
  unfold findMixAndLayout
  rw [if_neg (by simpa using hne), hi]
  simp only [bind, Except.bind, hm]
  split <;> rename_i heq <;> split at heq
  · cases heq; exact ⟨rfl, .inl (by assumption)⟩
  · rename_i s ss hs
    split at heq
    · split at heq
      · cases heq; exact ⟨rfl, .inr ⟨rfl, s, ss, hs, by assumption⟩⟩
      · cases heq
    · split at heq <;> cases heq
  · cases heq
  · rename_i s ss hs
    split at heq
    · split at heq
      · cases heq
      next l ls hls =>
        cases heq
        exact ⟨rfl, by simp, by simp, rfl, m, s, l, .same (by simp), hset.symm, by simp [hs], by simp [hls], rfl⟩
    next d =>
      split at heq
      next a b hab =>
        cases heq
        obtain ⟨_, ⟨s', x, h1, h2, h3⟩, h4⟩ := findSub_some hab
        refine ⟨rfl, by simp, by simp, .inl ⟨s', by simpa using h1, ⟨x, List.mem_of_getElem? h2, h3⟩, fun j hj => h4 j (by simpa using hj)⟩, m, s', x, .same ?_, hset.symm, by simpa using h1, h2, h3⟩
        intro d' hd'
        cases hd'
        exact ⟨s', List.mem_of_getElem? (by simpa using h1), x, List.mem_of_getElem? h2, h3⟩
      next hab =>
        cases heq
        refine ⟨rfl, by simp, by simp, .inr ⟨rfl, findSub_none hab⟩, _, ⟨s.elements, s.outputMixGain, s.layouts ++ [⟨d, ⟨0, 0, 0, 0, [], []⟩⟩]⟩, ⟨d, ⟨0, 0, 0, 0, [], []⟩⟩, .added d s ss rfl ?_ hs, ?_, ?_, ?_, ?_⟩
        · rintro ⟨s', h1, l, h2, h3⟩
          exact findSub_none hab s' h1 l h2 h3
        · simp only [MixPresentation.addLayout, hs]
        · simp only [List.getElem?_cons_zero]
        · simp only [List.getElem?_concat_length]
        · rfl

/-- C23: the selected position can be rendered: the simplified mix keeps the elements and the gain of the selected sub-mix and
nothing but the selected layout. -/
theorem C23_selection_can_be_rendered (aes : List (UInt32 × AudioElement)) (ms : List MixPresentation) (desired : Option Layout)
    (id : Option UInt32) (hl : Layered aes ms) (r : Selected) (h : findMixAndLayout aes ms desired id = .ok r) :
    ∃ m s x, r.mixes[r.mix]? = some m ∧ m.subMixes[r.subMixIndex]? = some s ∧ x ∈ s.layouts ∧ x.layout = r.layout ∧
      simplifyMix m r.subMixIndex r.layoutIndex = .ok { m with subMixes := [⟨s.elements, s.outputMixGain, [x]⟩] } := by
  have hne : ms ≠ [] := by
    rintro rfl
    simp [findMixAndLayout] at h
  obtain ⟨i, m, _, hm, h2⟩ := C23_selection aes ms desired id hl hne
  rw [h] at h2
  obtain ⟨h3, _, _, _, m', s, x, _, h5, h6, h7, h8⟩ := h2
  refine ⟨m', s, x, ?_, h6, List.mem_of_getElem? h7, h8, ?_⟩
  · rw [h5, h3, List.getElem?_set]
    simp [(List.getElem?_eq_some_iff.mp hm).1]
  · unfold simplifyMix
    rw [if_neg (by omega)]
    simp only [Int.toNat_natCast, h6]
    rw [if_neg (by omega)]
    simp only [h7]

/-- C23: an element without layers, which cannot be parsed but can be built, makes the selection read past the end of an empty
vector. -/
theorem C23_layers_needed : ∃ aes ms desired, ¬ Layered aes ms ∧ findMixAndLayout aes ms desired none = .error .ub := by
  refine ⟨[(1, ⟨1, 0, 0, 0, [], [], .scalable ⟨0, []⟩⟩)],
    [⟨1, 0, [], [], [⟨[⟨1, [], ⟨0, 0, 0, [], none, []⟩, ⟨⟨0, 0, 0, none⟩, .mixGain 0⟩⟩], ⟨⟨0, 0, 0, none⟩, .mixGain 0⟩, []⟩], none, none⟩],
    some ⟨3, .other 0⟩, ?_, ?_⟩
  · intro h
    exact h _ List.mem_cons_self _ List.mem_cons_self _ List.mem_cons_self _ _ rfl rfl rfl
  · decide +kernel

/-- Two mix presentations of one stereo element, of which the second is meant for stereo on headphones. -/
private def twoMixes : List MixPresentation :=
  let g : ParamDef := ⟨⟨0, 1, 0, none⟩, .mixGain 0⟩
  let mix (id : UInt32) (mode : UInt8) : MixPresentation :=
    ⟨id, 0, [], [], [⟨[⟨1, [], ⟨mode, 0, 0, [], none, []⟩, g⟩], g, [⟨⟨2, .soundSystem 0 0⟩, ⟨0, 0, 0, 0, [], []⟩⟩]⟩], none, none⟩
  [mix 7 1, mix 8 0]

private def stereoElements : List (UInt32 × AudioElement) :=
  [(1, ⟨1, 0, 0, 0, [5], [], .scalable ⟨0, [⟨1, false, false, 0, 1, 1, 0, 0, 0, none⟩]⟩⟩)]

/-- The hypotheses can be met: the second mix presentation is chosen for a stereo layout, the first one for 5.1, which is
added to it. -/
example : Layered stereoElements twoMixes ∧
    findMixAndLayout stereoElements twoMixes (some ⟨2, .soundSystem 0 0⟩) none =
      .ok ⟨1, ⟨2, .soundSystem 0 0⟩, 0, 0, twoMixes⟩ ∧
    (findMixAndLayout stereoElements twoMixes (some ⟨2, .soundSystem 1 0⟩) (some 7)).map (fun r => (r.mix, r.layoutIndex)) =
      .ok (0, 1) := by
  refine ⟨?_, by decide +kernel, by decide +kernel⟩
  intro m _ s _ e _ a c h hc
  simp only [stereoElements, List.lookup] at h
  split at h
  · cases h; cases hc; simp
  · cases h

end Iamf.Props
