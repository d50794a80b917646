import Verif.Props.History
import Verif.Props.Output
import Verif.Props.Reorder
import Verif.Cli.Pipeline
/-
  C51: the documented size of an output buffer is enough.
-/
namespace Iamf.Props
open Iamf

/-! ### Specification -/

/-- So many channels, which have all the same number of samples, at most `most`. -/
def FitsIn (channels most : Nat) (x : Rendered) : Prop := x.length = channels ∧ ∃ ticks ≤ most, ∀ c ∈ x, c.length = ticks

/-- Binaural renderers, which are not part of the model, give as many samples as they say. -/
def HonestEnv (E : RenderEnv) : Prop :=
  ∀ c r, E.binaural c = some r → ∀ f s n, r f = .ok (s, n) → ∀ x ∈ s, x.length ≤ n

/-! ### Proof: renderers -/

private theorem except_bind_ok {α β : Type} {x : Except Err α} {f : α → Except Err β} {b : β} (h : (x >>= f) = .ok b) :
    ∃ a, x = .ok a ∧ f a = .ok b := by
  cases x with
  | error e => cases h
  | ok a => exact ⟨a, rfl, h⟩

private theorem mapM_mem {α β : Type} {f : α → Except Err β} : ∀ {l : List α} {r : List β}, l.mapM f = .ok r →
    ∀ y ∈ r, ∃ x ∈ l, f x = .ok y := by
  intro l
  induction l with
  | nil => intro r h y hy; cases h; cases hy
  | cons a l ih =>
    intro r h y hy
    rw [List.mapM_cons] at h
    obtain ⟨b, h1, h⟩ := except_bind_ok h
    obtain ⟨bs, h2, h⟩ := except_bind_ok h
    cases h
    rcases List.mem_cons.mp hy with e | hm
    · subst e; exact ⟨a, by simp, h1⟩
    · obtain ⟨x, hx, hf⟩ := ih h2 y hm
      exact ⟨x, by simp [hx], hf⟩

private def Bounded (n : Nat) (x : Rendered) : Prop := ∀ c ∈ x, c.length ≤ n

private def Honest : ElementRenderer → Prop
  | .binaural r => ∀ f s n, r f = .ok (s, n) → Bounded n s
  | _ => True

private theorem arrange_bounded {f : RenderFrame} {labels : List Label} {frameSize : Nat} {t : TrimmingSettings} {s : Rendered} {n : Nat}
    (h : arrangeSamples f labels frameSize t = .ok (s, n)) : Bounded n s := by
  unfold arrangeSamples at h
  split at h
  · cases h; intro c hc; cases hc
  · obtain ⟨m, -, h⟩ := except_bind_ok h
    obtain ⟨x, h2, h⟩ := except_bind_ok h
    cases h
    intro c hc
    obtain ⟨l, -, hl⟩ := mapM_mem h2 c hc
    obtain ⟨y, -, hy⟩ := except_bind_ok hl
    cases hy
    simp only [List.length_take]
    omega

private theorem addScaled_length {o : Nat} : ∀ {i : Rendered} {g : GainMatrix} {acc r : Samples}, addScaled o i g acc = .ok r →
    r.length ≤ acc.length := by
  intro i
  induction i with
  | nil => intro g acc r h; cases h; exact Nat.le_refl _
  | cons s ss ih =>
    intro g acc r h
    cases g with
    | nil => cases h
    | cons row rows =>
      simp only [addScaled] at h
      split at h
      · cases h
      · have := ih h
        rw [List.length_zipWith] at this
        omega

private theorem gains_bounded {i : Rendered} {g : GainMatrix} {r : Rendered} {n : Nat} (hi : Bounded n i) (h : renderWithGains i g = .ok r) :
    Bounded n r := by
  unfold renderWithGains at h
  simp only at h
  split at h
  · cases h
  · split at h
    · cases h
    · intro c hc
      obtain ⟨o, -, ho⟩ := mapM_mem h c hc
      have := addScaled_length ho
      rw [List.length_replicate] at this
      refine Nat.le_trans this ?_
      cases i with
      | nil => simp
      | cons a l => exact hi a (by simp)

private theorem render_bounded {r : ElementRenderer} (hr : Honest r) {frameSize : Nat} {t : TrimmingSettings} {f : RenderFrame} {s : Rendered}
    {n : Nat} (h : r.render frameSize t f = .ok (s, n)) : Bounded n s := by
  cases r with
  | passThrough labels => exact arrange_bounded h
  | channels labels i o g =>
    obtain ⟨⟨x, m⟩, h1, h⟩ := except_bind_ok h
    obtain ⟨y, h2, h⟩ := except_bind_ok h
    cases h
    exact gains_bounded (arrange_bounded h1) h2
  | scene labels g =>
    obtain ⟨⟨x, m⟩, h1, h⟩ := except_bind_ok h
    obtain ⟨y, h2, h⟩ := except_bind_ok h
    cases h
    exact gains_bounded (arrange_bounded h1) h2
  | binaural r => exact hr f s n h

private theorem toLayout_bounded {r : ElementRenderer} (hr : Honest r) {frameSize : Nat} {t : TrimmingSettings} {f : RenderFrame}
    {last : Rendered} (hl : Bounded frameSize last) : Bounded frameSize (renderFrameToLayout frameSize t f r last).2 ∨
      ∃ e, (renderFrameToLayout frameSize t f r last).1 = .error e ∧
        Bounded frameSize (renderFrameToLayout frameSize t f r last).2 := by
  have hempty : Bounded frameSize (last.map fun _ => []) := by
    intro c hc
    obtain ⟨a, -, rfl⟩ := List.mem_map.mp hc
    simp
  left
  unfold renderFrameToLayout
  split
  · exact hempty
  · next s n h =>
    split
    · exact hempty
    · next hn =>
      have := render_bounded hr h
      have h2 : Bounded frameSize s := fun c hc => Nat.le_trans (this c hc) (by omega)
      split <;> exact h2

private theorem gain_row {ticks : Nat} {c : List Rat} {g : List Rat} :
    (List.zipWith (· * ·) (c.take ticks) g ++ c.drop ticks).length = min (min ticks c.length) g.length + (c.length - ticks) := by
  rw [List.length_append, List.length_zipWith, List.length_take, List.length_drop]

private theorem mixGain_bounded {M : GainMath Rat} {rate : UInt32} {blocks : UInt32 → Option BlockWithData} {p : ParamDef} {k n : Nat}
    {x y : Rendered} (h : applyMixGain M rate blocks p k x = .ok y) (hx : Bounded n x) : Bounded n y ∧ y.length = k := by
  unfold applyMixGain at h
  split at h
  · cases h
  · next hk =>
    obtain ⟨g, -, h⟩ := except_bind_ok h
    split at h
    · cases h
    · cases h
      constructor
      · intro c hc
        obtain ⟨a, ha, rfl⟩ := List.mem_map.mp hc
        have := hx a ha
        rw [gain_row]
        omega
      · rw [List.length_map]; exact Decidable.not_not.mp hk

private theorem mixGain_fits {M : GainMath Rat} {rate : UInt32} {blocks : UInt32 → Option BlockWithData} {p : ParamDef} {k n : Nat}
    {x y : Rendered} (h : applyMixGain M rate blocks p k x = .ok y) (hx : FitsIn k n x) : FitsIn k n y := by
  unfold applyMixGain at h
  split at h
  · cases h
  · next hk =>
    obtain ⟨g, -, h⟩ := except_bind_ok h
    split at h
    · cases h
    · cases h
      obtain ⟨hl, T, hT, ha⟩ := hx
      refine ⟨by rw [List.length_map]; exact hl, min (min (x.head?.getD []).length T) g.length + (T - (x.head?.getD []).length), ?_, ?_⟩
      · omega
      · intro c hc
        obtain ⟨a, hm, rfl⟩ := List.mem_map.mp hc
        rw [gain_row, ha a hm]

private theorem add_fits {k T : Nat} {a b : Rendered} (ha : a.length = k ∧ ∀ c ∈ a, c.length = T) (hb : b.length = k ∧ ∀ c ∈ b, c.length = T) :
    (addRendered a b).length = k ∧ ∀ c ∈ addRendered a b, c.length = T := by
  unfold addRendered
  refine ⟨by rw [List.length_zipWith, ha.1, hb.1, Nat.min_self], fun c hc => ?_⟩
  obtain ⟨i, hi, rfl⟩ := List.getElem_of_mem hc
  rw [List.getElem_zipWith, List.length_zipWith, ha.2 _ (List.getElem_mem _), hb.2 _ (List.getElem_mem _), Nat.min_self]

private theorem fold_fits {k T : Nat} : ∀ (xs : List Rendered) (acc : Rendered), (acc.length = k ∧ ∀ c ∈ acc, c.length = T) →
    (∀ x ∈ xs, x.length = k ∧ ∀ c ∈ x, c.length = T) →
    (xs.foldl addRendered acc).length = k ∧ ∀ c ∈ xs.foldl addRendered acc, c.length = T := by
  intro xs
  induction xs with
  | nil => intro acc h _; exact h
  | cons x xs ih =>
    intro acc h hx
    exact ih _ (add_fits h (hx x (by simp))) fun y hy => hx y (by simp [hy])

private theorem mix_fits {k n : Nat} {xs : List Rendered} {y : Rendered} (hx : ∀ x ∈ xs, Bounded n x) (h : mixElements k xs = .ok y) :
    FitsIn k n y := by
  unfold mixElements at h
  simp only at h
  split at h
  · cases h
  · next hk =>
    split at h
    · cases h
    · next ha =>
      cases h
      have hk := Decidable.not_not.mp hk
      simp only [List.any_eq_true, decide_eq_true_eq, not_exists, not_and, not_or, Decidable.not_not, ne_eq, Bool.decide_or,
        Bool.or_eq_true] at ha
      obtain ⟨h1, h2⟩ := fold_fits (k := k) (T := ((xs.head?.getD []).head?.getD []).length) xs
        (List.replicate k (List.replicate ((xs.head?.getD []).head?.getD []).length 0))
        ⟨by simp, fun c hc => by rw [(List.mem_replicate.mp hc).2, List.length_replicate]⟩
        (fun x hxm => ⟨by rw [(ha x hxm).1, hk], fun c hc => (ha x hxm).2 c hc⟩)
      refine ⟨h1, ((xs.head?.getD []).head?.getD []).length, ?_, h2⟩
      cases xs with
      | nil => simp
      | cons x xs =>
        cases x with
        | nil => simp
        | cons c x => exact hx (c :: x) (by simp) c (by simp)

/-! ### Proof: the state of rendering -/

private structure GoodRenderer (k n : Nat) (L : LayoutRenderer) : Prop where
  channels : L.channels = k
  frameSize : L.frameSize.toNat = n
  elements : ∀ e ∈ L.elements, Honest e.renderer ∧ Bounded n e.last

private def GoodState (k n : Nat) (l : LayoutState) : Prop :=
  (∀ R, l.renderer = some R → GoodRenderer k n R) ∧ (l.valid = [] ∨ FitsIn k n l.valid)

private theorem elementMix_bounded {M : GainMath Rat} {k n : Nat} {L : LayoutRenderer} (hk : L.channels = k) (hn : L.frameSize.toNat = n)
    {frames : UInt32 → Option RenderFrame} {blocks : UInt32 → Option BlockWithData} {e : ElementMix} (hr : Honest e.renderer)
    (hl : Bounded n e.last) : Bounded n (renderElementMix M L frames blocks e).2 := by
  have key : ∀ (w : Except Err Unit × Rendered), Bounded n w.2 → Bounded n (match w with
      | (.error x, s) => ((.error x, s) : Except Err Unit × Rendered)
      | (.ok (), s) => match applyMixGain M L.rate blocks e.gain L.channels s with
        | .error x => (.error x, s)
        | .ok s => (.ok (), s)).2 := by
    rintro ⟨r, s⟩ hw
    cases r with
    | error x => exact hw
    | ok u =>
      simp only
      split
      · exact hw
      · next hg => exact (mixGain_bounded hg hw).1
  unfold renderElementMix
  refine key _ ?_
  split
  · exact hl
  · rcases toLayout_bounded (t := L.trimming) hr (hn.symm ▸ hl : Bounded L.frameSize.toNat e.last) with h | ⟨x, -, h⟩ <;>
    exact hn ▸ h

private theorem elementMixes_bounded {M : GainMath Rat} {k n : Nat} {L : LayoutRenderer} (hk : L.channels = k) (hn : L.frameSize.toNat = n)
    {frames : UInt32 → Option RenderFrame} {blocks : UInt32 → Option BlockWithData} : ∀ {es : List ElementMix},
    (∀ e ∈ es, Honest e.renderer ∧ Bounded n e.last) →
    ∀ e ∈ (renderElementMixes M L frames blocks es).2, Honest e.renderer ∧ Bounded n e.last := by
  intro es
  induction es with
  | nil => intro h e he; cases he
  | cons a es ih =>
    intro h
    have ha := elementMix_bounded (M := M) (frames := frames) (blocks := blocks) hk hn (h a (by simp)).1 (h a (by simp)).2
    have hs := ih fun e he => h e (by simp [he])
    have hh := (h a (by simp)).1
    simp only [renderElementMixes]
    match h1 : renderElementMix M L frames blocks a with
    | (.error x, s) =>
      rw [h1] at ha
      intro e he
      rcases List.mem_cons.mp he with q | q
      · subst q; exact ⟨hh, ha⟩
      · exact h e (by simp [q])
    | (.ok (), s) =>
      rw [h1] at ha
      match h2 : renderElementMixes M L frames blocks es with
      | (r, es') =>
        rw [h2] at hs
        simp only [h2]
        intro e he
        rcases List.mem_cons.mp he with q | q
        · subst q; exact ⟨hh, ha⟩
        · exact hs e q

private theorem renderer_fits {M : GainMath Rat} {k n : Nat} {L : LayoutRenderer} (h : GoodRenderer k n L)
    {frames : UInt32 → Option RenderFrame} {blocks : UInt32 → Option BlockWithData} :
    GoodRenderer k n (L.render M frames blocks).2 ∧ ∀ s, (L.render M frames blocks).1 = .ok s → FitsIn k n s := by
  have hs := elementMixes_bounded (M := M) (frames := frames) (blocks := blocks) h.channels h.frameSize h.elements
  unfold LayoutRenderer.render
  match h1 : renderElementMixes M L frames blocks L.elements with
  | (.error e, es) =>
    rw [h1] at hs
    exact ⟨⟨h.channels, h.frameSize, hs⟩, fun s hh => (by cases hh)⟩
  | (.ok (), es) =>
    rw [h1] at hs
    refine ⟨⟨h.channels, h.frameSize, hs⟩, fun s hh => ?_⟩
    obtain ⟨m, h2, h3⟩ := except_bind_ok hh
    rw [h.channels] at h2 h3
    refine mixGain_fits h3 (mix_fits (fun x hx => ?_) h2)
    obtain ⟨e, he, rfl⟩ := List.mem_map.mp hx
    exact (hs e he).2

private theorem layouts_fit {M : GainMath Rat} {k n : Nat} {frames : UInt32 → Option RenderFrame} {blocks : UInt32 → Option BlockWithData} :
    ∀ {ls : List LayoutState}, (∀ l ∈ ls, GoodState k n l) → ∀ l ∈ (renderLayouts M frames blocks ls).2, GoodState k n l := by
  intro ls
  induction ls with
  | nil => intro h l hl; cases hl
  | cons a ls ih =>
    intro h
    have ha := h a (by simp)
    have hs := ih fun l hl => h l (by simp [hl])
    have hcons : ∀ (x : LayoutState) (ys : List LayoutState), GoodState k n x → (∀ l ∈ ys, GoodState k n l) →
        ∀ l ∈ x :: ys, GoodState k n l := by
      intro x ys hx hy l hl
      rcases List.mem_cons.mp hl with q | q
      · subst q; exact hx
      · exact hy l q
    simp only [renderLayouts]
    match hr : a.renderer with
    | none =>
      simp only
      exact hcons _ _ ha hs
    | some R =>
      have hf := renderer_fits (M := M) (frames := frames) (blocks := blocks) (ha.1 R hr)
      simp only
      match h1 : R.render M frames blocks with
      | (.error e, R') =>
        rw [h1] at hf
        exact hcons _ _ ⟨fun Q hQ => by cases hQ; exact hf.1, ha.2⟩ fun l hl => h l (by simp [hl])
      | (.ok s, R') =>
        rw [h1] at hf
        exact hcons _ _ ⟨fun Q hQ => by cases hQ; exact hf.1, .inr (hf.2 s rfl)⟩ hs

private def GoodMix (k n : Nat) (mix : Option (List (List LayoutState))) : Prop :=
  ∀ ss, mix = some ss → ∀ s ∈ ss, ∀ l ∈ s, GoodState k n l

private theorem subMixes_fit {M : GainMath Rat} {k n : Nat} {frames : UInt32 → Option RenderFrame} {blocks : UInt32 → Option BlockWithData} :
    ∀ {ss : List (List LayoutState)}, (∀ s ∈ ss, ∀ l ∈ s, GoodState k n l) →
      ∀ s ∈ (renderSubMixes M frames blocks ss).2, ∀ l ∈ s, GoodState k n l := by
  intro ss
  induction ss with
  | nil => intro h l hl; cases hl
  | cons a ss ih =>
    intro h
    have ha := layouts_fit (M := M) (frames := frames) (blocks := blocks) (h a (by simp))
    have hs := ih fun l hl => h l (by simp [hl])
    simp only [renderSubMixes]
    match h1 : renderLayouts M frames blocks a with
    | (.error e, a') =>
      rw [h1] at ha
      intro s hm
      rcases List.mem_cons.mp hm with q | q
      · subst q; exact ha
      · exact h s (by simp [q])
    | (.ok (), a') =>
      rw [h1] at ha
      match h2 : renderSubMixes M frames blocks ss with
      | (r, ss') =>
        rw [h2] at hs
        simp only [h2]
        intro s hm
        rcases List.mem_cons.mp hm with q | q
        · subst q; exact ha
        · exact hs s q

private theorem push_fits {M : GainMath Rat} {k n : Nat} {frames : UInt32 → Option RenderFrame} {start stop : Int}
    {blocks : List BlockWithData} {mix : Option (List (List LayoutState))} (h : GoodMix k n mix) :
    GoodMix k n (pushRenderUnit M frames start stop blocks mix).2 := by
  unfold pushRenderUnit
  split
  · exact h
  · cases mix with
    | none => exact h
    | some ss =>
      have := subMixes_fit (M := M) (frames := frames) (blocks := blockById blocks) (h ss rfl)
      simp only
      match h2 : renderSubMixes M frames (blockById blocks) ss with
      | (r, ss') =>
        rw [h2] at this
        intro x hx
        cases hx
        exact this

private theorem samples_fit {k n : Nat} {mix : Option (List (List LayoutState))} (h : GoodMix k n mix) {i j : Nat} {x : Rendered}
    (hx : renderedSamples mix i j = .ok x) : x = [] ∨ FitsIn k n x := by
  unfold renderedSamples at hx
  split at hx
  · cases hx
  · next ss =>
    split at hx
    · cases hx
    · next ls hls =>
      split at hx
      · cases hx
      · next l hl =>
        cases hx
        exact (h ss rfl ls (List.mem_of_getElem? hls) l (List.mem_of_getElem? hl)).2

private theorem unit_fits {M : GainMath Rat} {C : Codecs} {k n : Nat} {st : RenderingModels C} {u : OutputUnit} (h : GoodMix k n st.mix) :
    GoodMix k n (renderUnit M st u).2.mix ∧ ∀ x, (renderUnit M st u).1 = .ok x → x = [] ∨ FitsIn k n x := by
  unfold renderUnit
  split
  · exact ⟨h, fun x hx => (by cases hx)⟩
  · exact ⟨h, fun x hx => (by cases hx)⟩
  · split
    · exact ⟨h, fun x hx => (by cases hx)⟩
    · next frames _ =>
      have hp : ∀ stop, GoodMix k n (pushRenderUnit M (fun id => frames.lookup id) u.timestamp stop u.blocks st.mix).2 :=
        fun stop => push_fits h
      split
      · next e mix hm => have := congrArg Prod.snd hm ▸ hp _; exact ⟨this, fun x hx => (by cases hx)⟩
      · next mix hm => have := congrArg Prod.snd hm ▸ hp _; exact ⟨this, fun x hx => samples_fit this hx⟩

/-! ### Proof: creation -/

private theorem orNull_some {α : Type} {r : Except Err α} {a : α} (h : orNull r = .ok (some a)) : r = .ok a := by
  unfold orNull at h
  split at h
  · cases h; rfl
  · split at h <;> cases h

private theorem honest_created {E : RenderEnv} (hE : HonestEnv E) {e : AudioElement} {sub : SubstreamLabels} {rc : RenderingConfig} {d : Layout}
    {r : ElementRenderer} (h : createRenderer E e sub rc d = .ok (some r)) : Honest r := by
  have hbin : ∀ c, (E.binaural c).map ElementRenderer.binaural = some r → Honest r := by
    intro c hc
    obtain ⟨f, hf, rfl⟩ := Option.map_eq_some_iff.mp hc
    exact hE c f hf
  unfold createRenderer at h
  simp only at h
  split at h
  · split at h
    · split at h
      · exact hbin _ (Except.ok.inj h)
      · replace h := orNull_some h
        split at h
        · obtain ⟨_, -, h⟩ := except_bind_ok h
          obtain ⟨_, -, h⟩ := except_bind_ok h
          obtain ⟨_, -, h⟩ := except_bind_ok h
          obtain ⟨_, -, h⟩ := except_bind_ok h
          obtain ⟨_, -, h⟩ := except_bind_ok h
          obtain ⟨_, -, h⟩ := except_bind_ok h
          cases h; trivial
        · obtain ⟨_, -, h⟩ := except_bind_ok h
          obtain ⟨_, -, h⟩ := except_bind_ok h
          obtain ⟨_, -, h⟩ := except_bind_ok h
          obtain ⟨_, -, h⟩ := except_bind_ok h
          obtain ⟨_, -, h⟩ := except_bind_ok h
          obtain ⟨_, -, h⟩ := except_bind_ok h
          cases h; trivial
    · cases h
  · split at h
    · split at h
      · obtain ⟨x, h1, h⟩ := except_bind_ok h
        split at h
        · cases h
          obtain ⟨_, -, h⟩ := except_bind_ok (orNull_some h1)
          obtain ⟨_, -, h⟩ := except_bind_ok h
          cases h; trivial
        · split at h
          · exact hbin _ (Except.ok.inj h)
          · unfold createChannels at h
            split at h
            · cases h
            · replace h := orNull_some h
              obtain ⟨_, -, h⟩ := except_bind_ok h
              obtain ⟨_, -, h⟩ := except_bind_ok h
              obtain ⟨_, -, h⟩ := except_bind_ok h
              obtain ⟨_, -, h⟩ := except_bind_ok h
              obtain ⟨_, -, h⟩ := except_bind_ok h
              cases h; trivial
      · cases h
    · cases h

private theorem elementMixes_created {E : RenderEnv} (hE : HonestEnv E) {d : Layout} {n : Nat} :
    ∀ {es : List (SubMixElement × ElementWithData)} {rs : List ElementMix}, createElementMixes E d es = .ok (some rs) →
    ∀ e ∈ rs, Honest e.renderer ∧ Bounded n e.last := by
  intro es
  induction es with
  | nil => intro rs h; cases h; intro e he; cases he
  | cons a es ih =>
    intro rs h
    obtain ⟨s, w⟩ := a
    obtain ⟨x, h1, h⟩ := except_bind_ok h
    cases x with
    | none => cases h
    | some r =>
      simp only at h
      obtain ⟨y, h2, h⟩ := except_bind_ok h
      cases y with
      | none => cases h
      | some rs' =>
        cases h
        intro e he
        rcases List.mem_cons.mp he with q | q
        · subst q; exact ⟨honest_created hE h1, fun c hc => (by cases hc)⟩
        · exact ih h2 e q

private theorem collected_mem {elements : List (UInt32 × ElementWithData)} : ∀ {l : List SubMixElement}
    {es : List (SubMixElement × ElementWithData)}, collectElements elements l = .ok es → ∀ x ∈ es, ∃ id, (id, x.2) ∈ elements := by
  have hmem : ∀ (l : List (UInt32 × ElementWithData)) (i : UInt32) (e : ElementWithData), l.lookup i = some e → (i, e) ∈ l := by
    intro l i e h
    induction l with
    | nil => cases h
    | cons a l ih =>
      obtain ⟨b, c⟩ := a
      simp only [List.lookup] at h
      split at h
      · next hb => cases h; rw [eq_of_beq hb]; simp
      · exact List.mem_cons_of_mem _ (ih h)
  intro l
  induction l with
  | nil => intro es h x hx; cases h; cases hx
  | cons s l ih =>
    intro es h x hx
    unfold collectElements at h
    split at h
    · cases h
    · next e he =>
      obtain ⟨r, h1, h⟩ := except_bind_ok h
      cases h
      rcases List.mem_cons.mp hx with q | q
      · subst q; exact ⟨s.id, hmem _ _ _ he⟩
      · exact ih h1 x q

private theorem common_size {es : List ElementWithData} {rate size n : UInt32} (hn : ∀ e ∈ es, ∀ c, e.codec = some c → c.config.numSamplesPerFrame = n)
    (h : commonProperties es = .ok (rate, size)) : size = n := by
  unfold commonProperties at h
  obtain ⟨cs, h1, h⟩ := except_bind_ok h
  cases cs with
  | nil => cases h
  | cons c cs =>
    simp only at h
    split at h
    · cases h
    · split at h
      · cases h
      · cases h
        obtain ⟨e, he, hc⟩ := mapM_mem h1 c (by simp)
        split at hc
        · cases hc
        · next c' hc' => cases hc; exact hn e he c hc'

private theorem mix_created {E : RenderEnv} (hE : HonestEnv E) {t : TrimmingSettings} {elements : List (UInt32 × ElementWithData)}
    {m : MixPresentation} {k : Int} {n : UInt32} (hk : ∀ s ∈ m.subMixes, ∀ l ∈ s.layouts, numChannelsFromLayout l.layout = .ok k)
    (hn : ∀ e ∈ elements, ∀ c, e.2.codec = some c → c.config.numSamplesPerFrame = n) {mix : Option (List (List LayoutState))}
    (h : createMix E t elements m = .ok mix) : GoodMix k.toNat n.toNat mix := by
  obtain ⟨ss, h1, h⟩ := except_bind_ok h
  split at h
  · cases h
    rintro _ ⟨⟩ s hs l hl
    obtain ⟨sm, hsm, hs2⟩ := mapM_mem h1 s hs
    obtain ⟨es, h3, hs2⟩ := except_bind_ok hs2
    obtain ⟨⟨rate, size⟩, h4, hs2⟩ := except_bind_ok hs2
    have hsize : size = n := by
      refine common_size (fun e he c hc => ?_) h4
      obtain ⟨x, hx, rfl⟩ := List.mem_map.mp he
      obtain ⟨id, hid⟩ := collected_mem h3 x hx
      exact hn _ hid c hc
    subst hsize
    obtain ⟨lay, hlay, hl2⟩ := mapM_mem hs2 l hl
    obtain ⟨r, h5, hl2⟩ := except_bind_ok hl2
    cases hl2
    refine ⟨?_, .inl rfl⟩
    rintro R rfl
    obtain ⟨x, h6, h5⟩ := except_bind_ok h5
    cases x with
    | none => cases h5
    | some kk =>
      have := orNull_some h6
      rw [hk sm hsm lay hlay] at this
      cases this
      simp only at h5
      obtain ⟨y, h7, h5⟩ := except_bind_ok h5
      cases y with
      | none => cases h5
      | some rs =>
        cases h5
        exact ⟨rfl, rfl, elementMixes_created hE h7⟩
  · cases h; intro _ hh; cases hh

/-! ### Proof: the selected layout -/

private theorem found_layout {d : Layout} : ∀ {ls : List MixLayout} {n k : Nat}, findLayout d ls n = some k →
    n ≤ k ∧ ∃ x, ls[k - n]? = some x ∧ x.layout = d := by
  intro ls
  induction ls with
  | nil => intro n k h; cases h
  | cons l ls ih =>
    intro n k h
    unfold findLayout at h
    split at h
    · next hd => cases h; exact ⟨Nat.le_refl _, l, by simp, hd.symm⟩
    · obtain ⟨h1, x, h2, h3⟩ := ih h
      refine ⟨by omega, x, ?_, h3⟩
      rw [show k - n = (k - (n + 1)) + 1 by omega, List.getElem?_cons_succ]
      exact h2

private theorem found_subMix {d : Layout} : ∀ {ss : List SubMix} {n a b : Nat}, findSubMixAndLayout d ss n = some (a, b) →
    n ≤ a ∧ ∃ s x, ss[a - n]? = some s ∧ s.layouts[b]? = some x ∧ x.layout = d := by
  intro ss
  induction ss with
  | nil => intro n a b h; cases h
  | cons s ss ih =>
    intro n a b h
    unfold findSubMixAndLayout at h
    split at h
    · next k hk =>
      cases h
      obtain ⟨-, x, h2, h3⟩ := found_layout hk
      exact ⟨Nat.le_refl _, s, x, by simp, h2, h3⟩
    · obtain ⟨h1, s', x, h2, h3⟩ := ih h
      refine ⟨by omega, s', x, ?_, h3⟩
      rw [show a - n = (a - (n + 1)) + 1 by omega, List.getElem?_cons_succ]
      exact h2

private theorem simplified {m m' : MixPresentation} {a b : Nat} {s : SubMix} {x : MixLayout} (h1 : m.subMixes[a]? = some s)
    (h2 : s.layouts[b]? = some x) (h : simplifyMix m a b = .ok m') : ∀ s ∈ m'.subMixes, ∀ l ∈ s.layouts, l.layout = x.layout := by
  unfold simplifyMix at h
  rw [if_neg (by omega)] at h
  simp only [Int.toNat_natCast, h1] at h
  rw [if_neg (by omega)] at h
  simp only [h2] at h
  cases h
  intro s' hs l hl
  simp only [List.mem_singleton] at hs
  subst hs
  simp only [List.mem_singleton] at hl
  rw [hl]

private theorem selected_layout {aes : List (UInt32 × AudioElement)} {ms : List MixPresentation} {desired : Option Layout} {id : Option UInt32}
    {r : Selected} (h : findMixAndLayout aes ms desired id = .ok r) {m m' : MixPresentation} (hm : r.mixes[r.mix]? = some m)
    (hs : simplifyMix m r.subMixIndex r.layoutIndex = .ok m') : ∀ s ∈ m'.subMixes, ∀ l ∈ s.layouts, l.layout = r.layout := by
  unfold findMixAndLayout at h
  split at h
  · cases h
  · obtain ⟨i, -, h⟩ := except_bind_ok h
    split at h
    · cases h
    · next m0 hi =>
      split at h
      · cases h
      · next s ss hss =>
        split at h
        · split at h
          · cases h
          · next l ls hls =>
            cases h
            rw [hi] at hm
            cases hm
            exact simplified (a := 0) (b := 0) (s := s) (x := l) (by rw [hss]; rfl) (by rw [hls]; rfl) hs
        · next d _ =>
          split at h
          · next a b hab =>
            cases h
            rw [hi] at hm
            cases hm
            obtain ⟨-, s', x, h2, h3, h4⟩ := found_subMix hab
            rw [← h4]
            exact simplified h2 h3 hs
          · cases h
            have hlt := (List.getElem?_eq_some_iff.mp hi).1
            simp only [List.getElem?_set_self hlt] at hm
            cases hm
            refine simplified (a := 0) (b := s.layouts.length) (s := ⟨s.elements, s.outputMixGain, s.layouts ++ [⟨d, ⟨0, 0, 0, 0, [], []⟩⟩]⟩)
              (x := ⟨d, ⟨0, 0, 0, 0, [], []⟩⟩) ?_ (by simp) hs
            unfold MixPresentation.addLayout
            simp only [hss, List.getElem?_cons_zero]

/-! ### Proof: decoders -/

variable {M : GainMath Rat} {E : RenderEnv} {C : Codecs} {t : TrimmingSettings}

private def Fitting (p : Processor (standardBackend M E C t)) (x : Rendered) : Prop :=
  ∀ r k, p.rate = some r → numChannelsFromLayout p.layout = .ok k →
    GoodMix k.toNat r.2.toNat (RenderingModels.mix (C := C) p.renderer) ∧ (x = [] ∨ FitsIn k.toNat r.2.toNat x)

private theorem fitting_new (hE : HonestEnv E) {s : DecoderSettings} {x : Descriptors} {p : Processor (standardBackend M E C t)}
    (hx : ConsistentDescriptors x) (h : initAll s x = .ok p) : Fitting p [] := by
  obtain ⟨q, -, h⟩ := except_bind_ok h
  unfold initRendering at h
  split at h
  · cases h
  · split at h
    · cases h
    · split at h
      · cases h
      · obtain ⟨sel, h1, h⟩ := except_bind_ok h
        split at h
        · cases h
        · next m hm =>
          obtain ⟨simple, h2, h⟩ := except_bind_ok h
          obtain ⟨R, h3, h⟩ := except_bind_ok h
          cases h
          intro r k hr hk
          refine ⟨?_, .inl rfl⟩
          simp only at hr hk ⊢
          have h3 : configurePipeline E C t x.elements simple = .ok R := h3
          obtain ⟨R', -, h3⟩ := except_bind_ok h3
          obtain ⟨mix, h4, h3⟩ := except_bind_ok h3
          cases h3
          refine mix_created hE (fun s' hs l hl => ?_) (fun e he c hc => ?_) h4
          · rw [selected_layout h1 hm h2 s' hs l hl]; exact hk
          · obtain ⟨c', hc', he'⟩ := (hx.elements e he).2.2
            rw [hc] at he'
            cases he'
            unfold sampleRateAndFrameSize at hr
            split at hr
            · next y hy =>
              rw [hy] at hc'
              cases List.mem_singleton.mp hc'
              cases hr
              rfl
            · cases hr

private theorem fitting_kept (hE : HonestEnv E) : KeptByRendering (B := standardBackend M E C t) Fitting where
  new _ _ _ hx h := fitting_new hE hx h
  taken _ _ h r k hr hk := ⟨(h r k hr hk).1, .inl rfl⟩
  state _ _ _ h := h
  failed p x u e rs h hu r k hr hk := by
    obtain ⟨h1, h2⟩ := h r k hr hk
    refine ⟨?_, h2⟩
    unfold Decoder.render at hu
    split at hu
    · cases hu
    · have := (unit_fits (M := M) (C := C) (st := p.renderer) (u := u) h1).1
      have he : renderUnit M (C := C) p.renderer u = (.error e, rs) := hu
      rw [he] at this
      exact this
  rendered p x u y rs h hu r k hr hk := by
    obtain ⟨h1, h2⟩ := h r k hr hk
    unfold Decoder.render at hu
    split at hu
    · cases hu; exact ⟨h1, .inl rfl⟩
    · have := unit_fits (M := M) (C := C) (st := p.renderer) (u := u) h1
      have he : renderUnit M (C := C) p.renderer u = (.ok y, rs) := hu
      rw [he] at this
      exact ⟨this.1, this.2 y rfl⟩
  reordered p x y a s h ho r k hr hk := by
    obtain ⟨h1, h2⟩ := h r k hr hk
    refine ⟨h1, ?_⟩
    have hp := (C33_only_the_order_changes a s x y ho).1
    rcases h2 with rfl | ⟨h2, T, h3, h4⟩
    · exact .inl hp.eq_nil
    · exact .inr ⟨by rw [hp.length_eq, h2], T, h3, fun c hc => h4 c (hp.mem_iff.mp hc)⟩

private theorem channels_small {d : Layout} {n : Int} (h : numChannelsFromLayout d = .ok n) : n.toNat ≤ 24 := by
  have hc : ∀ p ∈ soundSystemChannels, p.2 ≤ 24 := by decide +kernel
  unfold numChannelsFromLayout at h
  split at h
  · simp only [Except.ok.injEq] at h; omega
  · split at h
    · split at h
      · split at h
        · rename_i s _ _ _ k hk
          simp only [Except.ok.injEq] at h
          subst h
          obtain ⟨p, hp, rfl⟩ : ∃ p ∈ soundSystemChannels, p.2 = k := by
            generalize soundSystemChannels = l at hk
            induction l with
            | nil => cases hk
            | cons a l ih =>
              obtain ⟨a, b⟩ := a
              simp only [List.lookup] at hk
              split at hk
              · cases hk; exact ⟨_, List.mem_cons_self .., rfl⟩
              · obtain ⟨p, hp, h⟩ := ih hk
                exact ⟨p, List.mem_cons_of_mem _ hp, h⟩
          have := hc p hp
          omega
        · cases h
      · cases h
    · cases h

/-- **C51 (the documented size of a buffer is enough).** After any history of calls, on any bytes: if `GetFrameSize` and
`GetNumberOfOutputChannels` answer, then a buffer of the frame size times the number of channels times the size of a sample is enough for
the temporal unit that is available.  It has as many channels as was said and at most a frame of samples in each; its bytes are what
`GetOutputTemporalUnit` writes, and a larger buffer changes nothing, neither the answer nor what the decoder does next. -/
theorem C51_documented_size_is_enough (hE : HonestEnv E) (s : DecoderSettings) (hs : s.sampleType = 1 ∨ s.sampleType = 2)
    (d0 : Decoder (standardBackend M E C t)) (h0 : NewDecoder s d0) (cs : List AnyCall) (d : Decoder (standardBackend M E C t))
    (hd : d = afterCalls d0 cs) (frameSize : UInt32) (channels : Int) (hn : d.getFrameSize = .ok frameSize)
    (hk : d.getNumberOfOutputChannels = .ok channels) (ha : d.isUnitAvailable = true) :
    ∃ bytes ticks, OutputBytes s.sampleType d.pending bytes ∧ ticks ≤ frameSize.toNat ∧
      bytes.length = channels.toNat * ticks * (2 * s.sampleType) ∧
      (∀ size, frameSize.toNat * channels.toNat * (2 * s.sampleType) ≤ size →
        (∀ b, (d.getOutput size).1 = .ok b → b = bytes) ∧
        ∀ larger, size ≤ larger → d.getOutput larger = d.getOutput size) := by
  have hkept := Kept.after (fitting_kept (M := M) (C := C) (t := t) hE) h0 cs
  have hty := (settings_after h0 cs).1
  rw [← hd] at hkept hty
  unfold Decoder.getFrameSize at hn
  unfold Decoder.getNumberOfOutputChannels at hk
  cases hp : d.processor with
  | none => rw [hp] at hn; cases hn
  | some p =>
    rw [hp] at hn hk
    simp only at hn hk
    split at hn
    · cases hn
    · next r hr =>
      cases hn
      obtain ⟨-, h⟩ := hkept.good p hp r channels hr hk
      have hne : d.pending ≠ [] := by
        intro he
        unfold Decoder.isUnitAvailable at ha
        simp [he] at ha
      rcases h with h | ⟨h1, T, hT, h2⟩
      · exact absurd h hne
      · have hbound : d.pending.length * T * (2 * s.sampleType) ≤ r.2.toNat * channels.toNat * (2 * s.sampleType) := by
          rw [h1, Nat.mul_comm r.2.toNat]
          exact Nat.mul_le_mul_right _ (Nat.mul_le_mul_left _ hT)
        have hmax : d.pending.length * T * (2 * s.sampleType) ≤ 18446744073709551615 := by
          have h3 := r.2.toNat_lt
          have h4 := channels_small hk
          have h5 : d.pending.length * T ≤ 24 * 4294967296 := Nat.mul_le_mul (by omega) (by omega)
          have h6 : d.pending.length * T * (2 * s.sampleType) ≤ 24 * 4294967296 * 4 := Nat.mul_le_mul h5 (by omega)
          omega
        obtain ⟨bytes, b1, b2, -⟩ := C32_frames_are_interleaved d.pending T s.sampleType _ hne h2 hs (Nat.le_refl _) hmax
        refine ⟨bytes, T, ?_, hT, ?_, fun size hsize => ?_⟩
        · unfold OutputBytes
          rw [b2]; exact b1
        · rw [b2, h1]
        · have hw : ∀ sz, size ≤ sz → writeFrameToSpan d.pending d.settings.sampleType sz = .ok bytes := by
            intro sz hsz
            rw [hty]
            exact C32_exact_buffer _ _ _ sz _ b1 (by rw [b2]; omega)
          have he : d.pending.isEmpty = false := by
            cases hx : d.pending with
            | nil => exact absurd hx hne
            | cons a l => rfl
          have hg : ∀ sz, size ≤ sz → d.getOutput sz = match Decoder.decodeOne (d.fromDescriptors || d.ended) { d with pending := [] } with
              | (.error e, d) => (.error e, d)
              | (.ok (), d) => (.ok bytes, d) := by
            intro sz hsz
            unfold Decoder.getOutput
            rw [he]
            simp only [hw sz hsz, Bool.false_eq_true, if_false]
            generalize Decoder.decodeOne (d.fromDescriptors || d.ended) _ = w
            rcases w with ⟨_ | _, _⟩ <;> rfl
          refine ⟨fun b hb => ?_, fun larger hl => by rw [hg _ hl, hg _ (Nat.le_refl _)]⟩
          rw [hg _ (Nat.le_refl _)] at hb
          split at hb
          · cases hb
          · cases hb; rfl

end Iamf.Props
