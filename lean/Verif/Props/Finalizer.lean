import Verif.Cli.Finalizer
import Verif.Props.MixRender
/-
  C54: the finalizer of mix presentations measures what is rendered.
-/
namespace Iamf.Props
open Iamf

variable {Q : Meters} {S : PostProcessors}

/-! ### Specification -/

/-- The samples to which a layout is rendered, temporal unit after temporal unit. -/
inductive Renderings (M : GainMath Rat) : LayoutRenderer → List UnitToRender → List Rendered → LayoutRenderer → Prop
  | nil {R : LayoutRenderer} : Renderings M R [] [] R
  | snoc {R R' R'' : LayoutRenderer} {us : List UnitToRender} {ss : List Rendered} {u : UnitToRender} {s : Rendered} :
      Renderings M R us ss R' → R'.render M u.frames (blockById u.blocks) = (.ok s, R'') → Renderings M R (us ++ [u]) (ss ++ [s]) R''

/-- Something that takes samples, frame after frame. -/
inductive Fed {σ : Type} (take : σ → Rendered → Except Err Unit × σ) : σ → List Rendered → σ → Prop
  | nil {a : σ} : Fed take a [] a
  | snoc {a b c : σ} {ss : List Rendered} {s : Rendered} : Fed take a ss b → take b s = (.ok (), c) → Fed take a (ss ++ [s]) c

/-- The same for what need not be there. -/
def FedIfAny {σ : Type} (take : σ → Rendered → Except Err Unit × σ) (a : Option σ) (ss : List Rendered) (b : Option σ) : Prop :=
  (a = none ∧ b = none) ∨ ∃ x y, a = some x ∧ b = some y ∧ Fed take x ss y

/-- The audio elements of a sub-mix with what they have in common: sample rate and frame size, and the bit depth (16 if they differ). -/
structure InCommon (elements : List (UInt32 × ElementWithData)) (s : SubMix) (es : List (SubMixElement × ElementWithData))
    (rate frameSize : UInt32) (depth : UInt8) : Prop where
  elements : es.map Prod.fst = s.elements ∧ ∀ x ∈ es, elements.lookup x.1.id = some x.2
  some : es ≠ []
  codecs : ∀ x ∈ es, ∃ c, x.2.codec = Option.some c ∧ c.outputRate = rate ∧ c.config.numSamplesPerFrame = frameSize
  depth : (∀ x ∈ es, ∃ c, x.2.codec = Option.some c ∧ c.bitDepth = depth) ∨
    depth = 16 ∧ ∃ x ∈ es, ∃ y ∈ es, ∃ c d, x.2.codec = Option.some c ∧ y.2.codec = Option.some d ∧ c.bitDepth ≠ d.bitDepth

/-- The layout with the indices. -/
def layoutAt (m : MixPresentation) (i j : Nat) : Option MixLayout := m.subMixes[i]?.bind fun s => s.layouts[j]?

/-- What there is for a layout before the first temporal unit: the renderer (as in C40), the measurement of loudness, the post-processor; none
of them for a layout without channels. -/
def PreparedLayout (E : RenderEnv) (t : TrimmingSettings) (elements : List (UInt32 × ElementWithData)) (m : MixPresentation) (i j : Nat)
    (x : MeasuredLayout Q S) : Prop :=
  ∃ s l es rate frameSize depth, m.subMixes[i]? = some s ∧ s.layouts[j]? = some l ∧ InCommon elements s es rate frameSize depth ∧ x.valid = [] ∧
    ((∃ e, numChannelsFromLayout l.layout = .error e ∧ x.renderer = none ∧ x.meter = none ∧ x.post = none) ∨
     ∃ n, numChannelsFromLayout l.layout = .ok n ∧ createLayoutRenderer E t s es rate frameSize l.layout = .ok x.renderer ∧
       x.meter = Q.create l frameSize rate ∧ x.post = S.create m.id i j l.layout n rate depth frameSize)

/-- Some layout of the mix presentation can be rendered. -/
def SomeLayoutRenders (E : RenderEnv) (t : TrimmingSettings) (Q : Meters) (S : PostProcessors) (elements : List (UInt32 × ElementWithData))
    (m : MixPresentation) : Prop :=
  ∃ i j, ∃ x : MeasuredLayout Q S, PreparedLayout E t elements m i j x ∧ x.renderer ≠ none

/-- A layout after the units: rendered, measured and post-processed if there is a renderer. -/
def AfterUnits (M : GainMath Rat) (us : List UnitToRender) (x y : MeasuredLayout Q S) : Prop :=
  (x.renderer = none ∧ y = x) ∨ ∃ R R' ss, x.renderer = some R ∧ y.renderer = some R' ∧ Renderings M R us ss R' ∧
    FedIfAny Q.accumulate x.meter ss y.meter ∧ FedIfAny S.push x.post ss y.post ∧ y.valid = ss.getLast?.getD x.valid

/-- The loudness that the user has given is the one that was measured. -/
def AsMeasured (measured user : LoudnessInfo) : Prop :=
  measured.integratedLoudness = user.integratedLoudness ∧ measured.digitalPeak = user.digitalPeak ∧
    (measured.infoType.toNat % 2 = 1 → measured.truePeak = user.truePeak)

/-- The mix presentation without loudness. -/
def withoutLoudness (m : MixPresentation) : MixPresentation :=
  m.withSubMixes (m.subMixes.map fun s => ⟨s.elements, s.outputMixGain, s.layouts.map fun l => ⟨l.layout, ⟨0, 0, 0, 0, [], []⟩⟩⟩)

/-- The final mix presentation: but for the loudness it is what it was.  The loudness of a layout is the measured one, if there is a
measurement, otherwise what it was. -/
structure FinalizedAs (E : RenderEnv) (t : TrimmingSettings) (Q : Meters) (S : PostProcessors) (M : GainMath Rat) (elements : List (UInt32 × ElementWithData))
    (us : List UnitToRender) (validate : Bool) (o o' : Obu MixPresentation) : Prop where
  same : o'.header = o.header ∧ o'.footer = o.footer ∧ withoutLoudness o'.body = withoutLoudness o.body
  loudness : ∀ i j l l', layoutAt o.body i j = some l → layoutAt o'.body i j = some l' →
    ∃ x : MeasuredLayout Q S, PreparedLayout E t elements o.body i j x ∧
      (x.meter = none ∨ ¬ SomeLayoutRenders E t Q S elements o.body → l' = l) ∧
      (x.meter ≠ none → SomeLayoutRenders E t Q S elements o.body → ∃ y q info, AfterUnits M us x y ∧ y.meter = some q ∧ Q.query q = .ok info ∧
        l'.loudness = info ∧ (validate = true → AsMeasured info l.loudness))

/-! ### Loops -/

private theorem pushEach_iff {α : Type} {f : α → Except Err Unit × α} : ∀ {l l' : List α},
    pushEach f l = (.ok (), l') ↔ List.Forall₂ (fun a b => f a = (.ok (), b)) l l' := by
  intro l
  induction l with
  | nil =>
    intro l'
    simp only [pushEach, Prod.mk.injEq, true_and]
    exact ⟨fun h => h ▸ .nil, fun h => (by cases h; rfl)⟩
  | cons a l ih =>
    intro l'
    unfold pushEach
    match hf : f a with
    | (.error e, b) =>
      refine ⟨fun h => (by simp at h), fun h => ?_⟩
      cases h with
      | cons h1 h2 => rw [hf] at h1; simp at h1
    | (.ok (), b) =>
      simp only
      match hp : pushEach f l with
      | (.error e, m) =>
        refine ⟨fun h => (by simp at h), fun h => ?_⟩
        cases h with
        | cons h1 h2 => rw [(ih).mpr h2] at hp; simp at hp
      | (.ok (), m) =>
        simp only [Prod.mk.injEq, true_and]
        refine ⟨fun h => h ▸ .cons hf (ih.mp hp), fun h => ?_⟩
        cases h with
        | cons h1 h2 =>
          rw [hf] at h1
          rw [ih.mpr h2] at hp
          simp only [Prod.mk.injEq, true_and] at h1 hp
          rw [h1, hp]

private theorem feed_ok {σ : Type} {take : σ → Rendered → Except Err Unit × σ} {a b c : Option σ} {ss : List Rendered} {s : Rendered}
    (h : FedIfAny take a ss b) (hf : feed take b s = (.ok (), c)) : FedIfAny take a (ss ++ [s]) c := by
  rcases h with ⟨h1, rfl⟩ | ⟨x, y, h1, rfl, h2⟩
  · simp only [feed, Prod.mk.injEq, true_and] at hf
    exact .inl ⟨h1, hf.symm⟩
  · simp only [feed, Prod.mk.injEq] at hf
    exact .inr ⟨x, (take y s).2, h1, hf.2.symm, .snoc h2 (Prod.ext hf.1 rfl)⟩

private theorem fed_nil {σ : Type} (take : σ → Rendered → Except Err Unit × σ) (a : Option σ) : FedIfAny take a [] a := by
  cases a with
  | none => exact .inl ⟨rfl, rfl⟩
  | some x => exact .inr ⟨x, x, rfl, rfl, .nil⟩

private theorem after_nil (M : GainMath Rat) (x : MeasuredLayout Q S) : AfterUnits M [] x x := by
  cases hr : x.renderer with
  | none => exact .inl ⟨hr, rfl⟩
  | some R => exact .inr ⟨R, R, [], hr, hr, .nil, fed_nil _ _, fed_nil _ _, rfl⟩

private theorem after_snoc {M : GainMath Rat} {us : List UnitToRender} {u : UnitToRender} {x y z : MeasuredLayout Q S} (h : AfterUnits M us x y)
    (hp : y.push M u.frames (blockById u.blocks) = (.ok (), z)) : AfterUnits M (us ++ [u]) x z := by
  unfold MeasuredLayout.push at hp
  rcases h with ⟨h1, rfl⟩ | ⟨R, R', ss, h1, h2, h3, h4, h5, h6⟩
  · rw [h1] at hp
    simp only [Prod.mk.injEq, true_and] at hp
    exact .inl ⟨h1, hp.symm⟩
  · rw [h2] at hp
    simp only at hp
    match hr : R'.render M u.frames (blockById u.blocks) with
    | (.error e, R'') => rw [hr] at hp; simp at hp
    | (.ok s, R'') =>
      rw [hr] at hp
      simp only at hp
      match hq : feed Q.accumulate y.meter s with
      | (.error e, q) => rw [hq] at hp; simp at hp
      | (.ok (), q) =>
        rw [hq] at hp
        simp only [Prod.mk.injEq] at hp
        obtain ⟨p1, rfl⟩ := hp
        exact .inr ⟨R, R'', ss ++ [s], h1, rfl, .snoc h3 hr, feed_ok h4 hq, feed_ok h5 (Prod.ext p1 rfl), by simp⟩

/-- All units have been taken. -/
inductive Pushed (M : GainMath Rat) : Finalizer Q S → List UnitToRender → Finalizer Q S → Prop
  | nil {f : Finalizer Q S} : Pushed M f [] f
  | snoc {f g h : Finalizer Q S} {us : List UnitToRender} {u : UnitToRender} : Pushed M f us g → g.push M u = (.ok (), h) → Pushed M f (us ++ [u]) h

private abbrev Entries (Q : Meters) (S : PostProcessors) := List (UInt32 × List (List (MeasuredLayout Q S)))

/-- The entries of two maps are related one by one. -/
private def EntriesRel (P : MeasuredLayout Q S → MeasuredLayout Q S → Prop) (a b : Entries Q S) : Prop :=
  List.Forall₂ (fun x y => x.1 = y.1 ∧ List.Forall₂ (List.Forall₂ P) x.2 y.2) a b

private theorem forall₂_comp {α β γ : Type} {P : α → β → Prop} {R : β → γ → Prop} {T : α → γ → Prop} (h : ∀ a b c, P a b → R b c → T a c) :
    ∀ {l : List α} {m : List β} {n : List γ}, List.Forall₂ P l m → List.Forall₂ R m n → List.Forall₂ T l n := by
  intro l
  induction l with
  | nil => intro m n h1 h2; cases h1; cases h2; exact .nil
  | cons a l ih =>
    intro m n h1 h2
    cases h1 with
    | cons p1 p2 => cases h2 with
      | cons q1 q2 => exact .cons (h _ _ _ p1 q1) (ih p2 q2)

private theorem EntriesRel.comp {P R T : MeasuredLayout Q S → MeasuredLayout Q S → Prop} (h : ∀ a b c, P a b → R b c → T a c) {l m n : Entries Q S}
    (h1 : EntriesRel P l m) (h2 : EntriesRel R m n) : EntriesRel T l n :=
  forall₂_comp (fun _ _ _ p q => ⟨p.1.trans q.1, forall₂_comp (P := List.Forall₂ P) (R := List.Forall₂ R) (T := List.Forall₂ T) (fun _ _ _ a b => forall₂_comp h a b) p.2 q.2⟩) h1 h2

private theorem forall₂_self {α : Type} {P : α → α → Prop} (h : ∀ a, P a a) (l : List α) : List.Forall₂ P l l := by
  induction l with
  | nil => exact .nil
  | cons a l ih => exact .cons (h a) ih

private theorem EntriesRel.refl {P : MeasuredLayout Q S → MeasuredLayout Q S → Prop} (h : ∀ a, P a a) (l : Entries Q S) : EntriesRel P l l :=
  forall₂_self (fun _ => ⟨rfl, forall₂_self (fun _ => forall₂_self h _) _⟩) l

private theorem forall₂_imp {α β : Type} {P R : α → β → Prop} (h : ∀ a b, P a b → R a b) {l : List α} {m : List β} (hl : List.Forall₂ P l m) :
    List.Forall₂ R l m := by
  induction hl with
  | nil => exact .nil
  | cons p _ ih => exact .cons (h _ _ p) ih

private theorem pushed_each {g : MeasuredLayout Q S → Except Err Unit × MeasuredLayout Q S} {a b : Entries Q S}
    (h : pushEach (fun x : UInt32 × List (List (MeasuredLayout Q S)) => match pushEach (pushEach g) x.2 with
      | (r, ss) => (r, (x.1, ss))) a = (.ok (), b)) : EntriesRel (fun x y => g x = (.ok (), y)) a b := by
  refine forall₂_imp (fun x y hxy => ?_) (pushEach_iff.mp h)
  simp only [Prod.mk.injEq] at hxy
  obtain ⟨h1, rfl⟩ := hxy
  refine ⟨rfl, forall₂_imp (fun _ _ hx => pushEach_iff.mp hx) (pushEach_iff.mp (Prod.ext h1 rfl))⟩

private theorem pushed_after {M : GainMath Rat} {f g : Finalizer Q S} {us : List UnitToRender} (h : Pushed M f us g) :
    EntriesRel (AfterUnits M us) f.mixes g.mixes ∧ g.obus = f.obus ∧ g.phase = f.phase := by
  induction h with
  | nil => exact ⟨.refl (after_nil M) _, rfl, rfl⟩
  | snoc h1 h2 ih =>
    obtain ⟨i1, i2, i3⟩ := ih
    unfold Finalizer.push at h2
    split at h2
    · simp at h2
    · split at h2
      · simp at h2
      · simp only [Prod.mk.injEq] at h2
        obtain ⟨p1, rfl⟩ := h2
        exact ⟨.comp (P := AfterUnits M _) (T := AfterUnits M _) (fun a b c k1 k2 => after_snoc k1 k2) i1 (pushed_each (g := MeasuredLayout.push M _ _) (b := (pushEach (pushMeasured M _) _).2) (Prod.ext p1 rfl)), i2, i3⟩

/-! ### The end -/

private theorem finish_after {f g : Finalizer Q S} (h : f.finish = (.ok (), g)) :
    EntriesRel (fun x y => y.renderer = x.renderer ∧ y.meter = x.meter) f.mixes g.mixes ∧ g.obus = f.obus ∧ g.phase = .finished := by
  unfold Finalizer.finish at h
  split at h
  · simp only [Prod.mk.injEq] at h
    obtain ⟨p1, rfl⟩ := h
    refine ⟨?_, rfl, rfl⟩
    have := pushed_each (g := MeasuredLayout.flush) (a := f.mixes) (Prod.ext p1 rfl)
    refine .comp (P := Eq) (R := fun x y => x.flush = (.ok (), y)) (fun a b c hab hbc => ?_) (.refl (fun _ => rfl) _) this
    subst hab
    unfold MeasuredLayout.flush at hbc
    split at hbc
    · simp only [Prod.mk.injEq, true_and] at hbc
      rw [← hbc]; exact ⟨rfl, rfl⟩
    · simp only [Prod.mk.injEq] at hbc
      rw [← hbc.2]; exact ⟨rfl, rfl⟩
  · simp at h

private theorem matches_iff (a b : LoudnessInfo) : matchesUser a b = true ↔ AsMeasured a b := by
  unfold matchesUser AsMeasured
  have h : (a.infoType &&& 1 == 0) = true ↔ ¬ a.infoType.toNat % 2 = 1 := by
    rw [beq_iff_eq, ← UInt8.toNat_inj, UInt8.toNat_and]
    simp only [UInt8.reduceToNat, Nat.and_one_is_mod]
    omega
  simp only [Bool.and_eq_true, Bool.or_eq_true, beq_iff_eq, and_assoc] at h ⊢
  refine and_congr Iff.rfl (and_congr Iff.rfl ⟨fun k hm => ?_, fun k => ?_⟩)
  · rcases k with k | k
    · exact absurd hm (h.mp k)
    · exact k
  · by_cases hm : a.infoType.toNat % 2 = 1
    · exact .inr (k hm)
    · exact .inl (h.mpr hm)

/-- What is done for one layout. -/
private def Filled (validate : Bool) (x : MeasuredLayout Q S) (l l' : MixLayout) : Prop :=
  (x.meter = none ∧ l' = l) ∨ ∃ q info, x.meter = some q ∧ Q.query q = .ok info ∧ l' = ⟨l.layout, info⟩ ∧ (validate = true → AsMeasured info l.loudness)

private theorem fillLayout_iff {v : Bool} {x : MeasuredLayout Q S} {l l' : MixLayout} {same : Bool} :
    (∃ x', fillLayout v x l same = (.ok true, x', l')) ↔ same = true ∧ Filled v x l l' := by
  unfold fillLayout Filled
  cases hm : x.meter with
  | none =>
    simp only [Prod.mk.injEq, Except.ok.injEq, exists_eq_left', reduceCtorEq, false_and, exists_false, or_false, true_and]
    exact ⟨fun ⟨_, a, _, b⟩ => ⟨a, b.symm⟩, fun ⟨a, b⟩ => ⟨x, a, rfl, b.symm⟩⟩
  | some q =>
    simp only [reduceCtorEq, false_and, false_or, Option.some.injEq]
    cases hq : Q.query q with
    | error e =>
      refine ⟨fun ⟨_, h⟩ => (by simp at h), fun ⟨_, q', info, h1, h2, _⟩ => ?_⟩
      subst h1; rw [hq] at h2; cases h2
    | ok info =>
      simp only [Prod.mk.injEq, Except.ok.injEq, Bool.and_eq_true, Bool.or_eq_true, Bool.not_eq_true', matches_iff]
      constructor
      · rintro ⟨_, ⟨h1, h2⟩, _, h3⟩
        refine ⟨h1, q, info, rfl, hq, h3.symm, fun hv => ?_⟩
        rcases h2 with h2 | h2
        · rw [hv] at h2; cases h2
        · exact h2
      · rintro ⟨h1, q', info', rfl, h2, h3, h4⟩
        rw [hq] at h2
        cases h2
        refine ⟨_, ⟨h1, ?_⟩, rfl, h3.symm⟩
        cases v with
        | false => exact .inl rfl
        | true => exact .inr (h4 rfl)

private theorem fillLayouts_iff {v : Bool} : ∀ {xs : List (MeasuredLayout Q S)} {ls ls' : List MixLayout} {same : Bool}, xs.length = ls.length →
    ((∃ xs', fillLayouts v xs ls same = (.ok true, xs', ls')) ↔
      same = true ∧ List.Forall₂ (fun (p : MeasuredLayout Q S × MixLayout) l' => Filled v p.1 p.2 l') (xs.zip ls) ls') := by
  intro xs
  induction xs with
  | nil =>
    intro ls ls' same hl
    cases ls with
    | cons _ _ => simp at hl
    | nil =>
      simp only [fillLayouts, Prod.mk.injEq, Except.ok.injEq, List.zip_nil_left]
      exact ⟨fun ⟨_, a, _, b⟩ => ⟨a, b ▸ .nil⟩, fun ⟨a, b⟩ => (by cases b; exact ⟨[], a, rfl, rfl⟩)⟩
  | cons x xs ih =>
    intro ls ls' same hl
    cases ls with
    | nil => simp at hl
    | cons l ls =>
      have hl' : xs.length = ls.length := by simpa using hl
      have key : (∃ xs', fillLayouts v (x :: xs) (l :: ls) same = (.ok true, xs', ls')) ↔
          ∃ l1 ls1, ls' = l1 :: ls1 ∧ (∃ x', fillLayout v x l same = (.ok true, x', l1)) ∧ ∃ xs', fillLayouts v xs ls true = (.ok true, xs', ls1) := by
        have hfalse : ∀ (zs : List (MeasuredLayout Q S)) (ls : List MixLayout) (w : List (MeasuredLayout Q S)) (w' : List MixLayout), zs.length = ls.length →
            fillLayouts v zs ls false ≠ (.ok true, w, w') := by
          clear ih hl hl'
          intro zs
          induction zs with
          | nil => intro ls w w' h; cases ls <;> simp [fillLayouts]
          | cons z zs ih =>
            intro ls w w' h
            cases ls with
            | nil => simp at h
            | cons l ls =>
              unfold fillLayouts
              match hf : fillLayout v z l false with
              | (.error e, y, m) => simp
              | (.ok b, y, m) =>
                have hb : b = false := by
                  cases b with
                  | false => rfl
                  | true => exact absurd (fillLayout_iff.mp ⟨y, hf⟩).1 (by decide)
                subst hb
                simp only
                intro hc
                simp only [Prod.mk.injEq] at hc
                exact ih ls _ _ (by simpa using h) (Prod.ext hc.1 rfl)
        constructor
        · rintro ⟨xs', h⟩
          unfold fillLayouts at h
          match hf : fillLayout v x l same with
          | (.error e, y, m) => rw [hf] at h; simp at h
          | (.ok b, y, m) =>
            rw [hf] at h
            simp only [Prod.mk.injEq] at h
            obtain ⟨h1, h2, rfl⟩ := h
            cases b with
            | false => exact absurd (Prod.ext (y := (Except.ok true, (fillLayouts v xs ls false).2.1, (fillLayouts v xs ls false).2.2)) h1 rfl) (hfalse xs ls _ _ hl')
            | true => exact ⟨_, _, rfl, ⟨y, rfl⟩, _, Prod.ext h1 rfl⟩
        · rintro ⟨l1, ls1, rfl, ⟨x', h1⟩, xs', h2⟩
          refine ⟨x' :: xs', ?_⟩
          unfold fillLayouts
          rw [h1]
          simp only
          rw [h2]
      rw [key, List.zip_cons_cons]
      constructor
      · rintro ⟨l1, ls1, rfl, h1, h2⟩
        obtain ⟨k1, k2⟩ := fillLayout_iff.mp h1
        exact ⟨k1, .cons k2 ((ih hl').mp h2).2⟩
      · rintro ⟨h1, h2⟩
        cases h2 with
        | cons p1 p2 => exact ⟨_, _, rfl, fillLayout_iff.mpr ⟨h1, p1⟩, (ih hl').mpr ⟨rfl, p2⟩⟩

private theorem fillLayouts_false {v : Bool} {xs : List (MeasuredLayout Q S)} {ls : List MixLayout} (hl : xs.length = ls.length) :
    (fillLayouts v xs ls false).1 ≠ .ok true := by
  intro h
  exact absurd ((fillLayouts_iff (ls' := (fillLayouts v xs ls false).2.2) hl).mp ⟨(fillLayouts v xs ls false).2.1, Prod.ext h rfl⟩).1 (by decide)

/-- What is done for one sub-mix. -/
private def FilledSub (validate : Bool) (x : List (MeasuredLayout Q S)) (s s' : SubMix) : Prop :=
  s'.elements = s.elements ∧ s'.outputMixGain = s.outputMixGain ∧
    List.Forall₂ (fun (p : MeasuredLayout Q S × MixLayout) l' => Filled validate p.1 p.2 l') (x.zip s.layouts) s'.layouts

private theorem fillSubMixes_iff {v : Bool} : ∀ {xs : List (List (MeasuredLayout Q S))} {ss ss' : List SubMix} {same : Bool},
    List.Forall₂ (fun (x : List (MeasuredLayout Q S)) (s : SubMix) => x.length = s.layouts.length) xs ss →
    ((∃ xs', fillSubMixes v xs ss same = (.ok true, xs', ss')) ↔
      same = true ∧ List.Forall₂ (fun (p : List (MeasuredLayout Q S) × SubMix) s' => FilledSub v p.1 p.2 s') (xs.zip ss) ss') := by
  intro xs
  induction xs with
  | nil =>
    intro ss ss' same hl
    cases hl
    simp only [fillSubMixes, Prod.mk.injEq, Except.ok.injEq, List.zip_nil_left]
    exact ⟨fun ⟨_, a, _, b⟩ => ⟨a, b ▸ .nil⟩, fun ⟨a, b⟩ => (by cases b; exact ⟨[], a, rfl, rfl⟩)⟩
  | cons x xs ih =>
    intro ss ss' same hl
    cases hl with
    | @cons _ s _ ss hx hxs =>
      have hfalse : (fillSubMixes v xs ss false).1 ≠ .ok true := fun h =>
        absurd ((ih (ss' := (fillSubMixes v xs ss false).2.2) hxs).mp ⟨(fillSubMixes v xs ss false).2.1, Prod.ext h rfl⟩).1 (by decide)
      have hsub : ∀ ls, (∃ x', fillLayouts v x s.layouts same = (.ok true, x', ls)) ↔ _ := fun ls => fillLayouts_iff hx
      rw [List.zip_cons_cons]
      constructor
      · rintro ⟨xs', h⟩
        unfold fillSubMixes at h
        match hf : fillLayouts v x s.layouts same with
        | (.error e, y, m) => rw [hf] at h; simp at h
        | (.ok b, y, m) =>
          rw [hf] at h
          simp only [Prod.mk.injEq] at h
          obtain ⟨h1, h2, rfl⟩ := h
          cases b with
          | false => exact absurd h1 hfalse
          | true =>
            obtain ⟨k1, k2⟩ := (hsub m).mp ⟨y, hf⟩
            exact ⟨k1, .cons ⟨rfl, rfl, k2⟩ ((ih hxs).mp ⟨_, Prod.ext h1 rfl⟩).2⟩
      · rintro ⟨h1, h2⟩
        cases h2 with
        | @cons _ s' _ ss' p1 p2 =>
          obtain ⟨a1, a2, a3⟩ := p1
          obtain ⟨x', hx'⟩ := (hsub s'.layouts).mpr ⟨h1, a3⟩
          obtain ⟨xs', hxs'⟩ := (ih hxs).mpr ⟨rfl, p2⟩
          refine ⟨x' :: xs', ?_⟩
          unfold fillSubMixes
          simp only [hx', hxs']
          simp only at a1 a2
          rw [← a1, ← a2]

/-- What is done for one mix presentation. -/
private def FilledMix (validate : Bool) (m : Entries Q S) (o o' : Obu MixPresentation) : Prop :=
  (m.lookup o.body.id = none ∧ o' = o) ∨ ∃ xs subs, m.lookup o.body.id = some xs ∧ o' = ⟨o.header, o.body.withSubMixes subs, o.footer⟩ ∧
    List.Forall₂ (fun (p : List (MeasuredLayout Q S) × SubMix) s' => FilledSub validate p.1 p.2 s') (xs.zip o.body.subMixes) subs

private theorem lookup_set {id k : UInt32} {ss : List (List (MeasuredLayout Q S))} (hk : k ≠ id) : ∀ m : Entries Q S,
    (setMeasured id ss m).lookup k = m.lookup k := by
  intro m
  induction m with
  | nil => rfl
  | cons a m ih =>
    obtain ⟨i, x⟩ := a
    unfold setMeasured
    split
    · rename_i hi
      subst hi
      simp only [List.lookup, beq_eq_false_iff_ne.mpr hk]
    · simp only [List.lookup, ih]

/-- The entries are those of the mix presentations. -/
private def ShapeOf (m : Entries Q S) (o : Obu MixPresentation) : Prop :=
  ∀ xs, m.lookup o.body.id = some xs →
    List.Forall₂ (fun (x : List (MeasuredLayout Q S)) (s : SubMix) => x.length = s.layouts.length) xs o.body.subMixes

private theorem shape_trans {xs zs : List (List (MeasuredLayout Q S))}
    (hlen : List.Forall₂ (fun (x z : List (MeasuredLayout Q S)) => z.length = x.length) xs zs) : ∀ {ss : List SubMix},
    List.Forall₂ (fun (x : List (MeasuredLayout Q S)) (s : SubMix) => x.length = s.layouts.length) xs ss →
    List.Forall₂ (fun (x : List (MeasuredLayout Q S)) (s : SubMix) => x.length = s.layouts.length) zs ss := by
  induction hlen with
  | nil => exact fun h => by cases h; exact .nil
  | cons p _ ih =>
    intro ss h
    cases h with
    | cons q r => exact .cons (p.trans q) (ih r)

private theorem fillMixes_iff {v : Bool} : ∀ {os os' : List (Obu MixPresentation)} {m : Entries Q S}, (os.map fun o => o.body.id).Nodup →
    (∀ o ∈ os, ShapeOf m o) →
    ((∃ m', fillMixes v os m = (.ok (), m', os')) ↔ List.Forall₂ (FilledMix v m) os os') := by
  intro os
  induction os with
  | nil =>
    intro os' m _ _
    simp only [fillMixes, Prod.mk.injEq, true_and]
    exact ⟨fun ⟨_, _, h⟩ => h ▸ .nil, fun h => (by cases h; exact ⟨m, rfl, rfl⟩)⟩
  | cons o os ih =>
    intro os' m hn hs
    rw [List.map_cons, List.nodup_cons] at hn
    obtain ⟨hn1, hn2⟩ := hn
    have hs0 := hs o (List.mem_cons_self ..)
    have hs1 : ∀ x ∈ os, ShapeOf m x := fun x hx => hs x (List.mem_cons_of_mem _ hx)
    have hother : ∀ x ∈ os, x.body.id ≠ o.body.id := fun x hx he => hn1 (he ▸ List.mem_map_of_mem hx)
    cases hl : m.lookup o.body.id with
    | none =>
      unfold fillMixes
      rw [hl]
      simp only [Prod.mk.injEq]
      constructor
      · rintro ⟨m', h1, h2, rfl⟩
        exact .cons (.inl ⟨hl, rfl⟩) ((ih hn2 hs1).mp ⟨_, Prod.ext h1 rfl⟩)
      · intro h
        cases h with
        | cons p1 p2 =>
          obtain ⟨m', hm'⟩ := (ih hn2 hs1).mpr p2
          rcases p1 with ⟨-, rfl⟩ | ⟨xs, _, h1, -⟩
          · exact ⟨m', by rw [hm'], by rw [hm'], by rw [hm']⟩
          · rw [hl] at h1; cases h1
    | some xs =>
      have hshape := hs0 xs hl
      have hm : ∀ ss : List (List (MeasuredLayout Q S)), (∀ x ∈ os, ShapeOf (setMeasured o.body.id ss m) x) ∧
          ∀ os', List.Forall₂ (FilledMix v (setMeasured o.body.id ss m)) os os' ↔ List.Forall₂ (FilledMix v m) os os' := by
        intro ss
        refine ⟨fun x hx ys hys => hs1 x hx ys (by rw [← hys, lookup_set (hother x hx)]), ?_⟩
        have : ∀ l : List (Obu MixPresentation), (∀ x ∈ l, x.body.id ≠ o.body.id) → ∀ os',
            List.Forall₂ (FilledMix v (setMeasured o.body.id ss m)) l os' ↔ List.Forall₂ (FilledMix v m) l os' := by
          intro l
          induction l with
          | nil => intro _ os'; exact ⟨fun h => (by cases h; exact .nil), fun h => (by cases h; exact .nil)⟩
          | cons a l ih2 =>
            intro hl os'
            have ha : ∀ o', FilledMix v (setMeasured o.body.id ss m) a o' ↔ FilledMix v m a o' := by
              intro o'; unfold FilledMix; rw [lookup_set (hl a (List.mem_cons_self ..))]
            have ih3 := ih2 fun x hx => hl x (List.mem_cons_of_mem _ hx)
            constructor
            · intro h
              cases h with
              | cons p1 p2 => exact .cons ((ha _).mp p1) ((ih3 _).mp p2)
            · intro h
              cases h with
              | cons p1 p2 => exact .cons ((ha _).mpr p1) ((ih3 _).mpr p2)
        exact this os hother
      unfold fillMixes
      rw [hl]
      simp only
      constructor
      · rintro ⟨m', h⟩
        match hf : fillSubMixes v xs o.body.subMixes true with
        | (.error e, ys, subs) => rw [hf] at h; simp at h
        | (.ok false, ys, subs) => rw [hf] at h; simp at h
        | (.ok true, ys, subs) =>
          rw [hf] at h
          simp only [Prod.mk.injEq] at h
          obtain ⟨h1, h2, rfl⟩ := h
          obtain ⟨-, k2⟩ := (fillSubMixes_iff hshape).mp ⟨ys, hf⟩
          exact .cons (.inr ⟨xs, subs, hl, rfl, k2⟩) (((hm ys).2 _).mp ((ih hn2 (hm ys).1).mp ⟨_, Prod.ext h1 rfl⟩))
      · intro h
        cases h with
        | cons p1 p2 =>
          rcases p1 with ⟨h1, -⟩ | ⟨xs', subs, h1, rfl, h3⟩
          · rw [hl] at h1; cases h1
          · rw [hl] at h1
            cases h1
            obtain ⟨ys, hys⟩ := (fillSubMixes_iff hshape).mpr ⟨rfl, h3⟩
            obtain ⟨m', hm'⟩ := (ih hn2 (hm ys).1).mpr (((hm ys).2 _).mpr p2)
            exact ⟨m', by rw [hys]; simp only [hm']⟩

/-! ### Creation -/

private theorem bind_ok {α β : Type} {x : Except Err α} {f : α → Except Err β} {b : β} (h : (x >>= f) = .ok b) :
    ∃ a, x = .ok a ∧ f a = .ok b := by
  cases x with
  | error e => cases h
  | ok a => exact ⟨a, rfl, h⟩

private theorem collected {elements : List (UInt32 × ElementWithData)} : ∀ {l : List SubMixElement} {es : List (SubMixElement × ElementWithData)},
    collectElements elements l = .ok es → es.map Prod.fst = l ∧ ∀ x ∈ es, elements.lookup x.1.id = some x.2 := by
  intro l
  induction l with
  | nil => intro es h; cases h; exact ⟨rfl, fun x hx => (by cases hx)⟩
  | cons s l ih =>
    intro es h
    unfold collectElements at h
    split at h
    · cases h
    · rename_i e he
      obtain ⟨r, h1, h2⟩ := bind_ok h
      cases h2
      obtain ⟨i1, i2⟩ := ih h1
      refine ⟨by rw [List.map_cons, i1], fun x hx => ?_⟩
      rcases List.mem_cons.mp hx with rfl | hx'
      · exact he
      · exact i2 x hx'

private theorem codecs_of {es : List ElementWithData} {cs : List CodecObu}
    (h : (es.mapM fun e => match e.codec with | none => (.error .ub : Except Err CodecObu) | some c => .ok c) = .ok cs) :
    es.map (·.codec) = cs.map some := by
  induction es generalizing cs with
  | nil => rw [List.mapM_nil] at h; cases h; rfl
  | cons e es ih =>
    rw [List.mapM_cons] at h
    obtain ⟨c, h1, h2⟩ := bind_ok h
    obtain ⟨cs', h3, h4⟩ := bind_ok h2
    cases h4
    rw [List.map_cons, List.map_cons, ih h3]
    congr 1
    cases he : e.codec with
    | none => rw [he] at h1; cases h1
    | some c' => rw [he] at h1; cases h1; rfl

private theorem filtered {es : List ElementWithData} : ∀ {cs : List CodecObu}, es.map (·.codec) = cs.map some → es.filterMap (·.codec) = cs := by
  induction es with
  | nil => intro cs h; cases cs with
    | nil => rfl
    | cons _ _ => cases h
  | cons e es ih =>
    intro cs h
    cases cs with
    | nil => cases h
    | cons c cs =>
      rw [List.map_cons, List.map_cons] at h
      obtain ⟨h1, h2⟩ := List.cons.inj h
      rw [List.filterMap_cons, h1, ih h2]

private theorem in_common {elements : List (UInt32 × ElementWithData)} {s : SubMix} {es : List (SubMixElement × ElementWithData)} {p : UInt32 × UInt32}
    (h1 : collectElements elements s.elements = .ok es) (h2 : commonProperties (es.map (·.2)) = .ok p) :
    InCommon elements s es p.1 p.2 (commonDepth (es.map (·.2))) := by
  unfold commonProperties at h2
  obtain ⟨cs, k1, k2⟩ := bind_ok h2
  have hc := codecs_of k1
  have hmem : ∀ x ∈ es, ∃ c ∈ cs, x.2.codec = some c := by
    intro x hx
    have : x.2.codec ∈ cs.map some := hc ▸ List.mem_map_of_mem (f := fun y : ElementWithData => y.codec) (List.mem_map_of_mem (f := fun y : SubMixElement × ElementWithData => y.2) hx)
    obtain ⟨c, h3, h4⟩ := List.mem_map.mp this
    exact ⟨c, h3, h4.symm⟩
  have hback : ∀ c ∈ cs, ∃ x ∈ es, x.2.codec = some c := by
    intro c hcs
    have : some c ∈ (es.map (·.2)).map (·.codec) := hc ▸ List.mem_map_of_mem hcs
    obtain ⟨e, h3, h4⟩ := List.mem_map.mp this
    obtain ⟨x, h5, rfl⟩ := List.mem_map.mp h3
    exact ⟨x, h5, h4⟩
  have hfm : (es.map (·.2)).filterMap (·.codec) = cs := by
    exact filtered hc
  cases cs with
  | nil => cases k2
  | cons c cs =>
    simp only at k2
    split at k2
    · cases k2
    · rename_i hn
      split at k2
      · cases k2
      · rename_i hr
        cases k2
        refine ⟨collected h1, ?_, fun x hx => ?_, ?_⟩
        · rintro rfl; cases hc
        · obtain ⟨d, hd, hxd⟩ := hmem x hx
          refine ⟨d, hxd, ?_, ?_⟩
          · rcases List.mem_cons.mp hd with rfl | hd'
            · rfl
            · refine Decidable.byContradiction fun hcon => hr ?_
              exact List.any_eq_true.mpr ⟨d, hd', by simpa using hcon⟩
          · rcases List.mem_cons.mp hd with rfl | hd'
            · rfl
            · refine Decidable.byContradiction fun hcon => hn ?_
              exact List.any_eq_true.mpr ⟨d, hd', by simpa using hcon⟩
        · unfold commonDepth
          rw [hfm]
          simp only
          split
          · rename_i ha
            obtain ⟨d, hd, hne⟩ := List.any_eq_true.mp ha
            obtain ⟨x, hx, hxc⟩ := hback c (List.mem_cons_self ..)
            obtain ⟨y, hy, hyd⟩ := hback d (List.mem_cons_of_mem _ hd)
            exact .inr ⟨rfl, x, hx, y, hy, c, d, hxc, hyd, fun e => (by rw [e] at hne; simp at hne)⟩
          · rename_i ha
            refine .inl fun x hx => ?_
            obtain ⟨d, hd, hxd⟩ := hmem x hx
            refine ⟨d, hxd, ?_⟩
            rcases List.mem_cons.mp hd with rfl | hd'
            · rfl
            · refine Decidable.byContradiction fun hcon => ha ?_
              exact List.any_eq_true.mpr ⟨d, hd', by simpa using hcon⟩

private theorem null_cases {α : Type} {x : Except Err α} {r : Option α} (h : orNull x = .ok r) :
    (∃ e, x = .error e ∧ r = none) ∨ ∃ a, x = .ok a ∧ r = some a := by
  unfold orNull at h
  cases x with
  | ok a => cases h; exact .inr ⟨a, rfl, rfl⟩
  | error e =>
    refine .inl ⟨e, rfl, ?_⟩
    simp only at h
    split at h
    · cases h
    · cases h; rfl

private theorem created_layouts {E : RenderEnv} {t : TrimmingSettings} {id : UInt32} {s : SubMix} {es : List (SubMixElement × ElementWithData)}
    {rate frameSize : UInt32} {i : Nat} : ∀ {ls : List MixLayout} {j : Nat} {xs : List (MeasuredLayout Q S)},
    createMeasuredLayouts E t Q S id s es rate frameSize i j ls = .ok xs → xs.length = ls.length ∧
      ∀ k x, xs[k]? = some x → ∃ l, ls[k]? = some l ∧ createMeasured E t Q S id s es rate frameSize i (j + k) l = .ok x := by
  intro ls
  induction ls with
  | nil => intro j xs h; cases h; exact ⟨rfl, fun k x hx => (by simp at hx)⟩
  | cons l ls ih =>
    intro j xs h
    unfold createMeasuredLayouts at h
    obtain ⟨x, h1, h2⟩ := bind_ok h
    obtain ⟨xs', h3, h4⟩ := bind_ok h2
    cases h4
    obtain ⟨i1, i2⟩ := ih h3
    refine ⟨by simp [i1], fun k y hy => ?_⟩
    cases k with
    | zero => cases hy; exact ⟨l, rfl, h1⟩
    | succ k =>
      rw [List.getElem?_cons_succ] at hy
      obtain ⟨l', a, b⟩ := i2 k y hy
      exact ⟨l', by rw [List.getElem?_cons_succ, a], by rw [show j + (k + 1) = j + 1 + k by omega]; exact b⟩

private theorem prepared_of {E : RenderEnv} {t : TrimmingSettings} {elements : List (UInt32 × ElementWithData)} {m : MixPresentation} {i j : Nat}
    {s : SubMix} {l : MixLayout} {es : List (SubMixElement × ElementWithData)} {p : UInt32 × UInt32} {x : MeasuredLayout Q S}
    (hs : m.subMixes[i]? = some s) (hl : s.layouts[j]? = some l) (hc : InCommon elements s es p.1 p.2 (commonDepth (es.map (·.2))))
    (h : createMeasured E t Q S m.id s es p.1 p.2 i j l = .ok x) : PreparedLayout E t elements m i j x := by
  unfold createMeasured at h
  obtain ⟨r, h1, h2⟩ := bind_ok h
  rcases null_cases h1 with ⟨e, he, rfl⟩ | ⟨n, hn, rfl⟩
  · cases h2
    exact ⟨s, l, es, p.1, p.2, _, hs, hl, hc, rfl, .inl ⟨e, he, rfl, rfl, rfl⟩⟩
  · obtain ⟨r, h3, h4⟩ := bind_ok h2
    cases h4
    exact ⟨s, l, es, p.1, p.2, _, hs, hl, hc, rfl, .inr ⟨n, hn, h3, rfl, rfl⟩⟩

private theorem created_subMixes {E : RenderEnv} {t : TrimmingSettings} {elements : List (UInt32 × ElementWithData)} {id : UInt32} :
    ∀ {subs : List SubMix} {i : Nat} {xs : List (List (MeasuredLayout Q S))}, createMeasuredSubMixes E t Q S elements id i subs = .ok xs →
    List.Forall₂ (fun (x : List (MeasuredLayout Q S)) (s : SubMix) => x.length = s.layouts.length) xs subs ∧
    ∀ k x, xs[k]? = some x → ∃ s es, ∃ p : UInt32 × UInt32, subs[k]? = some s ∧ InCommon elements s es p.1 p.2 (commonDepth (es.map (·.2))) ∧
      createMeasuredLayouts E t Q S id s es p.1 p.2 (i + k) 0 s.layouts = .ok x := by
  intro subs
  induction subs with
  | nil => intro i xs h; cases h; exact ⟨.nil, fun k x hx => (by simp at hx)⟩
  | cons s subs ih =>
    intro i xs h
    unfold createMeasuredSubMixes at h
    obtain ⟨es, h1, h⟩ := bind_ok h
    obtain ⟨p, h2, h⟩ := bind_ok h
    obtain ⟨x, h3, h⟩ := bind_ok h
    obtain ⟨xs', h4, h⟩ := bind_ok h
    cases h
    obtain ⟨i1, i2⟩ := ih h4
    refine ⟨.cons (created_layouts h3).1 i1, fun k y hy => ?_⟩
    cases k with
    | zero => cases hy; exact ⟨s, es, p, rfl, in_common h1 h2, h3⟩
    | succ k =>
      rw [List.getElem?_cons_succ] at hy
      obtain ⟨s', es', p', a, b, c⟩ := i2 k y hy
      exact ⟨s', es', p', by rw [List.getElem?_cons_succ, a], b, by rw [show i + (k + 1) = i + 1 + k by omega]; exact c⟩

/-- The entries that are made for a mix presentation. -/
private def Made (E : RenderEnv) (t : TrimmingSettings) (elements : List (UInt32 × ElementWithData)) (m : MixPresentation)
    (xs : List (List (MeasuredLayout Q S))) : Prop :=
  List.Forall₂ (fun (x : List (MeasuredLayout Q S)) (s : SubMix) => x.length = s.layouts.length) xs m.subMixes ∧
  ∀ i j x, (xs[i]?.bind fun y => y[j]?) = some x → PreparedLayout E t elements m i j x

private theorem made_of {E : RenderEnv} {t : TrimmingSettings} {elements : List (UInt32 × ElementWithData)} {m : MixPresentation}
    {xs : List (List (MeasuredLayout Q S))} (h : createMeasuredSubMixes E t Q S elements m.id 0 m.subMixes = .ok xs) : Made E t elements m xs := by
  obtain ⟨h1, h2⟩ := created_subMixes h
  refine ⟨h1, fun i j x hx => ?_⟩
  cases hi : xs[i]? with
  | none => rw [hi] at hx; cases hx
  | some y =>
    rw [hi] at hx
    obtain ⟨s, es, p, a, b, c⟩ := h2 i y hi
    obtain ⟨l, d, e⟩ := (created_layouts c).2 j x hx
    rw [Nat.zero_add, Nat.zero_add] at e
    exact prepared_of a d b e

private theorem common_unique {elements : List (UInt32 × ElementWithData)} {s : SubMix} {es es' : List (SubMixElement × ElementWithData)}
    {r r' n n' : UInt32} {d d' : UInt8} (h : InCommon elements s es r n d) (h' : InCommon elements s es' r' n' d') :
    es = es' ∧ r = r' ∧ n = n' ∧ d = d' := by
  have hes : es = es' := by
    have : ∀ (l l' : List (SubMixElement × ElementWithData)), l.map Prod.fst = l'.map Prod.fst → (∀ x ∈ l, elements.lookup x.1.id = some x.2) →
        (∀ x ∈ l', elements.lookup x.1.id = some x.2) → l = l' := by
      intro l
      induction l with
      | nil => intro l' h1 _ _; cases l' with
        | nil => rfl
        | cons _ _ => cases h1
      | cons a l ih =>
        intro l' h1 h2 h3
        cases l' with
        | nil => cases h1
        | cons b l' =>
          obtain ⟨k1, k2⟩ := List.cons.inj h1
          have : a = b := by
            have ha := h2 a (List.mem_cons_self ..)
            have hb := h3 b (List.mem_cons_self ..)
            rw [k1] at ha
            rw [ha] at hb
            exact Prod.ext k1 (Option.some.inj hb)
          rw [this, ih l' k2 (fun x hx => h2 x (List.mem_cons_of_mem _ hx)) (fun x hx => h3 x (List.mem_cons_of_mem _ hx))]
    exact this es es' (h.elements.1.trans h'.elements.1.symm) h.elements.2 h'.elements.2
  subst hes
  obtain ⟨x, hx⟩ := List.exists_mem_of_ne_nil es h.some
  obtain ⟨c, c1, c2, c3⟩ := h.codecs x hx
  obtain ⟨c', c1', c2', c3'⟩ := h'.codecs x hx
  rw [c1] at c1'
  cases c1'
  refine ⟨rfl, by rw [← c2, c2'], by rw [← c3, c3'], ?_⟩
  have clash : ∀ d, (∀ x ∈ es, ∃ c, x.2.codec = some c ∧ c.bitDepth = d) →
      ¬ ∃ x ∈ es, ∃ y ∈ es, ∃ c d, x.2.codec = some c ∧ y.2.codec = some d ∧ c.bitDepth ≠ d.bitDepth := by
    rintro d hd ⟨x, hx, y, hy, a, b, h1, h2, h3⟩
    obtain ⟨a', k1, k2⟩ := hd x hx
    obtain ⟨b', k3, k4⟩ := hd y hy
    rw [h1] at k1
    rw [h2] at k3
    cases k1
    cases k3
    exact h3 (k2.trans k4.symm)
  rcases h.depth with a | ⟨a, a'⟩ <;> rcases h'.depth with b | ⟨b, b'⟩
  · obtain ⟨e, e1, e2⟩ := a x hx
    obtain ⟨e', e1', e2'⟩ := b x hx
    rw [e1] at e1'
    cases e1'
    rw [← e2, e2']
  · exact absurd b' (clash d a)
  · exact absurd a' (clash d' b)
  · rw [a, b]

private theorem prepared_unique {E : RenderEnv} {t : TrimmingSettings} {elements : List (UInt32 × ElementWithData)} {m : MixPresentation} {i j : Nat}
    {x y : MeasuredLayout Q S} (h : PreparedLayout E t elements m i j x) (h' : PreparedLayout E t elements m i j y) : x = y := by
  obtain ⟨s, l, es, r, n, d, h1, h2, h3, h4, h5⟩ := h
  obtain ⟨s', l', es', r', n', d', h1', h2', h3', h4', h5'⟩ := h'
  rw [h1] at h1'
  cases h1'
  rw [h2] at h2'
  cases h2'
  obtain ⟨rfl, rfl, rfl, rfl⟩ := common_unique h3 h3'
  obtain ⟨x1, x2, x3, x4⟩ := x
  obtain ⟨y1, y2, y3, y4⟩ := y
  rcases h5 with ⟨e, a1, a2, a3, a4⟩ | ⟨k, a1, a2, a3, a4⟩ <;> rcases h5' with ⟨e', b1, b2, b3, b4⟩ | ⟨k', b1, b2, b3, b4⟩ <;>
    rw [a1] at b1 <;> cases b1 <;> simp only at *
  · subst_vars; rfl
  · rw [a2] at b2
    cases b2
    subst_vars
    rfl

private theorem created_mixes {E : RenderEnv} {t : TrimmingSettings} {elements : List (UInt32 × ElementWithData)} : ∀ {os : List (Obu MixPresentation)}
    {m m' : Entries Q S}, createMeasuredMixes E t Q S elements os m = .ok m' → (os.map fun o => o.body.id).Nodup →
    (∀ o ∈ os, m.lookup o.body.id = none) → (m.map Prod.fst).Nodup →
    (m'.map Prod.fst).Nodup ∧ (∀ k, k ∉ os.map (fun o => o.body.id) → m'.lookup k = m.lookup k) ∧
    ∀ o ∈ os, ∃ xs, createMeasuredSubMixes E t Q S elements o.body.id 0 o.body.subMixes = .ok xs ∧
      m'.lookup o.body.id = if canRenderAny xs then some xs else none := by
  intro os
  induction os with
  | nil => intro m m' h _ _ hk; cases h; exact ⟨hk, fun _ _ => rfl, fun o ho => (by cases ho)⟩
  | cons o os ih =>
    intro m m' h hn hm hk
    unfold createMeasuredMixes at h
    obtain ⟨xs, h1, h2⟩ := bind_ok h
    rw [List.map_cons, List.nodup_cons] at hn
    obtain ⟨hn1, hn2⟩ := hn
    have hmo := hm o (List.mem_cons_self ..)
    have hother : ∀ x ∈ os, x.body.id ≠ o.body.id := fun x hx he => hn1 (he ▸ List.mem_map_of_mem (f := fun o : Obu MixPresentation => o.body.id) hx)
    have hlk : ∀ k, (if canRenderAny xs = true ∧ m.lookup o.body.id = none then m ++ [(o.body.id, xs)] else m).lookup k =
        if k = o.body.id then (if canRenderAny xs then some xs else none) else m.lookup k := by
      intro k
      by_cases hc : canRenderAny xs = true
      · rw [if_pos ⟨hc, hmo⟩, List.lookup_append, if_pos hc]
        by_cases hk' : k = o.body.id
        · subst hk'
          rw [hmo, if_pos rfl]
          simp [List.lookup]
        · rw [if_neg hk']
          have : List.lookup k [(o.body.id, xs)] = none := by simp [List.lookup, beq_eq_false_iff_ne.mpr hk']
          rw [this, Option.or_none]
      · rw [if_neg (fun h => hc h.1), if_neg hc]
        split
        · rename_i hk'; rw [hk', hmo]
        · rfl
    have hnd : ((if canRenderAny xs = true ∧ m.lookup o.body.id = none then m ++ [(o.body.id, xs)] else m).map Prod.fst).Nodup := by
      split
      · rw [List.map_append, List.nodup_append]
        refine ⟨hk, by simp, fun a ha b hb => ?_⟩
        simp only [List.map_cons, List.map_nil, List.mem_singleton] at hb
        subst hb
        rintro rfl
        obtain ⟨y, hy, he⟩ := List.mem_map.mp ha
        rw [List.lookup_eq_none_iff] at hmo
        have := hmo y hy
        rw [he] at this
        simp at this
      · exact hk
    obtain ⟨i1, i2, i3⟩ := ih h2 hn2 (fun x hx => by rw [hlk, if_neg (hother x hx)]; exact hm x (List.mem_cons_of_mem _ hx)) hnd
    refine ⟨i1, fun k hk' => ?_, fun x hx => ?_⟩
    · rw [List.map_cons, List.mem_cons, not_or] at hk'
      rw [i2 k hk'.2, hlk, if_neg hk'.1]
    · rcases List.mem_cons.mp hx with rfl | hx'
      · exact ⟨xs, h1, by rw [i2 _ hn1, hlk, if_pos rfl]⟩
      · exact i3 x hx'

private theorem lookup_perm {m m' : Entries Q S} (h : m'.Perm m) (hn : (m.map Prod.fst).Nodup) (k : UInt32) : m'.lookup k = m.lookup k := by
  induction h with
  | nil => rfl
  | cons a _ ih =>
    obtain ⟨i, x⟩ := a
    rw [List.map_cons, List.nodup_cons] at hn
    simp only [List.lookup, ih hn.2]
  | swap a b l =>
    obtain ⟨i, x⟩ := a
    obtain ⟨j, y⟩ := b
    simp only [List.map_cons, List.nodup_cons, List.mem_cons, not_or] at hn
    by_cases h1 : k = i
    · by_cases h2 : k = j
      · exact absurd (h2.symm.trans h1) (fun e => hn.1.1 (by first | exact e | exact e.symm))
      · simp only [List.lookup, beq_eq_false_iff_ne.mpr h2]
    · simp only [List.lookup, beq_eq_false_iff_ne.mpr h1]
  | trans h1 h2 ih1 ih2 => rw [ih1 ((h2.map _).nodup_iff.mpr hn), ih2 hn]

private theorem lookup_rel {P : MeasuredLayout Q S → MeasuredLayout Q S → Prop} {a b : Entries Q S} (h : EntriesRel P a b) (k : UInt32) :
    (a.lookup k = none ∧ b.lookup k = none) ∨ ∃ xs ys, a.lookup k = some xs ∧ b.lookup k = some ys ∧ List.Forall₂ (List.Forall₂ P) xs ys := by
  induction h with
  | nil => exact .inl ⟨rfl, rfl⟩
  | @cons x y l m h1 _ ih =>
    obtain ⟨i, x⟩ := x
    obtain ⟨j, y⟩ := y
    obtain ⟨rfl, h3⟩ := h1
    by_cases hk : k = i
    · subst hk
      exact .inr ⟨x, y, by simp [List.lookup], by simp [List.lookup], h3⟩
    · simp only [List.lookup, beq_eq_false_iff_ne.mpr hk]
      exact ih

private theorem forall₂_get {α β : Type} {P : α → β → Prop} {l : List α} {m : List β} (h : List.Forall₂ P l m) : ∀ (i : Nat) (a : α), l[i]? = some a →
    ∃ b, m[i]? = some b ∧ P a b := by
  induction h with
  | nil => intro i a ha; simp at ha
  | cons p _ ih =>
    intro i a ha
    cases i with
    | zero => cases ha; exact ⟨_, rfl, p⟩
    | succ i =>
      rw [List.getElem?_cons_succ] at ha
      obtain ⟨b, h1, h2⟩ := ih i a ha
      exact ⟨b, by rw [List.getElem?_cons_succ, h1], h2⟩

private theorem forall₂_get' {α β : Type} {P : α → β → Prop} {l : List α} {m : List β} (h : List.Forall₂ P l m) (i : Nat) (b : β) (hb : m[i]? = some b) :
    ∃ a, l[i]? = some a ∧ P a b := by
  induction h generalizing i with
  | nil => simp at hb
  | cons p _ ih =>
    cases i with
    | zero => cases hb; exact ⟨_, rfl, p⟩
    | succ i =>
      rw [List.getElem?_cons_succ] at hb
      obtain ⟨a, h1, h2⟩ := ih i hb
      exact ⟨a, by rw [List.getElem?_cons_succ, h1], h2⟩

private theorem filled_same {v : Bool} {g : MixLayout → MixLayout} (hg : g = fun l => ⟨l.layout, ⟨0, 0, 0, 0, [], []⟩⟩) : ∀ {xs : List (MeasuredLayout Q S)}
    {ls ls' : List MixLayout}, xs.length = ls.length →
    List.Forall₂ (fun (p : MeasuredLayout Q S × MixLayout) l' => Filled v p.1 p.2 l') (xs.zip ls) ls' → ls'.map g = ls.map g := by
  intro xs
  induction xs with
  | nil => intro ls ls' hl h; cases ls with
    | nil => cases h; rfl
    | cons _ _ => simp at hl
  | cons x xs ih =>
    intro ls ls' hl h
    cases ls with
    | nil => simp at hl
    | cons l ls =>
      rw [List.zip_cons_cons] at h
      cases h with
      | cons p1 p2 =>
        rw [List.map_cons, List.map_cons, ih (by simpa using hl) p2]
        congr 1
        subst hg
        rcases p1 with ⟨-, h⟩ | ⟨q, info, -, -, h, -⟩ <;> rw [h]

private theorem filled_subs {v : Bool} : ∀ {xs : List (List (MeasuredLayout Q S))} {ss ss' : List SubMix},
    List.Forall₂ (fun (x : List (MeasuredLayout Q S)) (s : SubMix) => x.length = s.layouts.length) xs ss →
    List.Forall₂ (fun (p : List (MeasuredLayout Q S) × SubMix) s' => FilledSub v p.1 p.2 s') (xs.zip ss) ss' →
    (ss'.map fun s => (⟨s.elements, s.outputMixGain, s.layouts.map fun l => ⟨l.layout, ⟨0, 0, 0, 0, [], []⟩⟩⟩ : SubMix)) =
      ss.map fun s => ⟨s.elements, s.outputMixGain, s.layouts.map fun l => ⟨l.layout, ⟨0, 0, 0, 0, [], []⟩⟩⟩ := by
  intro xs ss ss' h
  induction h generalizing ss' with
  | nil => intro h; cases h; rfl
  | cons h1 _ ih =>
    intro h
    rw [List.zip_cons_cons] at h
    cases h with
    | cons p1 p2 =>
      obtain ⟨a1, a2, a3⟩ := p1
      simp only at a1 a2 a3
      rw [List.map_cons, List.map_cons, ih p2, a1, a2, filled_same rfl h1 a3]

private theorem forall₂_mem {α β : Type} {P R : α → β → Prop} {l : List α} {m : List β} (hl : List.Forall₂ P l m) (h : ∀ a b, a ∈ l → P a b → R a b) :
    List.Forall₂ R l m := by
  induction hl with
  | nil => exact .nil
  | cons p _ ih => exact .cons (h _ _ (List.mem_cons_self ..) p) (ih fun a b ha => h a b (List.mem_cons_of_mem _ ha))

private theorem made_at {E : RenderEnv} {t : TrimmingSettings} {elements : List (UInt32 × ElementWithData)} {m : MixPresentation}
    {xs : List (List (MeasuredLayout Q S))} (h : Made E t elements m xs) {i j : Nat} {l : MixLayout} (hl : layoutAt m i j = some l) :
    ∃ y x, xs[i]? = some y ∧ y[j]? = some x ∧ PreparedLayout E t elements m i j x := by
  unfold layoutAt at hl
  cases hs : m.subMixes[i]? with
  | none => rw [hs] at hl; cases hl
  | some s =>
    rw [hs] at hl
    replace hl : s.layouts[j]? = some l := hl
    obtain ⟨y, hy, hlen⟩ := forall₂_get' h.1 i s hs
    have hj : j < y.length := by rw [hlen]; exact (List.getElem?_eq_some_iff.mp hl).1
    refine ⟨y, y[j], hy, List.getElem?_eq_getElem hj, h.2 i j _ ?_⟩
    rw [hy]
    exact List.getElem?_eq_getElem hj

private theorem renders_iff {E : RenderEnv} {t : TrimmingSettings} {elements : List (UInt32 × ElementWithData)} {m : MixPresentation}
    {xs : List (List (MeasuredLayout Q S))} (h : Made E t elements m xs) : canRenderAny xs = true ↔ SomeLayoutRenders E t Q S elements m := by
  unfold canRenderAny
  simp only [List.any_eq_true]
  constructor
  · rintro ⟨y, hy, x, hx, hr⟩
    obtain ⟨i, hi⟩ := List.getElem?_of_mem hy
    obtain ⟨j, hj⟩ := List.getElem?_of_mem hx
    exact ⟨i, j, x, h.2 i j x (by rw [hi]; exact hj), fun e => (by rw [e] at hr; cases hr)⟩
  · rintro ⟨i, j, x, hx, hr⟩
    have hx' := hx
    obtain ⟨s, l, -, -, -, -, h1, h2, -⟩ := hx
    obtain ⟨y, x', a, b, c⟩ := made_at h (show layoutAt m i j = some l by unfold layoutAt; rw [h1]; exact h2)
    rw [prepared_unique c hx'] at b
    refine ⟨y, List.mem_of_getElem? a, x, List.mem_of_getElem? b, ?_⟩
    cases hxr : x.renderer with
    | none => exact absurd hxr hr
    | some _ => rfl

/-! ### Uniqueness of what is measured -/

private theorem renderings_unique {M : GainMath Rat} {R R1 : LayoutRenderer} {us : List UnitToRender} {ss : List Rendered} (h : Renderings M R us ss R1) :
    ∀ {ss2 : List Rendered} {R2 : LayoutRenderer}, Renderings M R us ss2 R2 → ss2 = ss ∧ R2 = R1 := by
  induction h with
  | nil =>
    intro ss2 R2 h2
    generalize hw : ([] : List UnitToRender) = w at h2
    cases h2 with
    | nil => exact ⟨rfl, rfl⟩
    | snoc _ _ => simp at hw
  | @snoc R' R'' us ss u s h1 hr ih =>
    intro ss2 R2 h2
    generalize hw : us ++ [u] = w at h2
    cases h2 with
    | nil => simp at hw
    | snoc k1 k2 =>
      obtain ⟨e1, e2⟩ := List.append_inj' hw rfl
      cases e2
      subst e1
      obtain ⟨rfl, rfl⟩ := ih k1
      rw [hr] at k2
      cases k2
      exact ⟨rfl, rfl⟩

private theorem fed_unique {σ : Type} {take : σ → Rendered → Except Err Unit × σ} {a b : σ} {ss : List Rendered} (h : Fed take a ss b) :
    ∀ {c : σ}, Fed take a ss c → c = b := by
  induction h with
  | nil =>
    intro c h2
    generalize hw : ([] : List Rendered) = w at h2
    cases h2 with
    | nil => rfl
    | snoc _ _ => simp at hw
  | @snoc b d ss s h1 hr ih =>
    intro c h2
    generalize hw : ss ++ [s] = w at h2
    cases h2 with
    | nil => simp at hw
    | snoc k1 k2 =>
      obtain ⟨e1, e2⟩ := List.append_inj' hw rfl
      cases e2
      subst e1
      obtain rfl := ih k1
      rw [hr] at k2
      cases k2
      rfl

private theorem fedAny_unique {σ : Type} {take : σ → Rendered → Except Err Unit × σ} {a b c : Option σ} {ss : List Rendered} (h : FedIfAny take a ss b)
    (h' : FedIfAny take a ss c) : c = b := by
  rcases h with ⟨h1, rfl⟩ | ⟨x, y, h1, rfl, h3⟩ <;> rcases h' with ⟨k1, rfl⟩ | ⟨x', y', k1, rfl, k3⟩
  · rfl
  · rw [h1] at k1; cases k1
  · rw [h1] at k1; cases k1
  · rw [h1] at k1; cases k1; rw [fed_unique h3 k3]

private theorem after_unique {M : GainMath Rat} {us : List UnitToRender} {x y z : MeasuredLayout Q S} (h : AfterUnits M us x y) (h' : AfterUnits M us x z) :
    z = y := by
  rcases h with ⟨h1, rfl⟩ | ⟨R, R', ss, h1, h2, h3, h4, h5, h6⟩ <;> rcases h' with ⟨k1, rfl⟩ | ⟨T, T', ss', k1, k2, k3, k4, k5, k6⟩
  · rfl
  · rw [h1] at k1; cases k1
  · rw [h1] at k1; cases k1
  · rw [h1] at k1
    cases k1
    obtain ⟨rfl, rfl⟩ := renderings_unique h3 k3
    have e1 := fedAny_unique h4 k4
    have e2 := fedAny_unique h5 k5
    obtain ⟨y1, y2, y3, y4⟩ := y
    obtain ⟨z1, z2, z3, z4⟩ := z
    simp only at *
    rw [k2, h2, e1, e2, k6, h6]

/-- What comes after one more unit. -/
private theorem push_iff {M : GainMath Rat} {us : List UnitToRender} {u : UnitToRender} {x y : MeasuredLayout Q S} (h : AfterUnits M us x y) :
    (∃ z, y.push M u.frames (blockById u.blocks) = (.ok (), z)) ↔ ∃ z, AfterUnits M (us ++ [u]) x z := by
  refine ⟨fun ⟨z, hz⟩ => ⟨z, after_snoc h hz⟩, fun ⟨z, hz⟩ => ?_⟩
  unfold MeasuredLayout.push
  rcases h with ⟨h1, rfl⟩ | ⟨R, R', ss, h1, h2, h3, h4, h5, h6⟩
  · rw [h1]; exact ⟨_, rfl⟩
  · rcases hz with ⟨k1, -⟩ | ⟨T, T', ss', k1, k2, k3, k4, k5, k6⟩
    · rw [h1] at k1; cases k1
    · rw [h1] at k1
      cases k1
      generalize hw : us ++ [u] = w at k3
      cases k3 with
      | nil => simp at hw
      | @snoc T0 _ us' ss0 u' s l1 l2 =>
        obtain ⟨e1, e2⟩ := List.append_inj' hw rfl
        cases e2
        subst e1
        obtain ⟨rfl, rfl⟩ := renderings_unique h3 l1
        have last : ∀ {σ : Type} {take : σ → Rendered → Except Err Unit × σ} {a b c : Option σ}, FedIfAny take a ss0 b → FedIfAny take a (ss0 ++ [s]) c →
            feed take b s = (.ok (), c) := by
          intro σ take a b c hb hc
          rcases hb with ⟨b1, rfl⟩ | ⟨p, q, b1, rfl, b3⟩ <;> rcases hc with ⟨c1, rfl⟩ | ⟨p', q', c1, rfl, c3⟩
          · rfl
          · rw [b1] at c1; cases c1
          · rw [b1] at c1; cases c1
          · rw [b1] at c1
            cases c1
            generalize hw2 : ss0 ++ [s] = w2 at c3
            cases c3 with
            | nil => simp at hw2
            | snoc m1 m2 =>
              obtain ⟨e1, e2⟩ := List.append_inj' hw2 rfl
              cases e2
              subst e1
              obtain rfl := fed_unique b3 m1
              simp only [feed, m2]
        rw [h2]
        simp only [l2, last h4 k4, last h5 k5]
        exact ⟨_, rfl⟩

/-! ### Theorems -/

/-- A finalizer that can render: what the theorems are about. -/
structure NewFinalizer (E : RenderEnv) (t : TrimmingSettings) (elements : List (UInt32 × ElementWithData)) (obus : List (Obu MixPresentation))
    (f : Finalizer Q S) : Prop where
  created : ∃ shuffle : List (UInt32 × List (List (MeasuredLayout Q S))) → List (UInt32 × List (List (MeasuredLayout Q S))), (∀ l, (shuffle l).Perm l) ∧ Finalizer.create (some E) t Q S shuffle elements obus = .ok f
  ids : (obus.map fun o => o.body.id).Nodup

section
variable {E : RenderEnv} {t : TrimmingSettings} {M : GainMath Rat} {elements : List (UInt32 × ElementWithData)} {obus : List (Obu MixPresentation)}
  {f f1 f2 : Finalizer Q S} {us : List UnitToRender}

private theorem new_finalizer (h : NewFinalizer E t elements obus f) : f.phase = .accepting ∧ f.obus = obus ∧
    (∀ o ∈ obus, ∃ xs, Made E t elements o.body xs ∧ f.mixes.lookup o.body.id = if canRenderAny xs then some xs else none) ∧
    ∀ x ∈ f.mixes, ∃ o ∈ obus, x.1 = o.body.id ∧ f.mixes.lookup o.body.id = some x.2 := by
  obtain ⟨⟨shuffle, hsh, hc⟩, hn⟩ := h
  obtain ⟨m, h1, h2⟩ := bind_ok (show (createMeasuredMixes E t Q S elements obus [] >>= fun m => Except.ok (⟨shuffle m, obus, .accepting⟩ : Finalizer Q S)) = .ok f from hc)
  cases h2
  obtain ⟨k1, k2, k3⟩ := created_mixes h1 hn (fun _ _ => rfl) (by simp)
  have hlk := lookup_perm (hsh m) k1
  refine ⟨rfl, rfl, fun o ho => ?_, fun x hx => ?_⟩
  · obtain ⟨xs, a, b⟩ := k3 o ho
    exact ⟨xs, made_of a, by rw [hlk, b]⟩
  · have hxm : x ∈ m := (hsh m).mem_iff.mp hx
    have hlx : m.lookup x.1 = some x.2 := by
      clear * - hxm k1
      induction m with
      | nil => cases hxm
      | cons a m ih =>
        obtain ⟨i, y⟩ := a
        rw [List.map_cons, List.nodup_cons] at k1
        rcases List.mem_cons.mp hxm with rfl | hx'
        · simp [List.lookup]
        · have : x.1 ≠ i := fun e => k1.1 (by have h := List.mem_map_of_mem (f := Prod.fst) hx'; rw [e] at h; exact h)
          simp only [List.lookup, beq_eq_false_iff_ne.mpr this]
          exact ih k1.2 hx'
    have : x.1 ∈ obus.map fun o => o.body.id := by
      refine Decidable.byContradiction fun hcon => ?_
      rw [k2 x.1 hcon] at hlx
      cases hlx
    obtain ⟨o, ho, he⟩ := List.mem_map.mp this
    exact ⟨o, ho, he.symm, by rw [hlk, he, hlx]⟩

/-- The entries after some units. -/
private theorem entry_after (h : NewFinalizer E t elements obus f) (hp : Pushed M f us f1) {o : Obu MixPresentation} (ho : o ∈ obus) :
    ∃ xs, Made E t elements o.body xs ∧ ((canRenderAny xs = false ∧ f1.mixes.lookup o.body.id = none) ∨
      canRenderAny xs = true ∧ ∃ ys, f1.mixes.lookup o.body.id = some ys ∧ List.Forall₂ (List.Forall₂ (AfterUnits M us)) xs ys) := by
  obtain ⟨-, -, h3, -⟩ := new_finalizer h
  obtain ⟨k1, -, -⟩ := pushed_after hp
  obtain ⟨xs, h4, h5⟩ := h3 o ho
  refine ⟨xs, h4, ?_⟩
  rcases lookup_rel k1 o.body.id with ⟨a, b⟩ | ⟨xs', ys, a, b, c⟩
  · rw [h5] at a
    cases hc : canRenderAny xs with
    | false => exact .inl ⟨rfl, b⟩
    | true => rw [hc] at a; simp at a
  · rw [h5] at a
    cases hc : canRenderAny xs with
    | false => rw [hc] at a; simp at a
    | true => rw [hc] at a; cases a; exact .inr ⟨rfl, ys, b, c⟩

/-- **C54.** The samples of a layout are those of the post-processor, which got what was rendered, or if there is none what was rendered last. -/
theorem C54_samples_of_a_layout (h : NewFinalizer E t elements obus f) (hp : Pushed M f us f1) {o : Obu MixPresentation} (ho : o ∈ obus) {i j : Nat}
    {l : MixLayout} (hl : layoutAt o.body i j = some l) (hr : SomeLayoutRenders E t Q S elements o.body) :
    ∃ x y : MeasuredLayout Q S, PreparedLayout E t elements o.body i j x ∧ AfterUnits M us x y ∧
      f1.samples o.body.id i j = .ok (match y.post with | some p => S.output p | none => y.valid) := by
  obtain ⟨xs, h1, h2⟩ := entry_after h hp ho
  rcases h2 with ⟨h2, -⟩ | ⟨-, ys, h3, h4⟩
  · rw [(renders_iff h1).mpr hr] at h2; cases h2
  · obtain ⟨y, x, a, b, c⟩ := made_at h1 hl
    obtain ⟨y', a', d⟩ := forall₂_get h4 i y a
    obtain ⟨x', b', e⟩ := forall₂_get d j x b
    refine ⟨x, x', c, e, ?_⟩
    unfold Finalizer.samples
    rw [h3]
    simp only [a', b']
    cases x'.post <;> rfl

/-- **C54.** What has become of the post-processor of a layout when the last temporal unit has been announced. -/
theorem C54_post_processors_are_flushed (h : NewFinalizer E t elements obus f) (hp : Pushed M f us f1) (hf : f1.finish = (.ok (), f2)) {o : Obu MixPresentation} (ho : o ∈ obus)
    {i j : Nat} {l : MixLayout} (hl : layoutAt o.body i j = some l) (hr : SomeLayoutRenders E t Q S elements o.body) :
    ∃ x y z : MeasuredLayout Q S, PreparedLayout E t elements o.body i j x ∧ AfterUnits M us x y ∧
      ((f2.mixes.lookup o.body.id).bind fun subs => subs[i]?.bind fun s => s[j]?) = some z ∧
      ((y.post = none ∧ z.post = none) ∨ ∃ a b, y.post = some a ∧ z.post = some b ∧ S.flush a = (.ok (), b)) := by
  obtain ⟨xs, h1, h2⟩ := entry_after h hp ho
  have hrel : EntriesRel (fun x y => MeasuredLayout.flush x = (.ok (), y)) f1.mixes f2.mixes := by
    unfold Finalizer.finish at hf
    split at hf
    · simp only [Prod.mk.injEq] at hf
      obtain ⟨p1, rfl⟩ := hf
      exact pushed_each (g := MeasuredLayout.flush) (a := f1.mixes) (Prod.ext p1 rfl)
    · simp at hf
  rcases h2 with ⟨h2, -⟩ | ⟨-, ys, h3, h4⟩
  · rw [(renders_iff h1).mpr hr] at h2; cases h2
  · obtain ⟨y, x, a, b, c⟩ := made_at h1 hl
    obtain ⟨y', a', d⟩ := forall₂_get h4 i y a
    obtain ⟨x', b', e⟩ := forall₂_get d j x b
    rcases lookup_rel hrel o.body.id with ⟨n, -⟩ | ⟨ys', zs, n, m, r⟩
    · rw [h3] at n; cases n
    · rw [h3] at n
      cases n
      obtain ⟨z', a'', d'⟩ := forall₂_get r i y' a'
      obtain ⟨z, b'', e'⟩ := forall₂_get d' j x' b'
      refine ⟨x, x', z, c, e, by rw [m]; simp only [Option.bind_some, a'', b''], ?_⟩
      unfold MeasuredLayout.flush at e'
      split at e'
      · next hn =>
        simp only [Prod.mk.injEq, true_and] at e'
        subst e'
        exact .inl ⟨hn, hn⟩
      · next q hn =>
        simp only [Prod.mk.injEq] at e'
        obtain ⟨e1, rfl⟩ := e'
        exact .inr ⟨q, _, hn, rfl, Prod.ext e1 rfl⟩

/-- **C54.** A temporal unit is taken just if its parameter blocks have its time and every layout that has a renderer can be rendered, measured
and post-processed with it. -/
theorem C54_which_units_are_taken (h : NewFinalizer E t elements obus f) (hp : Pushed M f us f1) (u : UnitToRender) :
    (∃ f2, f1.push M u = (.ok (), f2)) ↔ (∀ b ∈ u.blocks, b.start = u.start ∧ b.stop = u.stop) ∧
      ∀ o ∈ obus, SomeLayoutRenders E t Q S elements o.body → ∀ i j, ∀ x : MeasuredLayout Q S, PreparedLayout E t elements o.body i j x →
        ∃ y, AfterUnits M (us ++ [u]) x y := by
  obtain ⟨n1, n2, n3, n4⟩ := new_finalizer h
  obtain ⟨k1, k2, k3⟩ := pushed_after hp
  have hblocks : (u.blocks.any (fun b => b.start ≠ u.start ∨ b.stop ≠ u.stop)) = true ↔ ¬ ∀ b ∈ u.blocks, b.start = u.start ∧ b.stop = u.stop := by
    rw [List.any_eq_true]
    constructor
    · rintro ⟨b, hb, hne⟩ hall
      have := hall b hb
      simp only [this.1, this.2] at hne
      simp at hne
    · intro hne
      refine Decidable.byContradiction fun hcon => hne fun b hb => ?_
      refine Decidable.byContradiction fun hb2 => hcon ⟨b, hb, ?_⟩
      simp only [decide_eq_true_eq]
      by_cases h1 : b.start = u.start
      · exact .inr fun h2 => hb2 ⟨h1, h2⟩
      · exact .inl h1
  constructor
  · rintro ⟨f2, hf⟩
    refine ⟨?_, fun o ho hr i j x hx => ?_⟩
    · refine Decidable.byContradiction fun hcon => ?_
      unfold Finalizer.push at hf
      rw [if_neg (by rw [k3, n1]; simp), if_pos (hblocks.mpr hcon)] at hf
      simp at hf
    · obtain ⟨xs, h1, h2⟩ := entry_after h (.snoc hp hf) ho
      rcases h2 with ⟨h2, -⟩ | ⟨-, ys, h3, h4⟩
      · rw [(renders_iff h1).mpr hr] at h2; cases h2
      · have hx' := hx
        obtain ⟨s, l, -, -, -, -, l1, l2, -⟩ := hx'
        obtain ⟨y, x', a, b, c⟩ := made_at h1 (show layoutAt o.body i j = some l by unfold layoutAt; rw [l1]; exact l2)
        rw [prepared_unique c hx] at b
        obtain ⟨y', a', d⟩ := forall₂_get h4 i y a
        obtain ⟨x'', b', e⟩ := forall₂_get d j x b
        exact ⟨x'', e⟩
  · rintro ⟨hb, hall⟩
    unfold Finalizer.push
    rw [if_neg (by rw [k3, n1]; simp), if_neg (fun hc => hblocks.mp hc hb)]
    have each : ∀ {α : Type} {g : α → Except Err Unit × α} {l : List α}, (∀ a ∈ l, ∃ b, g a = (.ok (), b)) → ∃ l', pushEach g l = (.ok (), l') := by
      intro α g l
      induction l with
      | nil => intro _; exact ⟨[], rfl⟩
      | cons a l ih =>
        intro hg
        obtain ⟨b, hb⟩ := hg a (List.mem_cons_self ..)
        obtain ⟨l', hl'⟩ := ih fun x hx => hg x (List.mem_cons_of_mem _ hx)
        exact ⟨b :: l', by unfold pushEach; simp only [hb, hl']⟩
    obtain ⟨m, hm⟩ : ∃ m, pushEach (pushMeasured M u) f1.mixes = (.ok (), m) := by
      refine each fun z hz => ?_
      obtain ⟨n, hn⟩ := List.getElem?_of_mem hz
      obtain ⟨w, hw, w1, w2⟩ := forall₂_get' k1 n z hn
      obtain ⟨o, ho, e1, e2⟩ := n4 w (List.mem_of_getElem? hw)
      obtain ⟨xs, h1, h2⟩ := n3 o ho
      have hxs : canRenderAny xs = true ∧ xs = w.2 := by
        rw [e2] at h2
        cases hc : canRenderAny xs with
        | false => rw [hc] at h2; simp at h2
        | true => rw [hc] at h2; exact ⟨rfl, by simpa using h2.symm⟩
      have hr := (renders_iff h1).mp hxs.1
      rw [← hxs.2] at w2
      obtain ⟨ss, hss⟩ : ∃ ss, pushEach (pushEach (MeasuredLayout.push M u.frames (blockById u.blocks))) z.2 = (.ok (), ss) := by
        refine each fun a ha => each fun x' hx' => ?_
        obtain ⟨i, hi⟩ := List.getElem?_of_mem ha
        obtain ⟨y, hy, hya⟩ := forall₂_get' w2 i a hi
        obtain ⟨j, hj⟩ := List.getElem?_of_mem hx'
        obtain ⟨x, hxj, hxx⟩ := forall₂_get' hya j x' hj
        exact (push_iff hxx).mpr (hall o ho hr i j x (h1.2 i j x (by rw [hy]; exact hxj)))
      exact ⟨(z.1, ss), by unfold pushMeasured; rw [hss]⟩
    rw [hm]
    exact ⟨_, rfl⟩

/-- **C54.** The final mix presentations are the original ones with the loudness that was measured; they are given just if all measurements
succeed and, if asked for, agree with what the user has given. -/
theorem C54_measured_loudness (h : NewFinalizer E t elements obus f) (hp : Pushed M f us f1) (hf : f1.finish = (.ok (), f2)) (validate : Bool) :
    (∀ ms f3, f2.get validate = (.ok ms, f3) → List.Forall₂ (FinalizedAs E t Q S M elements us validate) obus ms) ∧
    ((∃ ms f3, f2.get validate = (.ok ms, f3)) ↔ ∀ o ∈ obus, SomeLayoutRenders E t Q S elements o.body → ∀ i j l, ∀ x y : MeasuredLayout Q S,
      layoutAt o.body i j = some l → PreparedLayout E t elements o.body i j x → AfterUnits M us x y → ∀ q, y.meter = some q →
        ∃ info, Q.query q = .ok info ∧ (validate = true → AsMeasured info l.loudness)) := by
  obtain ⟨n1, n2, n3, n4⟩ := new_finalizer h
  obtain ⟨k1, k2, k3⟩ := pushed_after hp
  obtain ⟨g1, g2, g3⟩ := finish_after hf
  -- the entries at the end
  have hend : ∀ o ∈ obus, ∃ xs : List (List (MeasuredLayout Q S)), Made E t elements o.body xs ∧ ((canRenderAny xs = false ∧ f2.mixes.lookup o.body.id = none) ∨
      canRenderAny xs = true ∧ ∃ zs, f2.mixes.lookup o.body.id = some zs ∧
        List.Forall₂ (List.Forall₂ fun (x z : MeasuredLayout Q S) => ∃ y : MeasuredLayout Q S, AfterUnits M us x y ∧ z.meter = y.meter) xs zs) := by
    intro o ho
    obtain ⟨xs, h1, h2⟩ := entry_after h hp ho
    refine ⟨xs, h1, ?_⟩
    rcases h2 with ⟨h2, h3⟩ | ⟨h2, ys, h3, h4⟩
    · refine .inl ⟨h2, ?_⟩
      rcases lookup_rel g1 o.body.id with ⟨-, b⟩ | ⟨_, _, a, -⟩
      · exact b
      · rw [h3] at a; cases a
    · refine .inr ⟨h2, ?_⟩
      rcases lookup_rel g1 o.body.id with ⟨a, -⟩ | ⟨ys', zs, a, b, c⟩
      · rw [h3] at a; cases a
      · rw [h3] at a
        cases a
        refine ⟨zs, b, forall₂_comp (P := List.Forall₂ (AfterUnits M us)) (R := List.Forall₂ fun x y => y.renderer = x.renderer ∧ y.meter = x.meter)
          (T := List.Forall₂ fun (x z : MeasuredLayout Q S) => ∃ y : MeasuredLayout Q S, AfterUnits M us x y ∧ z.meter = y.meter) (fun _ _ _ p q => forall₂_comp (fun a b c k l => ⟨b, k, l.2⟩) p q) h4 c⟩
  have hobus : f2.obus = obus := by rw [g2, k2, n2]
  have hshape : ∀ o ∈ obus, ShapeOf f2.mixes o := by
    intro o ho zs hz
    obtain ⟨xs, h1, h2⟩ := hend o ho
    rcases h2 with ⟨-, h3⟩ | ⟨-, zs', h3, h4⟩
    · rw [h3] at hz; cases hz
    · rw [h3] at hz
      cases hz
      have hlen : List.Forall₂ (fun (x z : List (MeasuredLayout Q S)) => z.length = x.length) xs zs := forall₂_imp (fun _ _ p => (List.Forall₂.length_eq p).symm) h4
      exact shape_trans hlen h1.1
  have hget : ∀ ms f3, f2.get validate = (.ok ms, f3) ↔ ∃ m', fillMixes validate obus f2.mixes = (.ok (), m', ms) ∧ f3 = ⟨m', [], .flushed⟩ := by
    intro ms f3
    unfold Finalizer.get
    rw [g3, hobus]
    simp only
    match hm : fillMixes validate obus f2.mixes with
    | (.error e, m, os) => exact ⟨fun h => (by simp at h), fun ⟨_, h, _⟩ => (by simp at h)⟩
    | (.ok (), m, os) =>
      simp only [Prod.mk.injEq, Except.ok.injEq, true_and]
      exact ⟨fun ⟨a, b⟩ => ⟨m, ⟨rfl, a⟩, b.symm⟩, fun ⟨m', ⟨a, b⟩, c⟩ => ⟨b, by rw [c, a]⟩⟩
  refine ⟨fun ms f3 hg => ?_, ?_⟩
  · obtain ⟨m', hm, -⟩ := (hget ms f3).mp hg
    refine forall₂_mem ((fillMixes_iff h.ids hshape).mp ⟨m', hm⟩) fun o o' ho ho' => ?_
    obtain ⟨xs, h1, h2⟩ := hend o ho
    rcases ho' with ⟨a, rfl⟩ | ⟨zs, subs, a, rfl, b⟩
    · rcases h2 with ⟨h3, -⟩ | ⟨-, zs, h4, -⟩
      · refine ⟨⟨rfl, rfl, rfl⟩, fun i j l l' hl hl' => ?_⟩
        obtain ⟨y, x, -, -, c⟩ := made_at h1 hl
        rw [hl] at hl'
        cases hl'
        refine ⟨x, c, fun _ => rfl, fun _ hr => ?_⟩
        rw [(renders_iff h1).mpr hr] at h3
        cases h3
      · rw [h4] at a; cases a
    · have hsh := hshape o ho zs a
      rcases h2 with ⟨-, h3⟩ | ⟨hc, zs', h4, h5⟩
      · rw [h3] at a; cases a
      · rw [h4] at a
        cases a
        refine ⟨⟨rfl, rfl, ?_⟩, fun i j l l' hl hl' => ?_⟩
        · unfold withoutLoudness MixPresentation.withSubMixes
          simp only
          rw [filled_subs hsh b]
        · obtain ⟨y, x, a1, a2, c⟩ := made_at h1 hl
          obtain ⟨z, b1, d⟩ := forall₂_get h5 i y a1
          obtain ⟨w, b2, w', e1, e2⟩ := forall₂_get d j x a2
          -- the layout as it was filled
          have hfill : Filled validate w l l' := by
            unfold layoutAt at hl hl'
            cases hs : o.body.subMixes[i]? with
            | none => rw [hs] at hl; cases hl
            | some s =>
              rw [hs] at hl
              obtain ⟨s', hs', -, -, q3⟩ := forall₂_get b i (z, s) (List.getElem?_zip_eq_some.mpr ⟨b1, hs⟩)
              have : (o.body.withSubMixes subs).subMixes[i]? = some s' := hs'
              rw [this] at hl'
              obtain ⟨l'', hl'', q⟩ := forall₂_get q3 j (w, l) (List.getElem?_zip_eq_some.mpr ⟨b2, hl⟩)
              have hl3 : s'.layouts[j]? = some l' := hl'
              rw [hl''] at hl3
              cases hl3
              exact q
          have hnone : x.meter = none → w.meter = none := by
            intro hx
            rw [e2]
            rcases e1 with ⟨-, rfl⟩ | ⟨_, _, _, -, -, -, p | ⟨_, _, p, -⟩, -⟩
            · exact hx
            · exact p.2
            · rw [hx] at p; cases p
          have hsome : x.meter ≠ none → w.meter ≠ none := by
            intro hx
            rw [e2]
            rcases e1 with ⟨-, rfl⟩ | ⟨_, _, _, -, -, -, p | ⟨_, _, -, p, -⟩, -⟩
            · exact hx
            · exact absurd p.1 hx
            · rw [p]; nofun
          refine ⟨x, c, fun hno => ?_, fun hx hr => ?_⟩
          · rcases hno with hno | hno
            · rcases hfill with ⟨-, q⟩ | ⟨q, info, q1, -⟩
              · exact q
              · rw [hnone hno] at q1; cases q1
            · exact absurd ((renders_iff h1).mp hc) hno
          · rcases hfill with ⟨q, -⟩ | ⟨q, info, q1, q2, q3, q4⟩
            · exact absurd q (hsome hx)
            · exact ⟨w', q, info, e1, by rw [← e2, q1], q2, by rw [q3], q4⟩
  · constructor
    · rintro ⟨ms, f3, hg⟩ o ho hr i j l x y hl hx hy q hq
      obtain ⟨m', hm, -⟩ := (hget ms f3).mp hg
      obtain ⟨n, hn⟩ := List.getElem?_of_mem ho
      obtain ⟨o', hn', ho'⟩ := forall₂_get ((fillMixes_iff h.ids hshape).mp ⟨m', hm⟩) n o hn
      obtain ⟨xs, h1, h2⟩ := hend o ho
      rcases h2 with ⟨h3, -⟩ | ⟨hc, zs', h4, h5⟩
      · rw [(renders_iff h1).mpr hr] at h3; cases h3
      · rcases ho' with ⟨a, -⟩ | ⟨zs, subs, a, rfl, b⟩
        · rw [h4] at a; cases a
        · rw [h4] at a
          cases a
          obtain ⟨y0, x0, a1, a2, c⟩ := made_at h1 hl
          obtain rfl := prepared_unique c hx
          obtain ⟨z, b1, d⟩ := forall₂_get h5 i y0 a1
          obtain ⟨w, b2, w', e1, e2⟩ := forall₂_get d j _ a2
          obtain rfl := after_unique e1 hy
          have hfill : ∃ l', Filled validate w l l' := by
            unfold layoutAt at hl
            cases hs : o.body.subMixes[i]? with
            | none => rw [hs] at hl; cases hl
            | some s =>
              rw [hs] at hl
              obtain ⟨s', hs', -, -, q3⟩ := forall₂_get b i (z, s) (List.getElem?_zip_eq_some.mpr ⟨b1, hs⟩)
              obtain ⟨l'', hl'', q⟩ := forall₂_get q3 j (w, l) (List.getElem?_zip_eq_some.mpr ⟨b2, hl⟩)
              exact ⟨l'', q⟩
          obtain ⟨l', ⟨p, -⟩ | ⟨q', info, p1, p2, -, p4⟩⟩ := hfill
          · rw [e2, hq] at p; cases p
          · rw [e2, hq] at p1
            cases p1
            exact ⟨info, p2, p4⟩
    · intro hall
      have hfills : ∀ o ∈ obus, ∃ o', FilledMix validate f2.mixes o o' := by
        intro o ho
        obtain ⟨xs, h1, h2⟩ := hend o ho
        rcases h2 with ⟨-, h3⟩ | ⟨hc, zs, h4, h5⟩
        · exact ⟨o, .inl ⟨h3, rfl⟩⟩
        · have hr := (renders_iff h1).mp hc
          have list : ∀ {α β : Type} {P : α → β → Prop} {l : List α}, (∀ (n : Nat) a, l[n]? = some a → ∃ b, P a b) → ∃ m, List.Forall₂ P l m := by
            intro α β P l
            induction l with
            | nil => intro _; exact ⟨[], .nil⟩
            | cons a l ih =>
              intro hp
              obtain ⟨b, hb⟩ := hp 0 a rfl
              obtain ⟨m, hm⟩ := ih fun n a ha => hp (n + 1) a (by rw [List.getElem?_cons_succ, ha])
              exact ⟨b :: m, .cons hb hm⟩
          obtain ⟨subs, hsubs⟩ : ∃ subs, List.Forall₂ (fun (p : List (MeasuredLayout Q S) × SubMix) s' => FilledSub validate p.1 p.2 s') (zs.zip o.body.subMixes) subs := by
            refine list fun i p hp => ?_
            obtain ⟨z, s⟩ := p
            obtain ⟨p1, p2⟩ := List.getElem?_zip_eq_some.mp hp
            obtain ⟨y, hy, hyz⟩ := forall₂_get' h5 i z p1
            obtain ⟨ls, hls⟩ : ∃ ls, List.Forall₂ (fun (p : MeasuredLayout Q S × MixLayout) l' => Filled validate p.1 p.2 l') (z.zip s.layouts) ls := by
              refine list fun j q hq => ?_
              obtain ⟨w, l⟩ := q
              obtain ⟨q1, q2⟩ := List.getElem?_zip_eq_some.mp hq
              obtain ⟨x, hx, v, e1, e2⟩ := forall₂_get' hyz j w q1
              cases hm : w.meter with
              | none => exact ⟨l, .inl ⟨hm, rfl⟩⟩
              | some qq =>
                obtain ⟨info, i1, i2⟩ := hall o ho hr i j l x v (by unfold layoutAt; rw [p2]; exact q2) (h1.2 i j x (by rw [hy]; exact hx)) e1 qq (by rw [← e2, hm])
                exact ⟨⟨l.layout, info⟩, .inr ⟨qq, info, hm, i1, rfl, i2⟩⟩
            exact ⟨⟨s.elements, s.outputMixGain, ls⟩, rfl, rfl, hls⟩
          exact ⟨_, .inr ⟨zs, subs, h4, rfl, hsubs⟩⟩
      obtain ⟨ms, hms⟩ : ∃ ms, List.Forall₂ (FilledMix validate f2.mixes) obus ms := by
        clear * - hfills
        induction obus with
        | nil => exact ⟨[], .nil⟩
        | cons o os ih =>
          obtain ⟨o', ho'⟩ := hfills o (List.mem_cons_self ..)
          obtain ⟨ms, hms⟩ := ih fun x hx => hfills x (List.mem_cons_of_mem _ hx)
          exact ⟨o' :: ms, .cons ho' hms⟩
      obtain ⟨m', hm'⟩ := (fillMixes_iff h.ids hshape).mpr hms
      exact ⟨ms, ⟨m', [], .flushed⟩, (hget _ _).mpr ⟨m', hm', rfl⟩⟩

end

end Iamf.Props
