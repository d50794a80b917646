import Verif.Props.SafeUnit
import Verif.Cli.Pipeline
import Verif.Props.GeneratorRun
/-
  For C52: rendering a temporal unit ends with a status or with samples, whatever was decoded.
-/
namespace Iamf.Props
open Iamf

private theorem except_bind_ok {α β : Type} {x : Except Err α} {f : α → Except Err β} {b : β} (h : (x >>= f) = .ok b) :
    ∃ a, x = .ok a ∧ f a = .ok b := by
  cases x with
  | error e => cases h
  | ok a => exact ⟨a, rfl, h⟩

/-- All channels have the same number of samples. -/
def EqualRows (x : Rendered) : Prop := ∃ n, ∀ c ∈ x, c.length = n

/-- Renderers that always report, and samples from before that are even. -/
def SafeLayout (L : LayoutRenderer) : Prop :=
  L.elements ≠ [] ∧ ∀ e ∈ L.elements, EqualRows e.last ∧ ∀ f, Reports (e.renderer.render L.frameSize.toNat L.trimming f) fun x => ∀ s ∈ x.1, s.length = x.2

def SafeMix (mix : Option (List (List LayoutState))) : Prop :=
  ∀ ss, mix = some ss → ∀ s ∈ ss, ∀ l ∈ s, ∀ L, l.renderer = some L → SafeLayout L

variable {M : GainMath Rat}

private theorem apply_safe {rate : UInt32} {blocks : UInt32 → Option BlockWithData} {p : ParamDef} {k : Nat} {x : Rendered}
    (hb : ∀ id b, blocks id = some b → BlockOk b) (hx : EqualRows x) :
    Reports (applyMixGain M rate blocks p k x) fun y => y.length = k ∧ EqualRows y := by
  unfold applyMixGain
  split
  · rfl
  · next hk =>
    obtain ⟨T, hT⟩ := hx
    have hhead : ∀ c ∈ x, c.length = (x.head?.getD []).length := by
      intro c hc
      cases x with
      | nil => cases hc
      | cons a x => simp only [List.head?_cons, Option.getD_some]; rw [hT c hc, hT a (by simp)]
    have hg := C40_gains_of_the_mix M rate blocks p (fun b h => hb _ b h) (x.head?.getD []).length
    change Reports ((mixGainsPerTick M rate blocks p (x.head?.getD []).length).bind fun g =>
      if x.any (fun c => c.length < (x.head?.getD []).length) then .error .ub
      else .ok (x.map fun c => List.zipWith (· * ·) (c.take (x.head?.getD []).length) g ++ c.drop (x.head?.getD []).length)) _
    cases hm : mixGainsPerTick M rate blocks p (x.head?.getD []).length with
    | error e => rw [hm] at hg; exact hg.1
    | ok g =>
      rw [hm] at hg
      have hlen := hg.1
      change Reports (if _ then _ else _) _
      rw [if_neg (by
        simp only [List.any_eq_true, decide_eq_true_eq, not_exists, not_and]
        intro c hc
        rw [hhead c hc]; omega)]
      refine ⟨by simpa using hk, (x.head?.getD []).length, fun c hc => ?_⟩
      obtain ⟨c', hc', rfl⟩ := List.mem_map.mp hc
      simp only [List.length_append, List.length_zipWith, List.length_take, List.length_drop]
      have := hhead c' hc'
      omega

private theorem frame_safe {L : LayoutRenderer} {f : RenderFrame} {r : ElementRenderer} {last : Rendered}
    (hr : Reports (r.render L.frameSize.toNat L.trimming f) fun x => ∀ s ∈ x.1, s.length = x.2) :
    (∀ e, (renderFrameToLayout L.frameSize.toNat L.trimming f r last).1 = .error e → e.fatal = false) ∧
      EqualRows (renderFrameToLayout L.frameSize.toNat L.trimming f r last).2 := by
  have hempty : EqualRows (last.map fun _ => ([] : Samples)) := ⟨0, fun c hc => by
    obtain ⟨_, -, rfl⟩ := List.mem_map.mp hc; rfl⟩
  unfold renderFrameToLayout
  cases hx : r.render L.frameSize.toNat L.trimming f with
  | error e =>
    rw [hx] at hr
    exact ⟨fun e' he' => by cases he'; exact hr, hempty⟩
  | ok y =>
    obtain ⟨s, n⟩ := y
    rw [hx] at hr
    have hs : EqualRows s := ⟨n, hr⟩
    simp only
    split
    · exact ⟨fun e he => (by cases he; rfl), hempty⟩
    · split
      · exact ⟨fun e he => (by cases he; rfl), hs⟩
      · exact ⟨fun e he => (by cases he), hs⟩

private def started (L : LayoutRenderer) (frames : UInt32 → Option RenderFrame) (e : ElementMix) : Except Err Unit × Rendered :=
  match frames e.id with
  | none => (.ok (), e.last)
  | some f => renderFrameToLayout L.frameSize.toNat L.trimming f e.renderer e.last

private def gained (M : GainMath Rat) (L : LayoutRenderer) (blocks : UInt32 → Option BlockWithData) (e : ElementMix)
    (ws : Except Err Unit × Rendered) : Except Err Unit × Rendered :=
  match ws with
  | (.error x, s) => (.error x, s)
  | (.ok (), s) => match applyMixGain M L.rate blocks e.gain L.channels s with
    | .error x => (.error x, s)
    | .ok s => (.ok (), s)

private theorem element_split (L : LayoutRenderer) (frames : UInt32 → Option RenderFrame) (blocks : UInt32 → Option BlockWithData)
    (e : ElementMix) : renderElementMix M L frames blocks e = gained M L blocks e (started L frames e) := by
  unfold renderElementMix started gained
  cases frames e.id with
  | none => rfl
  | some f => rfl

private theorem element_safe {L : LayoutRenderer} {frames : UInt32 → Option RenderFrame} {blocks : UInt32 → Option BlockWithData}
    (hb : ∀ id b, blocks id = some b → BlockOk b) {e : ElementMix} (he : EqualRows e.last)
    (hr : ∀ f, Reports (e.renderer.render L.frameSize.toNat L.trimming f) fun x => ∀ s ∈ x.1, s.length = x.2) :
    (∀ x, (renderElementMix M L frames blocks e).1 = .error x → x.fatal = false) ∧ EqualRows (renderElementMix M L frames blocks e).2 ∧
      ((renderElementMix M L frames blocks e).1 = .ok () → (renderElementMix M L frames blocks e).2.length = L.channels) := by
  have h1 : ∃ w s, started L frames e = (w, s) ∧ (∀ x, w = .error x → x.fatal = false) ∧ EqualRows s := by
    unfold started
    cases frames e.id with
    | none => exact ⟨_, _, rfl, fun x hx => (by cases hx), he⟩
    | some f => exact ⟨_, _, rfl, frame_safe (hr f)⟩
  obtain ⟨w, s, h1, h2, h3⟩ := h1
  rw [element_split, h1]
  unfold gained
  cases w with
  | error x => exact ⟨fun y hy => by cases hy; exact h2 _ rfl, h3, fun h => (by cases h)⟩
  | ok _ =>
    simp only
    have ha := apply_safe (M := M) (rate := L.rate) (p := e.gain) (k := L.channels) hb h3
    cases hx : applyMixGain M L.rate blocks e.gain L.channels s with
    | error x => rw [hx] at ha; exact ⟨fun y hy => by cases hy; exact ha, h3, fun h => (by cases h)⟩
    | ok y => rw [hx] at ha; exact ⟨fun x hx => (by cases hx), ha.2, fun _ => ha.1⟩

private theorem elements_safe {L : LayoutRenderer} {frames : UInt32 → Option RenderFrame} {blocks : UInt32 → Option BlockWithData}
    (hb : ∀ id b, blocks id = some b → BlockOk b) : ∀ (es : List ElementMix),
    (∀ e ∈ es, EqualRows e.last ∧ ∀ f, Reports (e.renderer.render L.frameSize.toNat L.trimming f) fun x => ∀ s ∈ x.1, s.length = x.2) →
    (∀ x, (renderElementMixes M L frames blocks es).1 = .error x → x.fatal = false) ∧
    (∀ e ∈ (renderElementMixes M L frames blocks es).2,
      EqualRows e.last ∧ ∀ f, Reports (e.renderer.render L.frameSize.toNat L.trimming f) fun x => ∀ s ∈ x.1, s.length = x.2) ∧
    (renderElementMixes M L frames blocks es).2.length = es.length ∧
    ((renderElementMixes M L frames blocks es).1 = .ok () → ∀ e ∈ (renderElementMixes M L frames blocks es).2, e.last.length = L.channels) := by
  intro es
  induction es with
  | nil => intro _; exact ⟨fun x hx => (by cases hx), fun e he => (by cases he), rfl, fun _ e he => (by cases he)⟩
  | cons e es ih =>
    intro h
    obtain ⟨h1, h2, h3⟩ := element_safe (M := M) (L := L) (frames := frames) hb (h e (by simp)).1 (h e (by simp)).2
    obtain ⟨i1, i2, i3, i4⟩ := ih fun e' he' => h e' (by simp [he'])
    unfold renderElementMixes
    match hx : renderElementMix M L frames blocks e with
    | (.error x, s) =>
      rw [hx] at h1 h2
      refine ⟨fun y hy => by cases hy; exact h1 _ rfl, fun e' he' => ?_, rfl, fun hh => (by cases hh)⟩
      rcases List.mem_cons.mp he' with hm | hm
      · subst hm; exact ⟨h2, (h e (by simp)).2⟩
      · exact h e' (by simp [hm])
    | (.ok (), s) =>
      rw [hx] at h2 h3
      refine ⟨i1, fun e' he' => ?_, by simp only [List.length_cons, i3], fun hh e' he' => ?_⟩
      · rcases List.mem_cons.mp he' with hm | hm
        · subst hm; exact ⟨h2, (h e (by simp)).2⟩
        · exact i2 e' hm
      · rcases List.mem_cons.mp he' with hm | hm
        · subst hm; exact h3 rfl
        · exact i4 hh e' hm

private theorem add_even {k T : Nat} {a b : Rendered} (ha : a.length = k ∧ ∀ c ∈ a, c.length = T) (hb : b.length = k ∧ ∀ c ∈ b, c.length = T) :
    (addRendered a b).length = k ∧ ∀ c ∈ addRendered a b, c.length = T := by
  unfold addRendered
  refine ⟨by rw [List.length_zipWith, ha.1, hb.1]; omega, fun c hc => ?_⟩
  obtain ⟨i, hi, rfl⟩ := List.getElem_of_mem hc
  simp only [List.getElem_zipWith, List.length_zipWith]
  rw [ha.2 _ (List.getElem_mem _), hb.2 _ (List.getElem_mem _)]; omega

private theorem mix_safe {k : Nat} {xs : List Rendered} (hne : xs ≠ []) (hk : ∀ x ∈ xs, x.length = k) :
    Reports (mixElements k xs) EqualRows := by
  unfold mixElements
  obtain ⟨a, l, rfl⟩ := List.exists_cons_of_ne_nil hne
  change Reports (if k ≠ a.length then .error .abort
    else if (a :: l).any (fun e => e.length ≠ a.length ∨ e.any (fun c => c.length ≠ (a.head?.getD []).length)) then .error .invalidArgument
    else .ok ((a :: l).foldl addRendered (List.replicate k (List.replicate (a.head?.getD []).length 0)))) _
  rw [if_neg (by simpa using (hk a (by simp)).symm)]
  split
  · rfl
  · next hany =>
    have hall : ∀ x ∈ a :: l, x.length = k ∧ ∀ c ∈ x, c.length = (a.head?.getD []).length := by
      intro x hx
      refine ⟨hk x hx, fun c hc => ?_⟩
      refine Decidable.byContradiction fun hcon => hany ?_
      rw [List.any_eq_true]
      refine ⟨x, hx, ?_⟩
      simp only [decide_eq_true_eq]
      exact .inr (List.any_eq_true.mpr ⟨c, hc, by simpa using hcon⟩)
    have gen : ∀ (xs : List Rendered) (acc : Rendered), (acc.length = k ∧ ∀ c ∈ acc, c.length = (a.head?.getD []).length) →
        (∀ x ∈ xs, x.length = k ∧ ∀ c ∈ x, c.length = (a.head?.getD []).length) →
        ∀ c ∈ xs.foldl addRendered acc, c.length = (a.head?.getD []).length := by
      intro xs
      induction xs with
      | nil => intro acc h _; exact h.2
      | cons x xs ih => intro acc h h'; exact ih _ (add_even h (h' x (by simp))) fun y hy => h' y (by simp [hy])
    exact ⟨_, gen _ _ ⟨by simp, fun c hc => by rw [List.eq_of_mem_replicate hc]; simp⟩ hall⟩

private theorem layout_safe {L : LayoutRenderer} (h : SafeLayout L) {frames : UInt32 → Option RenderFrame}
    {blocks : UInt32 → Option BlockWithData} (hb : ∀ id b, blocks id = some b → BlockOk b) :
    (∀ x, (L.render M frames blocks).1 = .error x → x.fatal = false) ∧ SafeLayout (L.render M frames blocks).2 := by
  obtain ⟨h1, h2, h3, h4⟩ := elements_safe (M := M) (L := L) (frames := frames) hb L.elements h.2
  unfold LayoutRenderer.render
  match hx : renderElementMixes M L frames blocks L.elements with
  | (w, es) =>
    rw [hx] at h1 h2 h3 h4
    simp only at h1 h2 h3 h4
    have hes : es ≠ [] := by
      intro hn
      subst hn
      exact h.1 (List.length_eq_zero_iff.mp h3.symm)
    have hs : SafeLayout { L with elements := es } := ⟨hes, h2⟩
    cases w with
    | error e => exact ⟨fun x hx => by cases hx; exact h1 _ rfl, hs⟩
    | ok _ =>
      refine ⟨fun x hx => ?_, hs⟩
      have hm := mix_safe (k := L.channels) (xs := es.map (·.last)) (by simpa using hes) (by
        intro y hy
        obtain ⟨e, he, rfl⟩ := List.mem_map.mp hy
        exact h4 rfl e he)
      have : Reports (do
          let mixed ← mixElements L.channels (es.map (·.last))
          applyMixGain M L.rate blocks L.outputGain L.channels mixed) fun y => y.length = L.channels ∧ EqualRows y :=
        hm.bind fun y hy => apply_safe hb hy
      simp only at hx
      rw [hx] at this
      exact this

private theorem layouts_safe {frames : UInt32 → Option RenderFrame} {blocks : UInt32 → Option BlockWithData}
    (hb : ∀ id b, blocks id = some b → BlockOk b) : ∀ ls : List LayoutState, (∀ l ∈ ls, ∀ L, l.renderer = some L → SafeLayout L) →
    (∀ x, (renderLayouts M frames blocks ls).1 = .error x → x.fatal = false) ∧
      ∀ l ∈ (renderLayouts M frames blocks ls).2, ∀ L, l.renderer = some L → SafeLayout L := by
  intro ls
  induction ls with
  | nil => intro _; exact ⟨fun x hx => (by cases hx), fun l hl => (by cases hl)⟩
  | cons l ls ih =>
    intro h
    obtain ⟨i1, i2⟩ := ih fun l' hl' => h l' (by simp [hl'])
    unfold renderLayouts
    cases hr : l.renderer with
    | none =>
      simp only
      refine ⟨i1, fun l' hl' => ?_⟩
      rcases List.mem_cons.mp hl' with hm | hm
      · subst hm; exact h _ (by simp)
      · exact i2 l' hm
    | some R =>
      obtain ⟨h1, h2⟩ := layout_safe (M := M) (h l (by simp) R hr) (frames := frames) hb
      simp only
      match hx : R.render M frames blocks with
      | (.error e, R') =>
        rw [hx] at h1 h2
        refine ⟨fun x hx => by cases hx; exact h1 _ rfl, fun l' hl' => ?_⟩
        rcases List.mem_cons.mp hl' with hm | hm
        · subst hm; intro L hL; cases hL; exact h2
        · exact h l' (by simp [hm])
      | (.ok s, R') =>
        rw [hx] at h2
        refine ⟨i1, fun l' hl' => ?_⟩
        rcases List.mem_cons.mp hl' with hm | hm
        · subst hm; intro L hL; cases hL; exact h2
        · exact i2 l' hm

private theorem subMixes_safe {frames : UInt32 → Option RenderFrame} {blocks : UInt32 → Option BlockWithData}
    (hb : ∀ id b, blocks id = some b → BlockOk b) : ∀ ss : List (List LayoutState),
    (∀ s ∈ ss, ∀ l ∈ s, ∀ L, l.renderer = some L → SafeLayout L) →
    (∀ x, (renderSubMixes M frames blocks ss).1 = .error x → x.fatal = false) ∧
      ∀ s ∈ (renderSubMixes M frames blocks ss).2, ∀ l ∈ s, ∀ L, l.renderer = some L → SafeLayout L := by
  intro ss
  induction ss with
  | nil => intro _; exact ⟨fun x hx => (by cases hx), fun l hl => (by cases hl)⟩
  | cons s ss ih =>
    intro h
    obtain ⟨i1, i2⟩ := ih fun l' hl' => h l' (by simp [hl'])
    obtain ⟨h1, h2⟩ := layouts_safe (M := M) (frames := frames) hb s (h s (by simp))
    unfold renderSubMixes
    match hx : renderLayouts M frames blocks s with
    | (.error e, s') =>
      rw [hx] at h1 h2
      refine ⟨fun x hx => by cases hx; exact h1 _ rfl, fun l' hl' => ?_⟩
      rcases List.mem_cons.mp hl' with hm | hm
      · subst hm; exact h2
      · exact h l' (by simp [hm])
    | (.ok (), s') =>
      rw [hx] at h2
      refine ⟨i1, fun l' hl' => ?_⟩
      rcases List.mem_cons.mp hl' with hm | hm
      · subst hm; exact h2
      · exact i2 l' hm

private theorem push_safe {mix : Option (List (List LayoutState))} (h : SafeMix mix) {frames : UInt32 → Option RenderFrame} {start stop : Int}
    {blocks : List BlockWithData} (hb : ∀ b ∈ blocks, BlockOk b) :
    (∀ x, (pushRenderUnit M frames start stop blocks mix).1 = .error x → x.fatal = false) ∧
      SafeMix (pushRenderUnit M frames start stop blocks mix).2 := by
  unfold pushRenderUnit
  split
  · exact ⟨fun x hx => (by cases hx; rfl), h⟩
  · cases mix with
    | none => exact ⟨fun x hx => (by cases hx), h⟩
    | some ss =>
      have hb' : ∀ id b, blockById blocks id = some b → BlockOk b := fun id b hx =>
        hb b (by simpa using List.mem_of_find?_eq_some hx)
      obtain ⟨h1, h2⟩ := subMixes_safe (M := M) (frames := frames) hb' ss (h ss rfl)
      exact ⟨h1, fun ss' hss => by cases hss; exact h2⟩

/-! ### Decoding -/

/-- Codecs that never end the program. -/
def MildCodecs (C : Codecs) : Prop :=
  (∀ c n e, C.create c n = .error e → e.fatal = false) ∧ ∀ s bytes e, (C.decode s bytes).1 = .error e → e.fatal = false


private theorem mapM_safe {α β : Type} {f : α → Except Err β} {Q : β → Prop} : ∀ {l : List α}, (∀ a ∈ l, Reports (f a) Q) →
    Reports (l.mapM f) fun r => ∀ b ∈ r, Q b := by
  intro l
  induction l with
  | nil => intro _; exact fun b hb => (by cases hb)
  | cons a l ih =>
    intro h
    rw [List.mapM_cons]
    refine (h a (by simp)).bind fun b hb => (ih fun x hx => h x (by simp [hx])).bind fun r hr => ?_
    intro c hc
    rcases List.mem_cons.mp hc with hm | hm
    · subst hm; exact hb
    · exact hr c hm

private theorem any_reports {α : Type} {x : Except Err α} {Q : α → Prop} (h : ∀ e, x = .error e → e.fatal = false) (hq : ∀ a, x = .ok a → Q a) :
    Reports x Q := by
  cases x with
  | error e => exact h e rfl
  | ok a => exact hq a rfl

private theorem lpcm_safe (d : LpcmDecoder) (frame : List UInt8) : Reports (d.decode frame) fun _ => True := by
  unfold LpcmDecoder.decode
  split
  · rfl
  · split
    · rfl
    · refine (mapM_safe (Q := fun _ => True) fun c _ => (mapM_safe (Q := fun _ => True) fun t _ => ?_).mono fun _ _ => trivial).mono fun _ _ => trivial
      unfold LpcmDecoder.sample
      refine Reports.bind (Q := fun _ => True) ?_ fun _ _ => trivial
      split
      · unfold littleEndianToInt32; split
        · rfl
        · trivial
      · unfold bigEndianToInt32 littleEndianToInt32; split
        · rfl
        · trivial

variable {C : Codecs}

private theorem frames_decode (hC : MildCodecs C) {relevant : List UInt32} {start : Int} : ∀ (fs : List ProcFrame) (stop : Option Int)
    (ds : List (UInt32 × SubstreamDecoder C)) (e : Err), (decodeFrames relevant start fs stop ds).1 = .error e → e.fatal = false := by
  intro fs
  induction fs with
  | nil => intro _ _ e h; cases h
  | cons f fs ih =>
    intro stop ds e
    unfold decodeFrames
    split
    · have := ih stop ds
      match hx : decodeFrames relevant start fs stop ds with
      | (.error x, ds') => rw [hx] at this; intro h; cases h; exact this _ rfl
      | (.ok (r, st), ds') => intro h; cases h
    · dsimp only
      split
      · intro h; cases h; rfl
      · split
        · intro h; cases h; rfl
        · match hd : decodeFrame f ds with
          | (.error x, ds') =>
            simp only
            intro h
            cases h
            unfold decodeFrame at hd
            split at hd
            · cases hd; rfl
            · next d _ =>
              cases d with
              | lpcm l =>
                simp only [SubstreamDecoder.decode, Prod.mk.injEq] at hd
                have := lpcm_safe l f.frame.frame.audioFrame
                rw [hd.1] at this; exact this
              | other s =>
                simp only [SubstreamDecoder.decode, Prod.mk.injEq] at hd
                exact hC.2 _ _ _ hd.1
          | (.ok x, ds') =>
            simp only
            have := ih (some (stop.getD f.frame.stop)) ds'
            match hx : decodeFrames relevant start fs (some (stop.getD f.frame.stop)) ds' with
            | (.error x, ds') => rw [hx] at this; intro h; cases h; exact this _ rfl
            | (.ok (r, st), ds') => intro h; cases h

private theorem ticks_safe (l : List Samples) : Reports (commonTicks l) fun _ => True := by
  unfold commonTicks
  split
  · trivial
  · split
    · trivial
    · rfl

private theorem store_safe (sub : SubstreamLabels) (start : Int) : ∀ (as : List LabeledInput) (x : Option Nat) (f : LabeledFrame),
    Reports (storeLoop sub start as x f) fun _ => True := by
  intro as
  induction as with
  | nil => intro x f; trivial
  | cons a as ih =>
    intro x f
    unfold storeLoop
    split
    · exact ih _ _
    · split
      · rfl
      · split
        · rfl
        · split
          · rfl
          · refine (ticks_safe _).bind fun n _ => ?_
            split
            · split
              · rfl
              · exact ih _ _
            · exact ih _ _

private theorem findAll_safe (m : SamplesMap) : ∀ ls : List Label, Reports (findAll m ls) fun _ => True := by
  intro ls
  induction ls with
  | nil => trivial
  | cons l ls ih =>
    refine Reports.bind (Q := fun _ => True) ?_ fun _ _ => ih.bind fun _ _ => trivial
    unfold findSamples
    split
    · trivial
    · refine Reports.bind (Q := fun _ => True) ?_ fun d _ => ?_
      · cases l <;> first | trivial | rfl
      · split
        · trivial
        · rfl

private theorem demixers_safe (p : MixFactors) : ∀ (ds : List DemixOp) (m : SamplesMap), Reports (runDemixers p ds m) fun _ => True := by
  intro ds
  induction ds with
  | nil => intro m; trivial
  | cons d ds ih =>
    intro m
    refine Reports.bind (Q := fun _ => True) ?_ fun m' _ => ih m'
    unfold DemixOp.run
    split
    · rfl
    · exact (findAll_safe m _).bind fun ss _ => (ticks_safe ss).bind fun _ _ => trivial

private theorem demixAll_safe (fs : List DecodedFrame) : ∀ ds : List DemixEntry, Reports (demixAll fs ds) fun _ => True := by
  intro ds
  induction ds with
  | nil => trivial
  | cons d ds ih =>
    refine Reports.bind (Q := fun _ => True) ?_ fun r _ => ih.bind fun rs _ => ?_
    · unfold demixDecoded
      refine Reports.bind (Q := fun _ => True) ?_ fun r _ => ?_
      · unfold _root_.Iamf.demixElement
        refine Reports.bind (Q := fun _ => True) ?_ fun f _ => ?_
        · unfold storeSamples
          split
          · trivial
          · exact store_safe _ _ _ _ _
        · split
          · exact (demixers_safe _ _ _).bind fun _ _ => trivial
          · trivial
      · split
        · trivial
        · split <;> trivial
    · split <;> trivial

/-- Rendering a unit ends with samples or a status. -/
theorem renderUnit_safe (hC : MildCodecs C) (st : RenderingModels C) (h : SafeMix st.mix) (u : OutputUnit) (hu : ∀ b ∈ u.blocks, BlockOk b) :
    (∀ e, (renderUnit M st u).1 = .error e → e.fatal = false) ∧ SafeMix (renderUnit M st u).2.mix := by
  unfold renderUnit
  have hd := frames_decode hC (relevant := st.relevant) (start := u.timestamp) u.frames none st.decoders
  match hx : decodeFrames st.relevant u.timestamp u.frames none st.decoders with
  | (.error x, ds) => rw [hx] at hd; exact ⟨fun e he => by cases he; exact hd _ rfl, h⟩
  | (.ok (_, none), ds) => exact ⟨fun e he => (by cases he; rfl), h⟩
  | (.ok (fs, some stop), ds) =>
    simp only
    have hm := demixAll_safe fs st.demixing
    cases hy : demixAll fs st.demixing with
    | error x => rw [hy] at hm; exact ⟨fun e he => by cases he; exact hm, h⟩
    | ok frames =>
      simp only
      obtain ⟨h1, h2⟩ := push_safe (M := M) h (frames := fun id => frames.lookup id) (start := u.timestamp) (stop := stop) hu
      match hp : pushRenderUnit M (fun id => frames.lookup id) u.timestamp stop u.blocks st.mix with
      | (.error x, mix) => rw [hp] at h1 h2; exact ⟨fun e he => by cases he; exact h1 _ rfl, h2⟩
      | (.ok (), mix) =>
        rw [hp] at h2
        refine ⟨fun e he => ?_, h2⟩
        simp only at he
        unfold renderedSamples at he
        split at he
        · cases he; rfl
        · split at he
          · cases he; rfl
          · split at he
            · cases he; rfl
            · cases he

/-! ### Making the renderers -/

private theorem orNull_ok {α : Type} {x : Except Err α} {Q : α → Prop} (h : Reports x Q) :
    Reports (orNull x) fun y => ∀ a, y = some a → x = .ok a := by
  unfold orNull
  cases x with
  | error e =>
    have : e.fatal = false := h
    simp only [this]
    exact fun a ha => (by cases ha)
  | ok a => exact fun b hb => by cases hb; rfl

private theorem num_safe {d : Layout} (hd : HasSoundSystem d) : Reports (numChannelsFromLayout d) fun _ => True :=
  any_reports (fun e he => by
    unfold numChannelsFromLayout at he
    split at he
    · cases he
    · split at he
      · next h2 =>
        obtain ⟨s, r, hs⟩ := hd h2
        rw [hs] at he
        simp only at he
        split at he
        · cases he
        · cases he; rfl
      · cases he; rfl) fun _ _ => trivial

private theorem mixes_made {E : RenderEnv} (hE : GoodEnv E) {t : TrimmingSettings} {size : UInt32} {d : Layout} (hd : HasSoundSystem d) {n : Int}
    (hn : numChannelsFromLayout d = .ok n) : ∀ {es : List (SubMixElement × ElementWithData)},
    (∀ p ∈ es, SceneOk p.2.obu ∧ AllSound p.2.data.labels) →
    Reports (createElementMixes E d es) fun y => ∀ rs, y = some rs → rs.length = es.length ∧
      ∀ e ∈ rs, EqualRows e.last ∧ ∀ f, Reports (e.renderer.render size.toNat t f) fun x => ∀ s ∈ x.1, s.length = x.2 := by
  intro es
  induction es with
  | nil => intro _; intro rs hrs; cases hrs; exact ⟨rfl, fun e he => (by cases he)⟩
  | cons p es ih =>
    intro h
    obtain ⟨s, e⟩ := p
    obtain ⟨x, hx, hw⟩ := C39_made_renderers_work E hE e.obu (h (s, e) (by simp)).1 e.data.labels (h (s, e) (by simp)).2 s.rendering d hd n hn
    unfold createElementMixes
    rw [hx]
    cases x with
    | none => exact fun rs hrs => (by cases hrs)
    | some r =>
      simp only [bind, Except.bind]
      refine Reports.bind (ih fun p hp => h p (by simp [hp])) fun y hy => ?_
      cases y with
      | none => exact fun rs hrs => (by cases hrs)
      | some rs =>
        intro rs' hrs
        cases hrs
        obtain ⟨h1, h2⟩ := hy rs rfl
        refine ⟨by simp only [List.length_cons, h1], fun e' he' => ?_⟩
        rcases List.mem_cons.mp he' with hm | hm
        · subst hm
          exact ⟨⟨0, fun c hc => (by cases hc)⟩, fun f => (hw r rfl _ size.toNat_lt t f).mono fun _ ha => ha.2⟩
        · exact h2 e' hm

private theorem collected (elements : List (UInt32 × ElementWithData)) : ∀ l : List SubMixElement,
    Reports (collectElements elements l) fun r => ∀ p ∈ r, ∃ id, elements.lookup id = some p.2 := by
  intro l
  induction l with
  | nil => exact fun p hp => (by cases hp)
  | cons s l ih =>
    unfold collectElements
    split
    · rfl
    · next e he =>
      refine ih.bind fun r hr => ?_
      intro p hp
      rcases List.mem_cons.mp hp with hm | hm
      · subst hm; exact ⟨_, he⟩
      · exact hr p hm

/-- Making the renderers of a mix presentation ends with safe ones or a status. -/
theorem createMix_safe {E : RenderEnv} (hE : GoodEnv E) (t : TrimmingSettings) {elements : List (UInt32 × ElementWithData)}
    (hel : ElementsOk elements) {m : MixPresentation} (hm : ∀ s ∈ m.subMixes, ∀ l ∈ s.layouts, HasSoundSystem l.layout) :
    Reports (createMix E t elements m) SafeMix := by
  unfold createMix
  refine Reports.bind (mapM_safe (Q := fun s => ∀ l ∈ s, ∀ L, l.renderer = some L → SafeLayout L) fun s hs => ?_) fun ss hss => ?_
  · unfold createSubMix
    refine (collected elements s.elements).bind fun es hes => ?_
    have hok : ∀ p ∈ es, SceneOk p.2.obu ∧ AllSound p.2.data.labels ∧ p.2.codec.isSome := fun p hp =>
      let ⟨id, hid⟩ := hes p hp
      hel id _ hid
    refine Reports.bind (Q := fun _ => es ≠ []) ?_ fun rs hne => ?_
    · unfold commonProperties
      have : Reports ((es.map (·.2)).mapM fun e => match e.codec with
          | none => .error .ub
          | some c => .ok c) fun cs => cs ≠ [] → es ≠ [] := by
        refine any_reports (fun e he => ?_) fun cs hcs hne hnil => ?_
        · have := mapM_safe (Q := fun _ => True) (l := es.map (·.2)) (f := fun e => match e.codec with
            | none => (.error .ub : Except Err CodecObu)
            | some c => .ok c) fun e he => by
              obtain ⟨p, hp, rfl⟩ := List.mem_map.mp he
              obtain ⟨c, hc⟩ := Option.isSome_iff_exists.mp (hok p hp).2.2
              rw [hc]; trivial
          rw [he] at this; exact this
        · subst hnil
          simp only [List.map_nil, List.mapM_nil] at hcs
          cases hcs
          exact hne rfl
      refine this.bind fun cs hcs => ?_
      cases cs with
      | nil => rfl
      | cons c cs =>
        simp only
        split
        · rfl
        · split
          · rfl
          · exact hcs (by simp)
    · obtain ⟨rate, size⟩ := rs
      refine mapM_safe fun l hl => ?_
      refine Reports.bind (Q := fun y => ∀ L, y = some L → SafeLayout L) ?_ fun r hr => hr
      have hd := hm s hs l hl
      unfold createLayoutRenderer
      refine (orNull_ok (num_safe hd)).bind fun y hy => ?_
      cases y with
      | none => exact fun L hL => (by cases hL)
      | some n =>
        refine (mixes_made hE (t := t) (size := size) hd (hy n rfl) fun p hp => ⟨(hok p hp).1, (hok p hp).2.1⟩).bind fun z hz => ?_
        cases z with
        | none => exact fun L hL => (by cases hL)
        | some rs =>
          intro L hL
          cases hL
          obtain ⟨h1, h2⟩ := hz rs rfl
          refine ⟨fun hn => hne ?_, h2⟩
          simp only at hn
          rw [hn] at h1
          exact List.length_eq_zero_iff.mp h1.symm
  · split
    · intro ss' hss'; cases hss'; exact hss
    · intro ss' hss'; cases hss'

/-- What setting up the decoders needs. -/
def HasConfig (e : AudioElement) : Prop := e.elementType = 0 → ∃ c, e.config = .scalable c

private theorem decoders_safe (hC : MildCodecs C) (c : CodecObu) : ∀ (m : SubstreamLabels) (ds : List (UInt32 × SubstreamDecoder C)),
    Reports (initDecoders C c m ds) fun _ => True := by
  intro m
  induction m with
  | nil => intro ds; trivial
  | cons p m ih =>
    intro ds
    obtain ⟨id, labels⟩ := p
    unfold initDecoders
    split
    · rfl
    · refine Reports.bind (Q := fun _ => True) ?_ fun n _ => Reports.bind (Q := fun _ => True) ?_ fun d _ => ih _
      · unfold substreamChannelCount
        split
        · trivial
        · split
          · trivial
          · rfl
      · unfold createDecoder
        split
        · refine Reports.bind (Q := fun _ => True) ?_ fun _ _ => trivial
          unfold LpcmDecoder.create LpcmConfig.validate
          refine Reports.bind (Q := fun _ => True) ?_ fun _ _ => ?_
          · split
            · rfl
            · split
              · rfl
              · split
                · rfl
                · split
                  · rfl
                  · trivial
          · split
            · rfl
            · split
              · rfl
              · trivial
        · refine Reports.bind (Q := fun _ => True) (any_reports (fun e he => hC.1 _ _ e he) fun _ _ => trivial) fun _ _ => trivial

private theorem entry_safe {id : UInt32} {e : ElementWithData} (h : HasConfig e.obu) : Reports (createDemixEntry id e) fun _ => True := by
  unfold createDemixEntry
  refine Reports.bind (Q := fun _ => True) ?_ fun _ _ => trivial
  unfold elementLabelsToReconstruct
  split
  · next h0 =>
    obtain ⟨c, hc⟩ := h h0
    rw [hc]
    simp only
    unfold labelsToReconstruct
    split
    · rfl
    · split
      · split
        · rfl
        · trivial
      · unfold plainLayoutLabels
        split <;> first | trivial | rfl
  · split
    · trivial
    · rfl

private theorem elements_configured (hC : MildCodecs C) : ∀ (l : List (UInt32 × ElementWithData)) (m : RenderingModels C),
    (∀ p ∈ l, p.2.codec.isSome ∧ HasConfig p.2.obu) → Reports (configureElements C l m) fun _ => True := by
  intro l
  induction l with
  | nil => intro m _; trivial
  | cons p l ih =>
    intro m h
    obtain ⟨id, e⟩ := p
    obtain ⟨c, hc⟩ := Option.isSome_iff_exists.mp (h (id, e) (by simp)).1
    unfold configureElements
    rw [hc]
    exact (decoders_safe hC c _ _).bind fun _ _ => (entry_safe (h (id, e) (by simp)).2).bind fun _ _ => ih _ fun p hp => h p (by simp [hp])

/-- Setting up the decoding and rendering ends with a status or with what renders safely. -/
theorem configure_safe {E : RenderEnv} (hE : GoodEnv E) (hC : MildCodecs C) (t : TrimmingSettings)
    {elements : List (UInt32 × ElementWithData)} (hel : ElementsOk elements) (hcfg : ∀ p ∈ elements, p.2.codec.isSome ∧ HasConfig p.2.obu)
    {m : MixPresentation} (hm : ∀ s ∈ m.subMixes, ∀ l ∈ s.layouts, HasSoundSystem l.layout) :
    Reports (configurePipeline E C t elements m) fun st => SafeMix st.mix := by
  unfold configurePipeline
  exact (elements_configured hC _ _ fun p hp => hcfg p (List.mem_filter.mp hp).1).bind fun r _ =>
    (createMix_safe hE t hel hm).bind fun mix hmix => hmix

end Iamf.Props
