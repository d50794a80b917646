import Verif.Cli.MixRender
import Verif.Props.MixGain
import Verif.Props.Render
/-
  C40: what is played is the sum of the rendered audio elements, each with its gain, with the gain of the output.
-/
namespace Iamf.Props
open Iamf

/-! ### Specification -/

/-- The sample of a channel at a tick. -/
def sampleAt (x : Rendered) (c t : Nat) : Rat := ((x[c]?.getD [])[t]?).getD 0

/-- So many channels of so many samples. -/
def samplesFrom (channels ticks : Nat) (f : Nat → Nat → Rat) : Rendered :=
  (List.range channels).map fun c => (List.range ticks).map fun t => f c t

/-- The mix of rendered audio elements with their gains, one gain per tick: for every channel and tick, the gain of the output times the
sum over the audio elements of gain times sample. -/
def mixOf (channels ticks : Nat) (parts : List (Rendered × List Rat)) (output : List Rat) : Rendered :=
  samplesFrom channels ticks fun c t => output.getD t 0 * (parts.map fun p => p.2.getD t 0 * sampleAt p.1 c t).sum

/-- A parameter block that has data of the right kind for each of its subblocks. -/
def BlockOk (b : BlockWithData) : Prop :=
  ∃ (s : SubblockSchedule) (data : List ParamData), (b.obu.schedule = some s ∨ b.obu.schedule = none ∧ b.definition.base.schedule = some s) ∧ s.Made ∧
    data.length = s.numSubblocks.toNat ∧ b.obu.subblocks = data.map some ∧ (∀ d ∈ data, d.Matches b.definition.spec) ∧
    (b.definition.spec.type = 0 → ∃ g, b.definition.spec = .mixGain g)

/-- `v` is the gain of tick `t`, for a parameter of which `b` is the block of this temporal unit, if there is one: the value on the curve
that the tick is on, and the default if there is no block or if the tick is after its end.  (Bezier curves: if square roots are exact.) -/
def GainAt (M : GainMath Rat) (p : ParamDef) (b : Option BlockWithData) (t : Nat) (v : Rat) : Prop := match b with
  | none => v = M.linear (p.defaultMixGain.toInt / 256)
  | some b => ∃ (s : SubblockSchedule) (ds : List UInt32) (data : List MixGainData),
      (b.obu.schedule = some s ∨ b.obu.schedule = none ∧ b.definition.base.schedule = some s) ∧ SchedulesExactly s ds ∧
      data.length = ds.length ∧ b.obu.subblocks = data.map (fun d => some (.mixGain d)) ∧
      (s.duration.toNat ≤ t → v = M.linear (p.defaultMixGain.toInt / 256)) ∧
      ∀ (i n : Nat) (d : MixGainData) (k : UInt32), ds[i]? = some k → data[i]? = some d →
        t = ((ds.take i).map UInt32.toNat).sum + n → n < k.toNat →
        ∃ x, ((d.isBezier = true → IsRoot M.root) → OnCurve d k.toNat n x) ∧ v = M.linear x

/-- What an audio element gives in a temporal unit: its rendered samples, so many ticks, and its gains. -/
def Contributes (M : GainMath Rat) (L : LayoutRenderer) (frames : UInt32 → Option RenderFrame) (blocks : UInt32 → Option BlockWithData)
    (ticks : Nat) (e : ElementMix) (p : Rendered × List Rat) : Prop :=
  ∃ f, frames e.id = some f ∧ e.renderer.render L.frameSize.toNat L.trimming f = .ok (p.1, ticks) ∧ ticks ≤ L.frameSize.toNat ∧
    mixGainsPerTick M L.rate blocks e.gain ticks = .ok p.2

/-! ### Gains -/

private theorem except_bind_ok {α β : Type} {x : Except Err α} {f : α → Except Err β} {b : β} (h : (x >>= f) = .ok b) :
    ∃ a, x = .ok a ∧ f a = .ok b := by
  cases x with
  | error e => cases h
  | ok a => exact ⟨a, rfl, h⟩

private theorem block_gains (M : GainMath Rat) {b : BlockWithData} (hb : BlockOk b) (gains : List Rat) :
    (b.definition.spec.type ≠ 0 ∧ b.obu.linearMixGains M b.definition gains = .error .invalidArgument) ∨
    ∃ (s : SubblockSchedule) (ds : List UInt32) (data : List MixGainData) (out : List Rat),
      (b.obu.schedule = some s ∨ b.obu.schedule = none ∧ b.definition.base.schedule = some s) ∧ SchedulesExactly s ds ∧
      data.length = ds.length ∧ b.obu.subblocks = data.map (fun d => some (.mixGain d)) ∧
      b.obu.linearMixGains M b.definition gains = .ok out ∧ out.length = gains.length ∧
      ∀ (t : Nat) (ht : t < gains.length), (s.duration.toNat ≤ t → out[t]? = some gains[t]) ∧
        ∀ (i n : Nat) (hi : i < ds.length) (hd : i < data.length), t = ((ds.take i).map UInt32.toNat).sum + n → n < ds[i].toNat →
          ∃ x, ((data[i].isBezier = true → IsRoot M.root) → OnCurve data[i] ds[i].toNat n x) ∧ out[t]? = some (M.linear x) := by
  obtain ⟨s, data, hs, hm, hl, hsub, hmatch, hk⟩ := hb
  by_cases ht : b.definition.spec.type = 0
  · right
    obtain ⟨g, hg⟩ := hk ht
    obtain ⟨gs, rfl⟩ : ∃ gs : List MixGainData, data = gs.map .mixGain := by
      clear hl hsub
      induction data with
      | nil => exact ⟨[], rfl⟩
      | cons d data ih =>
        obtain ⟨gs, rfl⟩ := ih fun x hx => hmatch x (List.mem_cons_of_mem _ hx)
        have := hmatch d (List.mem_cons_self ..)
        rw [hg] at this
        cases d with
        | mixGain m => exact ⟨m :: gs, rfl⟩
        | _ => exact this.elim
    obtain ⟨ds, hds⟩ := made_schedules hm
    have hgl : gs.length = ds.length := by rw [List.length_map] at hl; exact hl.trans hds.1
    have hb' : b.obu.subblocks = gs.map (fun d => some (.mixGain d)) := by rw [hsub, List.map_map]; rfl
    obtain ⟨out, ho, hol, hall⟩ := C38_gain_of_every_tick M b.definition g hg b.obu s hs ds hds gs hgl hb' gains
    exact ⟨s, ds, gs, out, hs, hds, hgl, hb', ho, hol, fun t ht => ⟨(hall t ht).1, fun i n hi _ htn hn => (hall t ht).2 i n hi htn hn⟩⟩
  · left
    refine ⟨ht, ?_⟩
    unfold ParameterBlock.linearMixGains
    rw [if_pos (by simpa using ht)]

private theorem gains_report (M : GainMath Rat) (rate : UInt32) (blocks : UInt32 → Option BlockWithData) (p : ParamDef)
    (hb : ∀ b, blocks p.base.id = some b → BlockOk b) (ticks : Nat) :
    Reports (mixGainsPerTick M rate blocks p ticks) fun g => g.length = ticks ∧ p.base.rate = rate ∧
      ∀ t < ticks, ∃ v, g[t]? = some v ∧ GainAt M p (blocks p.base.id) t v := by
  unfold mixGainsPerTick
  split
  · rfl
  · rename_i hr
    simp only
    cases hx : blocks p.base.id with
    | none =>
      refine ⟨by simp, by simpa using hr, fun t ht => ⟨_, List.getElem?_replicate_of_lt ht, ?_⟩⟩
      simp only [GainAt, q78]
    | some b =>
      simp only
      rcases block_gains M (hb b hx) (List.replicate ticks (M.linear (q78 p.defaultMixGain))) with ⟨-, h⟩ |
        ⟨s, ds, data, out, h1, h2, h3, h4, h5, h6, h7⟩
      · rw [h]; rfl
      · rw [h5]
        refine ⟨by simpa using h6, by simpa using hr, fun t ht => ?_⟩
        have h8 := h7 t (by simpa using ht)
        have ho : t < out.length := by rw [h6]; simpa using ht
        refine ⟨out[t], List.getElem?_eq_getElem ho, s, ds, data, h1, h2, h3, h4, fun hd => ?_, fun i n d k hk hd htn hn => ?_⟩
        · have := h8.1 hd
          rw [List.getElem?_eq_getElem ho, List.getElem_replicate] at this
          simpa [q78] using this
        · obtain ⟨hi, rfl⟩ := List.getElem?_eq_some_iff.mp hk
          obtain ⟨hj, rfl⟩ := List.getElem?_eq_some_iff.mp hd
          obtain ⟨x, hx, hox⟩ := h8.2 i n hi hj htn hn
          rw [List.getElem?_eq_getElem ho] at hox
          exact ⟨x, hx, by simpa using hox⟩

/-! ### Grids of samples -/

/-- So many channels of so many samples. -/
private def Grid (channels ticks : Nat) (x : Rendered) : Prop := x.length = channels ∧ ∀ r ∈ x, r.length = ticks

private theorem grid_samples (channels ticks : Nat) (f : Nat → Nat → Rat) : Grid channels ticks (samplesFrom channels ticks f) := by
  refine ⟨by simp [samplesFrom], fun r hr => ?_⟩
  simp only [samplesFrom, List.mem_map] at hr
  obtain ⟨c, -, rfl⟩ := hr
  simp

private theorem sampleAt_samples {channels ticks : Nat} {f : Nat → Nat → Rat} {c t : Nat} (hc : c < channels) (ht : t < ticks) :
    sampleAt (samplesFrom channels ticks f) c t = f c t := by
  simp [sampleAt, samplesFrom, hc, ht]

private theorem grid_ext {channels ticks : Nat} {x y : Rendered} (hx : Grid channels ticks x) (hy : Grid channels ticks y)
    (h : ∀ c < channels, ∀ t < ticks, sampleAt x c t = sampleAt y c t) : x = y := by
  refine List.ext_getElem (hx.1.trans hy.1.symm) fun c hcx hcy => ?_
  have rx := hx.2 _ (List.getElem_mem hcx)
  have ry := hy.2 _ (List.getElem_mem hcy)
  refine List.ext_getElem (rx.trans ry.symm) fun t htx hty => ?_
  have := h c (by rw [← hx.1]; exact hcx) t (by rw [← rx]; exact htx)
  simpa [sampleAt, hcx, hcy, htx, hty] using this

private theorem samples_congr {channels ticks : Nat} {f g : Nat → Nat → Rat} (h : ∀ c < channels, ∀ t < ticks, f c t = g c t) :
    samplesFrom channels ticks f = samplesFrom channels ticks g :=
  grid_ext (grid_samples ..) (grid_samples ..) fun c hc t ht => by rw [sampleAt_samples hc ht, sampleAt_samples hc ht, h c hc t ht]

private theorem head_ticks {channels ticks : Nat} (h0 : 0 < channels) {x : Rendered} (hx : Grid channels ticks x) :
    (x.head?.getD []).length = ticks := by
  cases x with
  | nil => have := hx.1; simp only [List.length_nil] at this; omega
  | cons r x => exact hx.2 r (List.mem_cons_self ..)

/-- Applying gains to samples. -/
private def gained (channels ticks : Nat) (p : Rendered × List Rat) : Rendered :=
  samplesFrom channels ticks fun c t => p.2.getD t 0 * sampleAt p.1 c t

private theorem apply_spec (M : GainMath Rat) (rate : UInt32) (blocks : UInt32 → Option BlockWithData) (p : ParamDef)
    (hb : ∀ b, blocks p.base.id = some b → BlockOk b) {channels ticks : Nat} (h0 : 0 < channels) {x : Rendered}
    (hx : Grid channels ticks x) :
    applyMixGain M rate blocks p channels x = (do
      let g ← mixGainsPerTick M rate blocks p ticks
      .ok (gained channels ticks (x, g))) := by
  have hr := gains_report M rate blocks p hb ticks
  unfold applyMixGain
  rw [if_neg (by simpa using hx.1)]
  simp only [head_ticks h0 hx]
  cases hg : mixGainsPerTick M rate blocks p ticks with
  | error e => rfl
  | ok g =>
    rw [hg] at hr
    have hr : g.length = ticks := hr.1
    simp only [Bind.bind, Except.bind]
    rw [if_neg (by
      simp only [List.any_eq_true, decide_eq_true_eq, not_exists, not_and]
      intro r hr'
      rw [hx.2 r hr']
      omega)]
    have : (x.map fun c => List.zipWith (· * ·) (c.take ticks) g ++ c.drop ticks) = gained channels ticks (x, g) := by
      have e : ∀ r ∈ x, List.zipWith (· * ·) (r.take ticks) g ++ r.drop ticks = List.zipWith (· * ·) r g := by
        intro r hr'
        rw [List.take_of_length_le (by rw [hx.2 r hr']), List.drop_of_length_le (by rw [hx.2 r hr']), List.append_nil]
      rw [List.map_congr_left e]
      refine grid_ext ⟨by simpa using hx.1, fun r hr' => ?_⟩ (grid_samples ..) fun c hc t ht => ?_
      · simp only [List.mem_map] at hr'
        obtain ⟨r, h1, rfl⟩ := hr'
        simp [hx.2 r h1, hr]
      · unfold gained
        rw [sampleAt_samples hc ht]
        have hcx : c < x.length := by rw [hx.1]; exact hc
        have h1 : x[c].length = ticks := hx.2 _ (List.getElem_mem hcx)
        simp [sampleAt, hcx, List.getElem?_zipWith, h1, ht, hr]; rw [mul_comm]
    rw [this]

private theorem fold_rendered {channels ticks : Nat} (xs : List Rendered) (hxs : ∀ x ∈ xs, Grid channels ticks x) :
    ∀ acc, Grid channels ticks acc → xs.foldl addRendered acc =
      samplesFrom channels ticks fun c t => sampleAt acc c t + (xs.map fun x => sampleAt x c t).sum := by
  induction xs with
  | nil =>
    intro acc hacc
    refine grid_ext hacc (grid_samples ..) fun c hc t ht => ?_
    rw [sampleAt_samples hc ht]; simp
  | cons x xs ih =>
    intro acc hacc
    have hx := hxs x (List.mem_cons_self ..)
    have hadd : addRendered acc x = samplesFrom channels ticks fun c t => sampleAt acc c t + sampleAt x c t := by
      refine grid_ext ⟨by simp [addRendered, hx.1, hacc.1], fun r hr => ?_⟩ (grid_samples ..) fun c hc t ht => ?_
      · simp only [addRendered] at hr
        obtain ⟨i, hi, rfl⟩ := List.getElem_of_mem hr
        simp only [List.getElem_zipWith, List.length_zipWith]
        simp only [List.length_zipWith] at hi
        rw [hacc.2 _ (List.getElem_mem (by omega)), hx.2 _ (List.getElem_mem (by omega)), Nat.min_self]
      · rw [sampleAt_samples hc ht]
        have hcx : c < x.length := by rw [hx.1]; exact hc
        have hca : c < acc.length := by rw [hacc.1]; exact hc
        have h1 : x[c].length = ticks := hx.2 _ (List.getElem_mem hcx)
        have h2 : acc[c].length = ticks := hacc.2 _ (List.getElem_mem hca)
        simp [sampleAt, addRendered, List.getElem?_zipWith, hcx, hca, h1, h2, ht]
    rw [List.foldl_cons, hadd, ih (fun y hy => hxs y (List.mem_cons_of_mem _ hy)) _ (grid_samples ..)]
    refine samples_congr fun c hc t ht => ?_
    rw [sampleAt_samples hc ht, List.map_cons, List.sum_cons]
    ring

private theorem mix_spec {channels ticks : Nat} (h0 : 0 < channels) (xs : List Rendered) (hne : xs ≠ [])
    (hxs : ∀ x ∈ xs, Grid channels ticks x) :
    mixElements channels xs = .ok (samplesFrom channels ticks fun c t => (xs.map fun x => sampleAt x c t).sum) := by
  obtain ⟨x, xs, rfl⟩ : ∃ x ys, xs = x :: ys := by
    cases xs with
    | nil => exact absurd rfl hne
    | cons x xs => exact ⟨x, xs, rfl⟩
  have hx := hxs x (List.mem_cons_self ..)
  unfold mixElements
  simp only [List.head?_cons, Option.getD_some]
  have e : (x.head?.getD []).length = ticks := head_ticks h0 hx
  simp only [List.head?_eq_getElem?, List.head?_cons, Option.getD_some] at e ⊢
  rw [if_neg (by simpa using hx.1.symm), if_neg (by
    simp only [List.any_eq_true, decide_eq_true_eq, not_exists, not_and]
    rintro y hy (h | ⟨r, hr, h⟩)
    · exact h ((hxs y hy).1.trans hx.1.symm)
    · exact h (((hxs y hy).2 r hr).trans e.symm)), e]
  rw [fold_rendered (x :: xs) hxs _ ⟨by simp, fun r hr => by rw [(List.mem_replicate.mp hr).2]; simp⟩]
  refine congrArg _ (samples_congr fun c hc t ht => ?_)
  simp [sampleAt, hc, ht]

/-! ### One temporal unit -/

/-- The renderer of a layout is as it is made: all of its renderers give its channels. -/
def Ready (L : LayoutRenderer) : Prop :=
  0 < L.channels ∧ L.elements ≠ [] ∧ ∀ e ∈ L.elements, Works e.renderer (L.channels : Int)

/-- All audio elements of the mix have a frame. -/
def AllPresent (L : LayoutRenderer) (frames : UInt32 → Option RenderFrame) : Prop := ∀ e ∈ L.elements, (frames e.id).isSome

/-- The parameter blocks that the mix needs, if they are there, are complete. -/
def BlocksOk (L : LayoutRenderer) (blocks : UInt32 → Option BlockWithData) : Prop :=
  (∀ e ∈ L.elements, ∀ b, blocks e.gain.base.id = some b → BlockOk b) ∧ ∀ b, blocks L.outputGain.base.id = some b → BlockOk b

private theorem element_spec (M : GainMath Rat) (L : LayoutRenderer) (h0 : 0 < L.channels) (frames : UInt32 → Option RenderFrame)
    (blocks : UInt32 → Option BlockWithData) (e : ElementMix) (hw : Works e.renderer (L.channels : Int)) (hf : (frames e.id).isSome)
    (hb : ∀ b, blocks e.gain.base.id = some b → BlockOk b) :
    match renderElementMix M L frames blocks e with
    | (.ok (), s) => ∃ n p, Contributes M L frames blocks n e p ∧ Grid L.channels n p.1 ∧ s = gained L.channels n p
    | (.error x, _) => x.fatal = false ∧ ¬ ∃ n p, Contributes M L frames blocks n e p := by
  obtain ⟨f, hf⟩ := Option.isSome_iff_exists.mp hf
  have hwf := hw L.frameSize.toNat L.frameSize.toNat_lt L.trimming f
  unfold renderElementMix
  simp only [hf]
  unfold renderFrameToLayout
  cases hr : e.renderer.render L.frameSize.toNat L.trimming f with
  | error x =>
    rw [hr] at hwf
    refine ⟨hwf, ?_⟩
    rintro ⟨n, p, f', hf', h, -⟩
    rw [hf] at hf'
    cases hf'
    rw [hr] at h
    cases h
  | ok sn =>
    obtain ⟨s, n⟩ := sn
    rw [hr] at hwf
    obtain ⟨h1, h2⟩ : (s.length : Int) = L.channels ∧ ∀ r ∈ s, r.length = n := hwf
    have hgrid : Grid L.channels n s := ⟨by omega, h2⟩
    simp only
    by_cases hn : n > L.frameSize.toNat
    · rw [if_pos hn]
      refine ⟨rfl, ?_⟩
      rintro ⟨n', p, f', hf', h, hle, -⟩
      rw [hf] at hf'
      cases hf'
      rw [hr] at h
      cases h
      omega
    · rw [if_neg hn, if_neg (by
        rintro ⟨hn0, h⟩
        obtain ⟨r, hr', h⟩ := List.any_eq_true.mp h
        have := h2 r hr'
        rw [List.isEmpty_iff] at h
        subst h
        exact hn0 this.symm)]
      simp only
      rw [apply_spec M L.rate blocks e.gain hb h0 hgrid]
      have hg := gains_report M L.rate blocks e.gain hb n
      cases hx : mixGainsPerTick M L.rate blocks e.gain n with
      | error x =>
        rw [hx] at hg
        simp only [Bind.bind, Except.bind]
        refine ⟨hg, ?_⟩
        rintro ⟨n', p, f', hf', h, hle, h'⟩
        rw [hf] at hf'
        cases hf'
        rw [hr] at h
        cases h
        rw [hx] at h'
        cases h'
      | ok g =>
        simp only [Bind.bind, Except.bind]
        exact ⟨n, (s, g), ⟨f, hf, hr, by omega, hx⟩, hgrid, rfl⟩

/-- An element with what was rendered. -/
private def withLast (e : ElementMix) (s : Rendered) : ElementMix := { e with last := s }

/-- The fixed part of an element. -/
private def SameElement (a b : ElementMix) : Prop := a.id = b.id ∧ a.gain = b.gain ∧ a.renderer = b.renderer

private theorem elements_spec (M : GainMath Rat) (L : LayoutRenderer) (h0 : 0 < L.channels) (frames : UInt32 → Option RenderFrame)
    (blocks : UInt32 → Option BlockWithData) (es : List ElementMix) (hw : ∀ e ∈ es, Works e.renderer (L.channels : Int))
    (hf : ∀ e ∈ es, (frames e.id).isSome) (hb : ∀ e ∈ es, ∀ b, blocks e.gain.base.id = some b → BlockOk b) :
    match renderElementMixes M L frames blocks es with
    | (.ok (), es') => ∃ ps : List (Nat × Rendered × List Rat),
        List.Forall₂ (fun e p => Contributes M L frames blocks p.1 e p.2 ∧ Grid L.channels p.1 p.2.1) es ps ∧
        es'.map (·.last) = ps.map fun p => gained L.channels p.1 p.2
    | (.error x, _) => x.fatal = false ∧ ∃ e ∈ es, ¬ ∃ n p, Contributes M L frames blocks n e p := by
  induction es with
  | nil => exact ⟨[], .nil, rfl⟩
  | cons e es ih =>
    have h1 := element_spec M L h0 frames blocks e (hw e (List.mem_cons_self ..)) (hf e (List.mem_cons_self ..))
      (hb e (List.mem_cons_self ..))
    have h2 := ih (fun x hx => hw x (List.mem_cons_of_mem _ hx)) (fun x hx => hf x (List.mem_cons_of_mem _ hx))
      (fun x hx => hb x (List.mem_cons_of_mem _ hx))
    unfold renderElementMixes
    generalize renderElementMix M L frames blocks e = r at h1 ⊢
    obtain ⟨r, s⟩ := r
    cases r with
    | error x => exact ⟨h1.1, e, List.mem_cons_self .., h1.2⟩
    | ok u =>
      obtain ⟨n, p, c1, c2, rfl⟩ := h1
      simp only
      generalize renderElementMixes M L frames blocks es = q at h2 ⊢
      obtain ⟨q, es'⟩ := q
      cases q with
      | error x =>
        obtain ⟨h3, y, hy, h4⟩ := h2
        exact ⟨h3, y, List.mem_cons_of_mem _ hy, h4⟩
      | ok u =>
        obtain ⟨ps, h3, h4⟩ := h2
        exact ⟨(n, p) :: ps, .cons ⟨c1, c2⟩ h3, by simp [h4]⟩

private theorem contributes_unique {M : GainMath Rat} {L : LayoutRenderer} {frames : UInt32 → Option RenderFrame}
    {blocks : UInt32 → Option BlockWithData} {e : ElementMix} {n m : Nat} {p q : Rendered × List Rat}
    (h : Contributes M L frames blocks n e p) (h' : Contributes M L frames blocks m e q) : n = m ∧ p = q := by
  obtain ⟨f, h1, h2, -, h3⟩ := h
  obtain ⟨f', h1', h2', -, h3'⟩ := h'
  rw [h1] at h1'
  cases h1'
  rw [h2] at h2'
  simp only [Except.ok.injEq, Prod.mk.injEq] at h2'
  obtain ⟨h2', rfl⟩ := h2'
  rw [h3] at h3'
  exact ⟨rfl, Prod.ext h2' (by simpa using h3')⟩

/-- **C40 (the mix).** If every audio element of a mix has a frame, then what a temporal unit sounds like is, for every channel and tick,
the gain of the output times the sum over the audio elements of gain times rendered sample.  There is no result exactly if an audio
element cannot be rendered or has no gain, their frames differ in length, or there is no gain for the output; then a status says so.
What was rendered before does not matter. -/
theorem C40_the_mix (M : GainMath Rat) (L : LayoutRenderer) (hL : Ready L) (frames : UInt32 → Option RenderFrame)
    (hf : AllPresent L frames) (blocks : UInt32 → Option BlockWithData) (hb : BlocksOk L blocks) :
    match (L.render M frames blocks).1 with
    | .ok out => ∃ ticks parts output, List.Forall₂ (Contributes M L frames blocks ticks) L.elements parts ∧
        mixGainsPerTick M L.rate blocks L.outputGain ticks = .ok output ∧ out = mixOf L.channels ticks parts output
    | .error e => e.fatal = false ∧ ¬ ∃ ticks parts output, List.Forall₂ (Contributes M L frames blocks ticks) L.elements parts ∧
        mixGainsPerTick M L.rate blocks L.outputGain ticks = .ok output := by
  obtain ⟨h0, hne, hw⟩ := hL
  have hes := elements_spec M L h0 frames blocks L.elements hw hf hb.1
  unfold LayoutRenderer.render
  generalize renderElementMixes M L frames blocks L.elements = r at hes ⊢
  obtain ⟨r, es⟩ := r
  cases r with
  | error x =>
    obtain ⟨h1, e, he, h2⟩ := hes
    refine ⟨h1, ?_⟩
    rintro ⟨ticks, parts, -, h3, -⟩
    obtain ⟨i, hi, rfl⟩ := List.getElem_of_mem he
    exact h2 ⟨ticks, _, (List.forall₂_iff_get.mp h3).2 i hi (by rw [← h3.length_eq]; exact hi)⟩
  | ok u =>
    obtain ⟨ps, h1, h2⟩ := hes
    simp only
    rw [h2]
    have hps : ps ≠ [] := by
      rintro rfl
      have := h1.length_eq
      simp only [List.length_nil, List.length_eq_zero_iff] at this
      exact hne this
    by_cases hsame : ∃ ticks, ∀ p ∈ ps, p.1 = ticks
    · obtain ⟨ticks, hsame⟩ := hsame
      have hgrid : ∀ x ∈ ps.map (fun p => gained L.channels p.1 p.2), Grid L.channels ticks x := by
        intro x hx
        obtain ⟨p, hp, rfl⟩ := List.mem_map.mp hx
        rw [hsame p hp]
        exact grid_samples ..
      rw [mix_spec h0 _ (by simpa using hps) hgrid]
      simp only [Bind.bind, Except.bind]
      rw [apply_spec M L.rate blocks L.outputGain hb.2 h0 (grid_samples ..)]
      have hall : List.Forall₂ (Contributes M L frames blocks ticks) L.elements (ps.map (·.2)) := by
        rw [List.forall₂_map_right_iff]
        refine List.Forall₂.imp ?_ (List.forall₂_iff_get.mpr ⟨h1.length_eq, fun i hi hj => ?_⟩) (R := fun e p =>
          Contributes M L frames blocks ticks e p.2)
        · exact fun _ _ h => h
        · have := ((List.forall₂_iff_get.mp h1).2 i hi hj).1
          rwa [hsame _ (List.get_mem ..)] at this
      cases hx : mixGainsPerTick M L.rate blocks L.outputGain ticks with
      | error x =>
        have hg := gains_report M L.rate blocks L.outputGain hb.2 ticks
        rw [hx] at hg
        simp only [Bind.bind, Except.bind]
        refine ⟨hg, ?_⟩
        rintro ⟨t', parts, g, h3, h4⟩
        obtain ⟨e, he⟩ := List.exists_mem_of_ne_nil _ hne
        obtain ⟨i, hi, rfl⟩ := List.getElem_of_mem he
        have c1 := (List.forall₂_iff_get.mp h3).2 i hi (by rw [← h3.length_eq]; exact hi)
        have c2 := (List.forall₂_iff_get.mp hall).2 i hi (by rw [← hall.length_eq]; exact hi)
        obtain ⟨rfl, -⟩ := contributes_unique c1 c2
        rw [hx] at h4
        cases h4
      | ok g =>
        simp only [Bind.bind, Except.bind]
        refine ⟨ticks, _, g, hall, hx, ?_⟩
        unfold gained mixOf
        refine samples_congr fun c hc t ht => ?_
        simp only
        rw [sampleAt_samples hc ht, List.map_map, List.map_map]
        congr 2
        refine List.map_congr_left fun p hp => ?_
        simp only [Function.comp_apply, gained]
        rw [hsame p hp, sampleAt_samples hc ht]
    · have hbad : mixElements L.channels (ps.map fun p => gained L.channels p.1 p.2) = .error .invalidArgument := by
        obtain ⟨p, ps, rfl⟩ : ∃ x ys, ps = x :: ys := by
          cases ps with
          | nil => exact absurd rfl hps
          | cons x xs => exact ⟨x, xs, rfl⟩
        unfold mixElements
        have hg := grid_samples L.channels p.1 fun c t => p.2.2.getD t 0 * sampleAt p.2.1 c t
        have e := head_ticks h0 hg
        simp only [List.map_cons, List.head?_cons, Option.getD_some]
        rw [if_neg (by simp only [gained]; rw [hg.1]; simp), if_pos]
        simp only [List.any_eq_true, decide_eq_true_eq]
        refine Classical.byContradiction fun hno => hsame ⟨p.1, fun q hq => ?_⟩
        have hq' : gained L.channels q.1 q.2 ∈ gained L.channels p.1 p.2 :: ps.map (fun p => gained L.channels p.1 p.2) := by
          rcases List.mem_cons.mp hq with rfl | hq
          · exact List.mem_cons_self ..
          · exact List.mem_cons_of_mem _ (List.mem_map_of_mem hq)
        refine Classical.byContradiction fun hne' => hno ⟨_, hq', .inr ?_⟩
        have hgq := grid_samples L.channels q.1 fun c t => q.2.2.getD t 0 * sampleAt q.2.1 c t
        obtain ⟨r, hr⟩ : ∃ r, r ∈ gained L.channels q.1 q.2 := by
          apply List.exists_mem_of_ne_nil
          intro h
          have := hgq.1
          unfold gained at h
          rw [h] at this
          simp only [List.length_nil] at this
          omega
        refine ⟨r, hr, ?_⟩
        rw [hgq.2 r hr]
        unfold gained
        rw [e]
        exact hne'
      rw [hbad]
      refine ⟨rfl, ?_⟩
      rintro ⟨ticks, parts, g, h3, -⟩
      refine hsame ⟨ticks, fun p hp => ?_⟩
      obtain ⟨i, hi, rfl⟩ := List.getElem_of_mem hp
      have c1 := (List.forall₂_iff_get.mp h1).2 i (by rw [h1.length_eq]; exact hi) hi
      have c2 := (List.forall₂_iff_get.mp h3).2 i (by rw [h1.length_eq]; exact hi) (by rw [← h3.length_eq, h1.length_eq]; exact hi)
      exact (contributes_unique c1.1 c2).1

/-- **C40 (the gains of the mix).** The gains are one per tick: that on the curve of the parameter block of the temporal unit, or the
default.  There are none if the parameter has another rate than the audio, or if the block is not one of gains. -/
theorem C40_gains_of_the_mix (M : GainMath Rat) (rate : UInt32) (blocks : UInt32 → Option BlockWithData) (p : ParamDef)
    (hb : ∀ b, blocks p.base.id = some b → BlockOk b) (ticks : Nat) :
    match mixGainsPerTick M rate blocks p ticks with
    | .ok g => g.length = ticks ∧ p.base.rate = rate ∧ ∀ t < ticks, ∃ v, g[t]? = some v ∧ GainAt M p (blocks p.base.id) t v
    | .error e => e.fatal = false ∧
        (p.base.rate ≠ rate ∨ ∃ b, blocks p.base.id = some b ∧ b.definition.spec.type ≠ 0) := by
  have h := gains_report M rate blocks p hb ticks
  cases hx : mixGainsPerTick M rate blocks p ticks with
  | ok g => rw [hx] at h; exact h
  | error e =>
    rw [hx] at h
    refine ⟨h, ?_⟩
    unfold mixGainsPerTick at hx
    split at hx
    · exact .inl ‹_›
    · right
      simp only at hx
      cases hk : blocks p.base.id with
      | none => rw [hk] at hx; cases hx
      | some b =>
        rw [hk] at hx
        refine ⟨b, rfl, ?_⟩
        rcases block_gains M (hb b hk) (List.replicate ticks (M.linear (q78 p.defaultMixGain))) with ⟨h, -⟩ |
          ⟨s, ds, data, out, h1, h2, h3, h4, h5, -⟩
        · exact h
        · simp only [h5] at hx; cases hx

/-! ### A mix presentation -/

/-- Specification: the samples `out` are those of the sub-mix for the layout in a temporal unit.  Every audio element of the sub-mix is
rendered to the layout by the renderer for it, and they are mixed with the gains of the sub-mix. -/
def Sounds (M : GainMath Rat) (E : RenderEnv) (trimming : TrimmingSettings) (elements : List (UInt32 × ElementWithData))
    (frames : UInt32 → Option RenderFrame) (blocks : UInt32 → Option BlockWithData) (s : SubMix) (d : Layout) (out : Rendered) : Prop :=
  ∃ (channels : Int) (rate frameSize : UInt32) (ticks : Nat) (parts : List (Rendered × List Rat)) (output : List Rat),
    numChannelsFromLayout d = .ok channels ∧
    List.Forall₂ (fun (m : SubMixElement) p => ∃ e c r f, elements.lookup m.id = some e ∧ e.codec = some c ∧ c.outputRate = rate ∧
      c.config.numSamplesPerFrame = frameSize ∧ createRenderer E e.obu e.data.labels m.rendering d = .ok (some r) ∧
      frames m.id = some f ∧ r.render frameSize.toNat trimming f = .ok (p.1, ticks) ∧ ticks ≤ frameSize.toNat ∧
      mixGainsPerTick M rate blocks m.mixGain ticks = .ok p.2) s.elements parts ∧
    mixGainsPerTick M rate blocks s.outputMixGain ticks = .ok output ∧ out = mixOf channels.toNat ticks parts output

/-- Specification: the layout cannot be rendered: nobody knows its channels, or an audio element has no renderer for it. -/
def NoRenderer (E : RenderEnv) (elements : List (UInt32 × ElementWithData)) (s : SubMix) (d : Layout) : Prop :=
  (∃ e, numChannelsFromLayout d = .error e) ∨
  ∃ m ∈ s.elements, ∃ e, elements.lookup m.id = some e ∧ createRenderer E e.obu e.data.labels m.rendering d = .ok none

/-- The states that temporal units lead to, whether they could be rendered or not. -/
inductive Reached (M : GainMath Rat) (first : List (List LayoutState)) : List (List LayoutState) → Prop where
  | start : Reached M first first
  | push {ss ss' : List (List LayoutState)} (h : Reached M first ss) (frames : UInt32 → Option RenderFrame) (start stop : Int)
      (blocks : List BlockWithData) (h' : (pushRenderUnit M frames start stop blocks (some ss)).2 = some ss') : Reached M first ss'

/-- Audio elements and layouts as they are read or made. -/
def ElementsOk (elements : List (UInt32 × ElementWithData)) : Prop :=
  ∀ id e, elements.lookup id = some e → SceneOk e.obu ∧ AllSound e.data.labels ∧ e.codec.isSome

/-- Only what was rendered before may differ. -/
private def SameRenderer (a b : LayoutRenderer) : Prop :=
  List.Forall₂ SameElement a.elements b.elements ∧ a.outputGain = b.outputGain ∧ a.channels = b.channels ∧ a.rate = b.rate ∧
    a.frameSize = b.frameSize ∧ a.trimming = b.trimming

private def SameState (a b : LayoutState) : Prop := match a.renderer, b.renderer with
  | none, none => a.valid = b.valid
  | some x, some y => SameRenderer x y
  | _, _ => False

private theorem same_elements_refl (es : List ElementMix) : List.Forall₂ SameElement es es := by
  induction es with
  | nil => exact .nil
  | cons e es ih => exact .cons ⟨rfl, rfl, rfl⟩ ih

private theorem same_elements_trans {a b c : List ElementMix} (h : List.Forall₂ SameElement a b) (h' : List.Forall₂ SameElement b c) :
    List.Forall₂ SameElement a c := by
  induction h generalizing c with
  | nil => exact h'
  | cons h1 _ ih =>
    cases h' with
    | cons h2 h3 => exact .cons ⟨h1.1.trans h2.1, h1.2.1.trans h2.2.1, h1.2.2.trans h2.2.2⟩ (ih h3)

private theorem same_state_refl (a : LayoutState) : SameState a a := by
  unfold SameState
  cases a.renderer with
  | none => rfl
  | some x => exact ⟨same_elements_refl _, rfl, rfl, rfl, rfl, rfl⟩

private theorem same_state_trans {a b c : LayoutState} (h : SameState a b) (h' : SameState b c) : SameState a c := by
  unfold SameState at *
  cases ha : a.renderer <;> cases hb : b.renderer <;> cases hc : c.renderer <;> rw [ha, hb] at h <;> rw [hb, hc] at h' <;>
    first
    | exact h.elim
    | exact h'.elim
    | exact h.trans h'
    | exact ⟨same_elements_trans h.1 h'.1, h.2.1.trans h'.2.1, h.2.2.1.trans h'.2.2.1, h.2.2.2.1.trans h'.2.2.2.1,
        h.2.2.2.2.1.trans h'.2.2.2.2.1, h.2.2.2.2.2.trans h'.2.2.2.2.2⟩

private theorem element_mixes_same (M : GainMath Rat) (L : LayoutRenderer) (frames : UInt32 → Option RenderFrame)
    (blocks : UInt32 → Option BlockWithData) (es : List ElementMix) :
    List.Forall₂ SameElement es (renderElementMixes M L frames blocks es).2 := by
  induction es with
  | nil => exact .nil
  | cons e es ih =>
    unfold renderElementMixes
    generalize renderElementMix M L frames blocks e = r
    obtain ⟨r, s⟩ := r
    cases r with
    | error x => exact .cons ⟨rfl, rfl, rfl⟩ (same_elements_refl es)
    | ok u =>
      simp only
      exact .cons ⟨rfl, rfl, rfl⟩ ih

private theorem render_same (M : GainMath Rat) (L : LayoutRenderer) (frames : UInt32 → Option RenderFrame)
    (blocks : UInt32 → Option BlockWithData) : SameRenderer L (L.render M frames blocks).2 := by
  have := element_mixes_same M L frames blocks L.elements
  unfold LayoutRenderer.render
  generalize renderElementMixes M L frames blocks L.elements = r at this ⊢
  obtain ⟨r, es⟩ := r
  cases r <;> exact ⟨this, rfl, rfl, rfl, rfl, rfl⟩

private theorem layouts_refl (a : List LayoutState) : List.Forall₂ SameState a a := by
  induction a with
  | nil => exact .nil
  | cons l ls ih => exact .cons (same_state_refl l) ih

private theorem mixes_refl (a : List (List LayoutState)) : List.Forall₂ (List.Forall₂ SameState) a a := by
  induction a with
  | nil => exact .nil
  | cons l ls ih => exact .cons (layouts_refl l) ih

private theorem layouts_same (M : GainMath Rat) (frames : UInt32 → Option RenderFrame) (blocks : UInt32 → Option BlockWithData)
    (ls : List LayoutState) : List.Forall₂ SameState ls (renderLayouts M frames blocks ls).2 := by
  induction ls with
  | nil => exact .nil
  | cons l ls ih =>
    unfold renderLayouts
    cases hr : l.renderer with
    | none =>
      simp only
      exact .cons (same_state_refl l) ih
    | some R =>
      have := render_same M R frames blocks
      simp only
      generalize R.render M frames blocks = q at this ⊢
      obtain ⟨q, R'⟩ := q
      cases q with
      | error e =>
        refine .cons ?_ (layouts_refl ls)
        unfold SameState
        rw [hr]
        exact this
      | ok s =>
        simp only
        refine .cons ?_ ih
        unfold SameState
        rw [hr]
        exact this

private theorem sub_mixes_same (M : GainMath Rat) (frames : UInt32 → Option RenderFrame) (blocks : UInt32 → Option BlockWithData)
    (ss : List (List LayoutState)) : List.Forall₂ (List.Forall₂ SameState) ss (renderSubMixes M frames blocks ss).2 := by
  induction ss with
  | nil => exact .nil
  | cons s ss ih =>
    have := layouts_same M frames blocks s
    unfold renderSubMixes
    generalize renderLayouts M frames blocks s = q at this ⊢
    obtain ⟨q, s'⟩ := q
    cases q with
    | error e => exact .cons this (mixes_refl ss)
    | ok u =>
      simp only
      exact .cons this ih

private theorem forall₂_trans {α : Type} {R : α → α → Prop} (hR : ∀ a b c, R a b → R b c → R a c) {a b c : List α}
    (h : List.Forall₂ R a b) (h' : List.Forall₂ R b c) : List.Forall₂ R a c := by
  induction h generalizing c with
  | nil => exact h'
  | cons h1 _ ih =>
    cases h' with
    | cons h2 h3 => exact .cons (hR _ _ _ h1 h2) (ih h3)

private theorem reached_same {M : GainMath Rat} {first ss : List (List LayoutState)} (h : Reached M first ss) :
    List.Forall₂ (List.Forall₂ SameState) first ss := by
  induction h with
  | start => exact mixes_refl _
  | @push ss ss' _ frames start stop blocks h' ih =>
    refine forall₂_trans (R := List.Forall₂ SameState) (fun a b c => forall₂_trans (R := SameState) fun x y z => same_state_trans) ih ?_
    unfold pushRenderUnit at h'
    split at h'
    · simp only [Option.some.injEq] at h'
      subst h'
      exact mixes_refl _
    · simp only [Option.some.injEq] at h'
      subst h'
      exact sub_mixes_same ..

/-- What a successful temporal unit leaves. -/
private theorem layouts_ok (M : GainMath Rat) (frames : UInt32 → Option RenderFrame) (blocks : UInt32 → Option BlockWithData)
    (ls ls' : List LayoutState) (h : renderLayouts M frames blocks ls = (.ok (), ls')) :
    List.Forall₂ (fun a b => match a.renderer with
      | none => b = a
      | some R => (R.render M frames blocks).1 = .ok b.valid) ls ls' := by
  induction ls generalizing ls' with
  | nil => simp only [renderLayouts, Prod.mk.injEq, true_and] at h; subst h; exact .nil
  | cons l ls ih =>
    unfold renderLayouts at h
    cases hr : l.renderer with
    | none =>
      rw [hr] at h
      simp only at h
      generalize hq : renderLayouts M frames blocks ls = q at h
      obtain ⟨q, ls2⟩ := q
      simp only [Prod.mk.injEq] at h
      obtain ⟨rfl, rfl⟩ := h
      exact .cons (by rw [hr]) (ih _ hq)
    | some R =>
      rw [hr] at h
      simp only at h
      generalize hv : R.render M frames blocks = v at h
      obtain ⟨v, R'⟩ := v
      cases v with
      | error e => simp at h
      | ok s =>
        simp only at h
        generalize hq : renderLayouts M frames blocks ls = q at h
        obtain ⟨q, ls2⟩ := q
        simp only [Prod.mk.injEq] at h
        obtain ⟨rfl, rfl⟩ := h
        exact .cons (by rw [hr]; simp only [hv]) (ih _ hq)

private theorem sub_mixes_ok (M : GainMath Rat) (frames : UInt32 → Option RenderFrame) (blocks : UInt32 → Option BlockWithData)
    (ss ss' : List (List LayoutState)) (h : renderSubMixes M frames blocks ss = (.ok (), ss')) :
    List.Forall₂ (fun a b => renderLayouts M frames blocks a = (.ok (), b)) ss ss' := by
  induction ss generalizing ss' with
  | nil => simp only [renderSubMixes, Prod.mk.injEq, true_and] at h; subst h; exact .nil
  | cons s ss ih =>
    unfold renderSubMixes at h
    generalize hv : renderLayouts M frames blocks s = v at h
    obtain ⟨v, s'⟩ := v
    cases v with
    | error e => simp at h
    | ok u =>
      simp only at h
      generalize hq : renderSubMixes M frames blocks ss = q at h
      obtain ⟨q, ss2⟩ := q
      simp only [Prod.mk.injEq] at h
      obtain ⟨rfl, rfl⟩ := h
      exact .cons hv (ih _ hq)

/-- What a failing one had trouble with. -/
private theorem layouts_error (M : GainMath Rat) (frames : UInt32 → Option RenderFrame) (blocks : UInt32 → Option BlockWithData)
    (ls ls' : List LayoutState) (e : Err) (h : renderLayouts M frames blocks ls = (.error e, ls')) :
    ∃ (i : Nat) (l : LayoutState) (R : LayoutRenderer), ls[i]? = some l ∧ l.renderer = some R ∧ (R.render M frames blocks).1 = .error e := by
  induction ls generalizing ls' with
  | nil => simp [renderLayouts] at h
  | cons l ls ih =>
    unfold renderLayouts at h
    cases hr : l.renderer with
    | none =>
      rw [hr] at h
      simp only at h
      generalize hq : renderLayouts M frames blocks ls = q at h
      obtain ⟨q, ls2⟩ := q
      simp only [Prod.mk.injEq] at h
      obtain ⟨rfl, rfl⟩ := h
      obtain ⟨i, h⟩ := ih _ hq
      exact ⟨i + 1, h⟩
    | some R =>
      rw [hr] at h
      simp only at h
      generalize hv : R.render M frames blocks = v at h
      obtain ⟨v, R'⟩ := v
      cases v with
      | error e =>
        simp only [Prod.mk.injEq, Except.error.injEq] at h
        obtain ⟨rfl, -⟩ := h
        exact ⟨0, l, R, rfl, hr, by rw [hv]⟩
      | ok s =>
        simp only at h
        generalize hq : renderLayouts M frames blocks ls = q at h
        obtain ⟨q, ls2⟩ := q
        simp only [Prod.mk.injEq] at h
        obtain ⟨rfl, rfl⟩ := h
        obtain ⟨i, h⟩ := ih _ hq
        exact ⟨i + 1, h⟩

private theorem sub_mixes_error (M : GainMath Rat) (frames : UInt32 → Option RenderFrame) (blocks : UInt32 → Option BlockWithData)
    (ss ss' : List (List LayoutState)) (e : Err) (h : renderSubMixes M frames blocks ss = (.error e, ss')) :
    ∃ (i j : Nat) (s : List LayoutState) (l : LayoutState) (R : LayoutRenderer), ss[i]? = some s ∧ s[j]? = some l ∧
      l.renderer = some R ∧ (R.render M frames blocks).1 = .error e := by
  induction ss generalizing ss' with
  | nil => simp [renderSubMixes] at h
  | cons s ss ih =>
    unfold renderSubMixes at h
    generalize hv : renderLayouts M frames blocks s = v at h
    obtain ⟨v, s'⟩ := v
    cases v with
    | error x =>
      simp only [Prod.mk.injEq, Except.error.injEq] at h
      obtain ⟨rfl, -⟩ := h
      obtain ⟨j, l, R, h1, h2, h3⟩ := layouts_error M frames blocks s s' _ hv
      exact ⟨0, j, s, l, R, rfl, h1, h2, h3⟩
    | ok u =>
      simp only at h
      generalize hq : renderSubMixes M frames blocks ss = q at h
      obtain ⟨q, ss2⟩ := q
      simp only [Prod.mk.injEq] at h
      obtain ⟨rfl, rfl⟩ := h
      obtain ⟨i, h⟩ := ih _ hq
      exact ⟨i + 1, h⟩

/-- A renderer of a layout that was made for the sub-mix. -/
private def MadeFrom (E : RenderEnv) (t : TrimmingSettings) (elements : List (UInt32 × ElementWithData)) (s : SubMix) (d : Layout)
    (L : LayoutRenderer) : Prop :=
  ∃ n : Int, numChannelsFromLayout d = .ok n ∧ L.channels = n.toNat ∧ L.trimming = t ∧ L.outputGain = s.outputMixGain ∧
    s.elements ≠ [] ∧
    List.Forall₂ (fun (m : SubMixElement) (x : ElementMix) => ∃ e c, elements.lookup m.id = some e ∧ e.codec = some c ∧
      c.outputRate = L.rate ∧ c.config.numSamplesPerFrame = L.frameSize ∧
      createRenderer E e.obu e.data.labels m.rendering d = .ok (some x.renderer) ∧ x.id = m.id ∧ x.gain = m.mixGain)
      s.elements L.elements

private theorem made_same {E : RenderEnv} {t : TrimmingSettings} {elements : List (UInt32 × ElementWithData)} {s : SubMix} {d : Layout}
    {L L' : LayoutRenderer} (h : MadeFrom E t elements s d L) (h' : SameRenderer L L') : MadeFrom E t elements s d L' := by
  obtain ⟨n, h1, h2, h3, h4, h5, h6⟩ := h
  obtain ⟨g1, g2, g3, g4, g5, g6⟩ := h'
  refine ⟨n, h1, g3 ▸ h2, g6 ▸ h3, g2 ▸ h4, h5, ?_⟩
  rw [← g4, ← g5]
  revert g1
  generalize L'.elements = es'
  generalize L.elements = es at h6
  generalize s.elements = ms at h6 ⊢
  intro g1
  induction h6 generalizing es' with
  | nil => cases g1; exact .nil
  | cons h _ ih =>
    cases g1 with
    | cons g gs =>
      obtain ⟨e, c, k1, k2, k3, k4, k5, k6, k7⟩ := h
      exact .cons ⟨e, c, k1, k2, k3, k4, g.2.2 ▸ k5, g.1 ▸ k6, g.2.1 ▸ k7⟩ (ih _ gs)

private theorem num_positive {d : Layout} {n : Int} (h : numChannelsFromLayout d = .ok n) : 0 < n := by
  have hc : ∀ p ∈ soundSystemChannels, 0 < p.2 := by decide +kernel
  unfold numChannelsFromLayout at h
  split at h
  · simp only [Except.ok.injEq] at h; omega
  · split at h
    · split at h
      · split at h
        · rename_i s _ _ _ k hk
          simp only [Except.ok.injEq] at h
          subst h
          obtain ⟨p, hp, rfl⟩ : ∃ p ∈ soundSystemChannels, p.2 = k := by
            generalize soundSystemChannels = l at hk
            induction l with
            | nil => cases hk
            | cons a l ih =>
              obtain ⟨a, b⟩ := a
              simp only [List.lookup] at hk
              split at hk
              · cases hk; exact ⟨_, List.mem_cons_self .., rfl⟩
              · obtain ⟨p, hp, h⟩ := ih hk
                exact ⟨p, List.mem_cons_of_mem _ hp, h⟩
          exact hc p hp
        · cases h
      · cases h
    · cases h

private theorem made_ready {E : RenderEnv} (hE : GoodEnv E) {t : TrimmingSettings} {elements : List (UInt32 × ElementWithData)}
    (hel : ElementsOk elements) {s : SubMix} {d : Layout} (hd : HasSoundSystem d) {L : LayoutRenderer}
    (h : MadeFrom E t elements s d L) : Ready L := by
  obtain ⟨n, h1, h2, -, -, h5, h6⟩ := h
  have hn := num_positive h1
  refine ⟨by omega, ?_, ?_⟩
  · intro hnil
    rw [hnil] at h6
    cases hs : s.elements with
    | nil => exact h5 hs
    | cons a l => rw [hs] at h6; cases h6
  · intro x hx
    obtain ⟨i, hi, rfl⟩ := List.getElem_of_mem hx
    obtain ⟨e, c, k1, -, -, -, k5, -⟩ := (List.forall₂_iff_get.mp h6).2 i (by rw [h6.length_eq]; exact hi) hi
    obtain ⟨ho, ha, -⟩ := hel _ _ k1
    obtain ⟨y, g1, g2⟩ := C39_made_renderers_work E hE e.obu ho e.data.labels ha (s.elements.get ⟨i, by rw [h6.length_eq]; exact hi⟩).rendering d
      hd n h1
    rw [k5] at g1
    cases g1
    have : (L.channels : Int) = n := by rw [h2]; omega
    rw [this]
    exact g2 _ rfl

private theorem made_sounds {M : GainMath Rat} {E : RenderEnv} {t : TrimmingSettings} {elements : List (UInt32 × ElementWithData)}
    {s : SubMix} {d : Layout} {L : LayoutRenderer} (h : MadeFrom E t elements s d L) {frames : UInt32 → Option RenderFrame}
    {blocks : UInt32 → Option BlockWithData} (out : Rendered) :
    (∃ ticks parts output, List.Forall₂ (Contributes M L frames blocks ticks) L.elements parts ∧
        mixGainsPerTick M L.rate blocks L.outputGain ticks = .ok output ∧ out = mixOf L.channels ticks parts output) ↔
      Sounds M E t elements frames blocks s d out := by
  obtain ⟨n, h1, h2, h3, h4, h5, h6⟩ := h
  constructor
  · rintro ⟨ticks, parts, output, g1, g2, g3⟩
    refine ⟨n, L.rate, L.frameSize, ticks, parts, output, h1, ?_, h4 ▸ g2, h2 ▸ g3⟩
    clear g2 g3 h5 h4
    subst h3
    revert g1
    generalize L.elements = es at h6
    generalize s.elements = ms at h6 ⊢
    intro g1
    induction h6 generalizing parts with
    | nil => cases g1; exact .nil
    | cons h _ ih =>
      cases g1 with
      | cons g gs =>
        obtain ⟨e, c, k1, k2, k3, k4, k5, k6, k7⟩ := h
        obtain ⟨f, f1, f2, f3, f4⟩ := g
        exact .cons ⟨e, c, _, f, k1, k2, k3, k4, k5, k6 ▸ f1, f2, f3, k7 ▸ f4⟩ (ih _ gs)
  · rintro ⟨n', rate, frameSize, ticks, parts, output, g0, g1, g2, g3⟩
    rw [h1] at g0
    cases g0
    obtain ⟨hr, hf⟩ : L.rate = rate ∧ L.frameSize = frameSize := by
      obtain ⟨m, hm⟩ := List.exists_mem_of_ne_nil _ h5
      obtain ⟨i, hi, rfl⟩ := List.getElem_of_mem hm
      obtain ⟨e, c, k1, k2, k3, k4, -⟩ := (List.forall₂_iff_get.mp h6).2 i hi (by rw [← h6.length_eq]; exact hi)
      obtain ⟨e', c', r, f, l1, l2, l3, l4, -⟩ := (List.forall₂_iff_get.mp g1).2 i hi (by rw [← g1.length_eq]; exact hi)
      rw [k1] at l1
      cases l1
      rw [k2] at l2
      cases l2
      exact ⟨k3 ▸ l3, k4 ▸ l4⟩
    subst hr hf
    refine ⟨ticks, parts, output, ?_, h4 ▸ g2, h2 ▸ g3⟩
    clear g2 g3 h5 h4
    subst h3
    generalize L.elements = es at h6
    generalize s.elements = ms at h6 g1
    induction h6 generalizing parts with
    | nil => cases g1; exact .nil
    | cons h _ ih =>
      cases g1 with
      | cons g gs =>
        obtain ⟨e, c, k1, k2, k3, k4, k5, k6, k7⟩ := h
        obtain ⟨e', c', r, f, l1, l2, l3, l4, l5, l6, l7, l8, l9⟩ := g
        rw [k1] at l1
        cases l1
        rw [k5] at l5
        cases l5
        exact .cons ⟨f, k6 ▸ l6, l7, l8, k7 ▸ l9⟩ (ih _ gs)

/-! ### Making it -/

private theorem mapM_forall₂ {α β : Type} {f : α → Except Err β} : ∀ {l : List α} {r : List β}, l.mapM f = .ok r →
    List.Forall₂ (fun a b => f a = .ok b) l r := by
  intro l
  induction l with
  | nil => intro r h; simp only [List.mapM_nil, pure, Except.pure, Except.ok.injEq] at h; subst h; exact .nil
  | cons a l ih =>
    intro r h
    rw [List.mapM_cons] at h
    obtain ⟨b, h1, h⟩ := except_bind_ok h
    obtain ⟨bs, h2, h⟩ := except_bind_ok h
    simp only [pure, Except.pure, Except.ok.injEq] at h
    subst h
    exact .cons h1 (ih h2)

private theorem mapM_reports {α β : Type} {f : α → Except Err β} {l : List α} (h : ∀ a ∈ l, Reports (f a) fun _ => True) :
    Reports (l.mapM f) fun _ => True := by
  induction l with
  | nil => exact trivial
  | cons a l ih =>
    rw [List.mapM_cons]
    refine (h a (List.mem_cons_self ..)).bind fun b _ => ?_
    refine (ih fun x hx => h x (List.mem_cons_of_mem _ hx)).bind fun b _ => ?_
    trivial

private theorem collected {elements : List (UInt32 × ElementWithData)} : ∀ {ms : List SubMixElement}
    {es : List (SubMixElement × ElementWithData)}, collectElements elements ms = .ok es →
    List.Forall₂ (fun m p => p.1 = m ∧ elements.lookup m.id = some p.2) ms es := by
  intro ms
  induction ms with
  | nil => intro es h; simp only [collectElements, Except.ok.injEq] at h; subst h; exact .nil
  | cons m ms ih =>
    intro es h
    unfold collectElements at h
    split at h
    · cases h
    · rename_i e he
      obtain ⟨r, h1, h⟩ := except_bind_ok h
      simp only [Except.ok.injEq] at h
      subst h
      exact .cons ⟨rfl, he⟩ (ih h1)

private theorem common {es : List ElementWithData} {rate size : UInt32} (h : commonProperties es = .ok (rate, size)) :
    es ≠ [] ∧ ∀ e ∈ es, ∃ c, e.codec = some c ∧ c.outputRate = rate ∧ c.config.numSamplesPerFrame = size := by
  unfold commonProperties at h
  obtain ⟨cs, h1, h⟩ := except_bind_ok h
  have h2 := mapM_forall₂ h1
  cases cs with
  | nil => cases h
  | cons c cs =>
    simp only at h
    split at h
    · cases h
    · rename_i k1
      split at h
      · cases h
      · rename_i k2
        simp only [Except.ok.injEq, Prod.mk.injEq] at h
        obtain ⟨rfl, rfl⟩ := h
        constructor
        · rintro rfl; cases h2
        · intro e he
          obtain ⟨i, hi, rfl⟩ := List.getElem_of_mem he
          have := (List.forall₂_iff_get.mp h2).2 i hi (by rw [← h2.length_eq]; exact hi)
          simp only [List.get_eq_getElem] at this
          split at this
          · cases this
          · rename_i x hx
            simp only [Except.ok.injEq] at this
            have hm : x ∈ c :: cs := by rw [this]; exact List.getElem_mem _
            refine ⟨x, hx, ?_⟩
            rcases List.mem_cons.mp hm with rfl | hm
            · exact ⟨rfl, rfl⟩
            · simp only [List.any_eq_true, decide_eq_true_eq, not_exists, not_and, ne_eq, Decidable.not_not] at k1 k2
              exact ⟨k2 x hm, k1 x hm⟩

private theorem element_mixes_made {E : RenderEnv} {d : Layout} : ∀ {es : List (SubMixElement × ElementWithData)}
    {x : Option (List ElementMix)}, createElementMixes E d es = .ok x → match x with
      | none => ∃ p ∈ es, createRenderer E p.2.obu p.2.data.labels p.1.rendering d = .ok none
      | some rs => List.Forall₂ (fun p y => createRenderer E p.2.obu p.2.data.labels p.1.rendering d = .ok (some y.renderer) ∧
          y.id = p.1.id ∧ y.gain = p.1.mixGain) es rs := by
  intro es
  induction es with
  | nil => intro x h; simp only [createElementMixes, Except.ok.injEq] at h; subst h; exact .nil
  | cons p es ih =>
    intro x h
    obtain ⟨m, e⟩ := p
    unfold createElementMixes at h
    obtain ⟨r, h1, h⟩ := except_bind_ok h
    cases r with
    | none =>
      simp only [Except.ok.injEq] at h
      subst h
      exact ⟨_, List.mem_cons_self .., h1⟩
    | some r =>
      simp only at h
      obtain ⟨rs, h2, h⟩ := except_bind_ok h
      have := ih h2
      cases rs with
      | none =>
        simp only [Except.ok.injEq] at h
        subst h
        obtain ⟨p, hp, h⟩ := this
        exact ⟨p, List.mem_cons_of_mem _ hp, h⟩
      | some rs =>
        simp only [Except.ok.injEq] at h
        subst h
        exact .cons ⟨h1, rfl, rfl⟩ this

private theorem layout_made {E : RenderEnv} {t : TrimmingSettings} {elements : List (UInt32 × ElementWithData)} {s : SubMix}
    {es : List (SubMixElement × ElementWithData)} {rate size : UInt32} {d : Layout} {x : Option LayoutRenderer}
    (hc : collectElements elements s.elements = .ok es) (hp : commonProperties (es.map (·.2)) = .ok (rate, size))
    (h : createLayoutRenderer E t s es rate size d = .ok x) : match (generalizing := false) x with
      | none => NoRenderer E elements s d
      | some L => MadeFrom E t elements s d L := by
  have hcol := collected hc
  obtain ⟨hne, hcom⟩ := common hp
  unfold createLayoutRenderer at h
  obtain ⟨n, h1, h⟩ := except_bind_ok h
  cases n with
  | none =>
    simp only [Except.ok.injEq] at h
    subst h
    left
    unfold orNull at h1
    split at h1
    · cases h1
    · exact ⟨_, ‹_›⟩
  | some n =>
    have h1 : numChannelsFromLayout d = .ok n := by
      unfold orNull at h1
      split at h1
      · rename_i hx
        simp only [Except.ok.injEq, Option.some.injEq] at h1
        rw [hx, h1]
      · split at h1 <;> cases h1
    simp only at h
    obtain ⟨rs, h2, h⟩ := except_bind_ok h
    have := element_mixes_made h2
    cases rs with
    | none =>
      simp only [Except.ok.injEq] at h
      subst h
      right
      obtain ⟨p, hp, hx⟩ := this
      obtain ⟨i, hi, rfl⟩ := List.getElem_of_mem hp
      obtain ⟨e1, e2⟩ := (List.forall₂_iff_get.mp hcol).2 i (by rw [hcol.length_eq]; exact hi) hi
      refine ⟨_, List.get_mem _ ⟨i, by rw [hcol.length_eq]; exact hi⟩, _, e2, ?_⟩
      rw [← e1]
      exact hx
    | some rs =>
      simp only [Except.ok.injEq] at h
      subst h
      refine ⟨n, h1, rfl, rfl, rfl, ?_, ?_⟩
      · intro hnil
        rw [hnil] at hcol
        cases hcol
        exact hne rfl
      · simp only
        clear * - hcol this hcom
        generalize s.elements = ms at hcol
        have hcom' : ∀ p ∈ es, ∃ c, p.2.codec = some c ∧ c.outputRate = rate ∧ c.config.numSamplesPerFrame = size :=
          fun p hp => hcom _ (List.mem_map_of_mem hp)
        clear hcom
        induction hcol generalizing rs with
        | nil => cases this; exact .nil
        | cons k _ ih =>
          cases this with
          | cons g gs =>
            obtain ⟨rfl, k2⟩ := k
            obtain ⟨c, c1, c2, c3⟩ := hcom' _ (List.mem_cons_self ..)
            exact .cons ⟨_, c, k2, c1, c2, c3, g.1, g.2.1, g.2.2⟩ (ih _ gs fun p hp => hcom' p (List.mem_cons_of_mem _ hp))

private theorem mix_made {E : RenderEnv} {t : TrimmingSettings} {elements : List (UInt32 × ElementWithData)} {m : MixPresentation}
    {ss : List (List LayoutState)} (h : createMix E t elements m = .ok (some ss)) :
    List.Forall₂ (fun (s : SubMix) ls => List.Forall₂ (fun l (x : LayoutState) => x.valid = [] ∧ match x.renderer with
      | none => NoRenderer E elements s l.layout
      | some L => MadeFrom E t elements s l.layout L) s.layouts ls) m.subMixes ss := by
  unfold createMix at h
  obtain ⟨ss', h1, h⟩ := except_bind_ok h
  split at h
  · simp only [Except.ok.injEq, Option.some.injEq] at h
    subst h
    refine (mapM_forall₂ h1).imp fun s ls hs => ?_
    unfold createSubMix at hs
    obtain ⟨es, h2, hs⟩ := except_bind_ok hs
    obtain ⟨rs, h3, hs⟩ := except_bind_ok hs
    obtain ⟨rate, size⟩ := rs
    simp only at hs
    refine (mapM_forall₂ hs).imp fun l x hx => ?_
    obtain ⟨y, h4, hx⟩ := except_bind_ok hx
    simp only [Except.ok.injEq] at hx
    subst hx
    exact ⟨rfl, layout_made h2 h3 h4⟩
  · cases h

/-- **C40 (every temporal unit, every layout).** Let a mix presentation be rendered, after any number of temporal units, whether they
could be rendered or not.  If the next unit has a frame for every audio element and can be rendered, then for every layout of every sub-mix
the samples are those that the specification says, or the layout cannot be rendered and there are none.  If it cannot, then a parameter
block has other times than the unit, or a layout that can be rendered has no such samples in this unit. -/
theorem C40_every_unit_and_layout (M : GainMath Rat) (E : RenderEnv) (hE : GoodEnv E) (t : TrimmingSettings)
    (elements : List (UInt32 × ElementWithData)) (hel : ElementsOk elements) (m : MixPresentation)
    (hm : ∀ s ∈ m.subMixes, ∀ l ∈ s.layouts, HasSoundSystem l.layout) (first ss : List (List LayoutState))
    (hc : createMix E t elements m = .ok (some first)) (hs : Reached M first ss) (frames : UInt32 → Option RenderFrame)
    (hf : ∀ s ∈ m.subMixes, ∀ e ∈ s.elements, (frames e.id).isSome) (start stop : Int) (blocks : List BlockWithData)
    (hb : ∀ b ∈ blocks, BlockOk b) :
    ∃ ss', (pushRenderUnit M frames start stop blocks (some ss)).2 = some ss' ∧
      match (pushRenderUnit M frames start stop blocks (some ss)).1 with
      | .ok () => (∀ b ∈ blocks, b.start = start ∧ b.stop = stop) ∧
          ∀ (i j : Nat) s l, m.subMixes[i]? = some s → s.layouts[j]? = some l →
            ∃ out, renderedSamples (some ss') i j = .ok out ∧
              (Sounds M E t elements frames (blockById blocks) s l.layout out ∨ out = [] ∧ NoRenderer E elements s l.layout)
      | .error e => e.fatal = false ∧ ((∃ b ∈ blocks, b.start ≠ start ∨ b.stop ≠ stop) ∨
          ∃ s ∈ m.subMixes, ∃ l ∈ s.layouts, ¬ NoRenderer E elements s l.layout ∧
            ¬ ∃ out, Sounds M E t elements frames (blockById blocks) s l.layout out) := by
  have hmade := mix_made hc
  have hsame := reached_same hs
  -- what is known about each layout now
  have hnow : ∀ (i j : Nat) (s : SubMix) (l : MixLayout), m.subMixes[i]? = some s → s.layouts[j]? = some l →
      ∃ ls x, ss[i]? = some ls ∧ ls[j]? = some x ∧ match x.renderer with
        | none => x.valid = [] ∧ NoRenderer E elements s l.layout
        | some L => MadeFrom E t elements s l.layout L := by
    intro i j s l hi' hj'
    obtain ⟨hi, rfl⟩ := List.getElem?_eq_some_iff.mp hi'
    obtain ⟨hj, rfl⟩ := List.getElem?_eq_some_iff.mp hj'
    have hi1 : i < first.length := by rw [← hmade.length_eq]; exact hi
    have hi2 : i < ss.length := by rw [← hsame.length_eq]; exact hi1
    have a1 := (List.forall₂_iff_get.mp hmade).2 i hi hi1
    have a2 := (List.forall₂_iff_get.mp hsame).2 i hi1 hi2
    simp only [List.get_eq_getElem] at a1 a2
    have hj1 : j < first[i].length := by rw [← a1.length_eq]; exact hj
    have hj2 : j < ss[i].length := by rw [← a2.length_eq]; exact hj1
    have b1 := (List.forall₂_iff_get.mp a1).2 j hj hj1
    have b2 := (List.forall₂_iff_get.mp a2).2 j hj1 hj2
    simp only [List.get_eq_getElem] at b1 b2
    refine ⟨ss[i], ss[i][j], List.getElem?_eq_getElem hi2, List.getElem?_eq_getElem hj2, ?_⟩
    unfold SameState at b2
    obtain ⟨b0, b1⟩ := b1
    cases hx : first[i][j].renderer <;> cases hy : ss[i][j].renderer <;> rw [hx] at b1 b2 <;> rw [hy] at b2 <;> simp only at b1 b2 ⊢
    · exact ⟨b2 ▸ b0, b1⟩
    · exact made_same b1 b2
  have hprem : ∀ (s : SubMix) (l : MixLayout) (L : LayoutRenderer), s ∈ m.subMixes → l ∈ s.layouts → MadeFrom E t elements s l.layout L →
      Ready L ∧ AllPresent L frames ∧ BlocksOk L (blockById blocks) := by
    intro s l L hs hl hL
    refine ⟨made_ready hE hel (hm s hs l hl) hL, ?_, ?_, ?_⟩
    · intro x hx
      obtain ⟨n, -, -, -, -, -, h6⟩ := hL
      obtain ⟨i, hi, rfl⟩ := List.getElem_of_mem hx
      obtain ⟨e, c, -, -, -, -, -, k, -⟩ := (List.forall₂_iff_get.mp h6).2 i (by rw [h6.length_eq]; exact hi) hi
      simp only [List.get_eq_getElem] at k
      rw [k]
      exact hf s hs _ (List.getElem_mem _)
    · intro x _ b hx
      unfold blockById at hx
      exact hb b (List.mem_reverse.mp (List.mem_of_find?_eq_some hx))
    · intro b hx
      unfold blockById at hx
      exact hb b (List.mem_reverse.mp (List.mem_of_find?_eq_some hx))
  by_cases htime : blocks.any (fun b => b.start ≠ start ∨ b.stop ≠ stop) = true
  · have : pushRenderUnit M frames start stop blocks (some ss) = (.error .invalidArgument, some ss) := by
      unfold pushRenderUnit
      rw [if_pos htime]
    rw [this]
    refine ⟨ss, rfl, rfl, .inl ?_⟩
    obtain ⟨b, h1, h2⟩ := List.any_eq_true.mp htime
    exact ⟨b, h1, by simpa using h2⟩
  · have : pushRenderUnit M frames start stop blocks (some ss) = ((renderSubMixes M frames (blockById blocks) ss).1,
        some (renderSubMixes M frames (blockById blocks) ss).2) := by
      unfold pushRenderUnit
      rw [if_neg htime]
    rw [this]
    refine ⟨_, rfl, ?_⟩
    simp only
    cases hr : (renderSubMixes M frames (blockById blocks) ss).1 with
    | ok u =>
      refine ⟨fun b hb => ?_, fun i j s l hi hj => ?_⟩
      · simp only [List.any_eq_true, decide_eq_true_eq, not_exists, not_and, not_or, ne_eq, Decidable.not_not] at htime
        exact htime b hb
      · obtain ⟨ls, x, h1, h2, h3⟩ := hnow i j s l hi hj
        have hok := sub_mixes_ok M frames (blockById blocks) ss (renderSubMixes M frames (blockById blocks) ss).2 (Prod.ext hr rfl)
        obtain ⟨hi', rfl⟩ := List.getElem?_eq_some_iff.mp h1
        obtain ⟨hj', rfl⟩ := List.getElem?_eq_some_iff.mp h2
        generalize (renderSubMixes M frames (blockById blocks) ss).2 = ss' at hok ⊢
        have hi2 : i < ss'.length := by rw [← hok.length_eq]; exact hi'
        have a0 := (List.forall₂_iff_get.mp hok).2 i hi' hi2
        have a1 := layouts_ok M frames (blockById blocks) _ _ a0
        simp only [List.get_eq_getElem] at a1
        have hj2 : j < ss'[i].length := by rw [← a1.length_eq]; exact hj'
        have b1 := (List.forall₂_iff_get.mp a1).2 j hj' hj2
        simp only [List.get_eq_getElem] at b1
        refine ⟨ss'[i][j].valid, ?_, ?_⟩
        · unfold renderedSamples
          simp only [List.getElem?_eq_getElem hi2, List.getElem?_eq_getElem hj2]
        · cases hx : ss[i][j].renderer with
          | none =>
            rw [hx] at b1 h3
            simp only at b1 h3
            right
            rw [b1]
            exact h3
          | some L =>
            rw [hx] at b1 h3
            simp only at b1 h3
            left
            obtain ⟨q1, q2, q3⟩ := hprem s l L (List.mem_of_getElem? hi) (List.mem_of_getElem? hj) h3
            have := C40_the_mix M L q1 frames q2 _ q3
            rw [b1] at this
            exact (made_sounds h3 _).mp this
    | error e =>
      obtain ⟨i, j, ls, x, L, h1, h2, h3, h4⟩ := sub_mixes_error M frames (blockById blocks) ss _ e (Prod.ext hr rfl)
      obtain ⟨hi, rfl⟩ := List.getElem?_eq_some_iff.mp h1
      obtain ⟨hj, rfl⟩ := List.getElem?_eq_some_iff.mp h2
      have hi1 : i < first.length := by rw [hsame.length_eq]; exact hi
      have hi2 : i < m.subMixes.length := by rw [hmade.length_eq]; exact hi1
      have a1 := (List.forall₂_iff_get.mp hmade).2 i hi2 hi1
      have a2 := (List.forall₂_iff_get.mp hsame).2 i hi1 hi
      simp only [List.get_eq_getElem] at a1 a2
      have hj1 : j < first[i].length := by rw [a2.length_eq]; exact hj
      have hj2 : j < m.subMixes[i].layouts.length := by rw [a1.length_eq]; exact hj1
      obtain ⟨ls, x, k1, k2, k3⟩ := hnow i j _ _ (List.getElem?_eq_getElem hi2) (List.getElem?_eq_getElem hj2)
      rw [h1] at k1
      cases k1
      rw [h2] at k2
      cases k2
      rw [h3] at k3
      simp only at k3
      obtain ⟨q1, q2, q3⟩ := hprem _ _ L (List.getElem_mem hi2) (List.getElem_mem hj2) k3
      have := C40_the_mix M L q1 frames q2 _ q3
      rw [h4] at this
      refine ⟨this.1, .inr ⟨_, List.getElem_mem hi2, _, List.getElem_mem hj2, ?_, ?_⟩⟩
      · obtain ⟨n, g1, -, -, -, -, g6⟩ := k3
        rintro (⟨e, he⟩ | ⟨y, hy, e, he, hno⟩)
        · rw [g1] at he; cases he
        · obtain ⟨k, hk, rfl⟩ := List.getElem_of_mem hy
          obtain ⟨e', c, c1, -, -, -, c5, -⟩ := (List.forall₂_iff_get.mp g6).2 k hk (by rw [← g6.length_eq]; exact hk)
          simp only [List.get_eq_getElem] at c1 c5
          rw [he] at c1
          cases c1
          rw [hno] at c5
          cases c5
      · rintro ⟨out, ho⟩
        obtain ⟨ticks, parts, output, g1, g2, -⟩ := (made_sounds k3 out).mpr ho
        exact this.2 ⟨ticks, parts, output, g1, g2⟩

/-! ### Making it never crashes -/

private theorem num_reports {d : Layout} (hd : HasSoundSystem d) : Reports (numChannelsFromLayout d) fun _ => True := by
  unfold numChannelsFromLayout
  split
  · trivial
  · split
    · rename_i h2
      obtain ⟨s, r, hsr⟩ := hd h2
      rw [hsr]
      simp only
      split
      · trivial
      · rfl
    · rfl

private theorem collect_reports (elements : List (UInt32 × ElementWithData)) (ms : List SubMixElement) :
    Reports (collectElements elements ms) fun es => ∀ p ∈ es, ∃ id, elements.lookup id = some p.2 := by
  induction ms with
  | nil => intro p hp; cases hp
  | cons m ms ih =>
    unfold collectElements
    split
    · rfl
    · rename_i e he
      refine ih.bind fun r hr => ?_
      show ∀ p ∈ (m, e) :: r, _
      intro p hp
      rcases List.mem_cons.mp hp with rfl | hp
      · exact ⟨m.id, he⟩
      · exact hr p hp

/-- **C40 (making it).** Preparing a mix presentation for rendering ends with a status or with everything that is needed; it is refused
only with a status. -/
theorem C40_making_never_crashes (E : RenderEnv) (hE : GoodEnv E) (t : TrimmingSettings) (elements : List (UInt32 × ElementWithData))
    (hel : ElementsOk elements) (m : MixPresentation) (hm : ∀ s ∈ m.subMixes, ∀ l ∈ s.layouts, HasSoundSystem l.layout) :
    ∀ e, createMix E t elements m = .error e → e ≠ .abort ∧ e ≠ .ub ∧ e ≠ .diverge := by
  have key : Reports (createMix E t elements m) fun _ => True := by
    unfold createMix
    refine Reports.bind (Q := fun _ => True) (mapM_reports fun s hs => ?_) fun ss _ => ?_
    · unfold createSubMix
      refine (collect_reports elements s.elements).bind fun es hes => ?_
      refine Reports.bind (Q := fun _ => True) ?_ fun rs _ => ?_
      · unfold commonProperties
        refine Reports.bind (Q := fun _ => True) (mapM_reports fun e he => ?_) fun cs _ => ?_
        · obtain ⟨p, hp, rfl⟩ := List.mem_map.mp he
          obtain ⟨id, hid⟩ := hes p hp
          obtain ⟨c, hc⟩ := Option.isSome_iff_exists.mp (hel id _ hid).2.2
          rw [hc]
          trivial
        · cases cs with
          | nil => rfl
          | cons c cs =>
            simp only
            split
            · rfl
            · split
              · rfl
              · trivial
      · obtain ⟨rate, size⟩ := rs
        refine mapM_reports fun l hl => ?_
        refine Reports.bind (Q := fun _ => True) ?_ fun _ _ => trivial
        have hd := hm s hs l hl
        unfold createLayoutRenderer
        cases hn : numChannelsFromLayout l.layout with
        | error x =>
          have := num_reports hd
          rw [hn] at this
          have : x.fatal = false := this
          simp only [orNull, this, Bind.bind, Except.bind]
          exact trivial
        | ok n =>
          simp only [orNull, Bind.bind, Except.bind]
          suffices h : ∀ es : List (SubMixElement × ElementWithData), (∀ p ∈ es, ∃ id, elements.lookup id = some p.2) →
              ∃ x, createElementMixes E l.layout es = .ok x by
            obtain ⟨x, hx⟩ := h es hes
            rw [hx]
            cases x <;> trivial
          intro es hes
          induction es with
          | nil => exact ⟨_, rfl⟩
          | cons p es ih =>
            obtain ⟨a, e⟩ := p
            obtain ⟨id, hid⟩ := hes _ (List.mem_cons_self ..)
            obtain ⟨ho, hs, -⟩ := hel id _ hid
            obtain ⟨y, hy, -⟩ := C39_made_renderers_work E hE e.obu ho e.data.labels hs a.rendering l.layout hd n hn
            obtain ⟨x, hx⟩ := ih fun p hp => hes p (List.mem_cons_of_mem _ hp)
            unfold createElementMixes
            rw [hy, hx]
            simp only [Bind.bind, Except.bind]
            cases y with
            | none => exact ⟨_, rfl⟩
            | some y => cases x <;> exact ⟨_, rfl⟩
    · split <;> trivial
  intro e he
  have := key.of.2 e he
  refine ⟨?_, ?_, ?_⟩ <;> rintro rfl <;> simp [Err.fatal] at this

/-! ### The audio elements of descriptors -/

private def Loud (m : SubstreamLabels) : Prop := ∀ p ∈ m, Label.omitted ∉ p.2

private theorem loud_nil : Loud [] := fun p hp => by cases hp

private theorem loud_push {m : SubstreamLabels} (hm : Loud m) (id : UInt32) {ls : List Label} (hl : Label.omitted ∉ ls) :
    Loud (pushLabels id ls m) := by
  induction m with
  | nil => intro p hp; simp only [pushLabels, List.mem_singleton] at hp; subst hp; exact hl
  | cons a m ih =>
    obtain ⟨i, l⟩ := a
    have h1 := hm _ (List.mem_cons_self ..)
    have h2 : Loud m := fun p hp => hm p (List.mem_cons_of_mem _ hp)
    unfold pushLabels
    split
    · intro p hp
      rcases List.mem_cons.mp hp with rfl | hp
      · simp only [List.mem_append, not_or]; exact ⟨h1, hl⟩
      · exact h2 p hp
    · intro p hp
      rcases List.mem_cons.mp hp with rfl | hp
      · exact h1
      · exact ih h2 p hp

private theorem loud_coupled (ids : List UInt32) : ∀ (ls : List Label) (m : SubstreamLabels) (i : Nat) (r : SubstreamLabels × Nat),
    Label.omitted ∉ ls → Loud m → addCoupled ids ls m i = .ok r → Loud r.1
  | a :: b :: l, m, i, r, hl, hm, h => by
    unfold addCoupled at h
    split at h
    · cases h
    · simp only [List.mem_cons, not_or] at hl
      exact loud_coupled ids l _ _ r hl.2.2 (loud_push hm _ (by simp only [List.mem_cons, List.not_mem_nil, or_false, not_or]; exact ⟨hl.1, hl.2.1⟩)) h
  | [_], _, _, _, _, _, h => by cases h
  | [], m, i, r, _, hm, h => by simp only [addCoupled, Except.ok.injEq] at h; subst h; exact hm

private theorem loud_single (ids : List UInt32) (ls : List Label) : ∀ (m : SubstreamLabels) (i : Nat) (r : SubstreamLabels × Nat),
    Label.omitted ∉ ls → Loud m → addSingle ids ls m i = .ok r → Loud r.1 := by
  induction ls with
  | nil => intro m i r _ hm h; simp only [addSingle, Except.ok.injEq] at h; subst h; exact hm
  | cons a l ih =>
    intro m i r hl hm h
    unfold addSingle at h
    split at h
    · cases h
    · simp only [List.mem_cons, not_or] at hl
      exact ih _ _ r hl.2 (loud_push hm _ (by simpa using hl.1)) h

private theorem loud_base {c : ChannelNumbers} {g : GroupLabels} (h : baseGroup c = .ok g) :
    Label.omitted ∉ g.coupled ∧ Label.omitted ∉ g.single := by
  unfold baseGroup at h
  obtain ⟨s, h1, h⟩ := except_bind_ok h
  obtain ⟨t, h2, h⟩ := except_bind_ok h
  obtain ⟨e, h3, h⟩ := except_bind_ok h
  simp only [Except.ok.injEq] at h
  subst h
  have hs : Label.omitted ∉ s.coupled ∧ Label.omitted ∉ s.single := by
    split at h1 <;> first | cases h1; done | (simp only [Except.ok.injEq] at h1; subst h1; decide)
  have ht : Label.omitted ∉ t := by
    split at h2 <;> first | cases h2; done | (simp only [Except.ok.injEq] at h2; subst h2; first | decide | (split <;> decide))
  have he : Label.omitted ∉ e := by
    split at h3 <;> first | cases h3; done | (simp only [Except.ok.injEq] at h3; subst h3; decide)
  simp only [List.mem_append, not_or]
  exact ⟨⟨hs.1, ht⟩, hs.2, he⟩

private theorem loud_surround : ∀ (n s : Nat) (r : GroupLabels × Bool), demixedSurround n s = .ok r →
    Label.omitted ∉ r.1.coupled ∧ Label.omitted ∉ r.1.single := by
  intro n
  induction n with
  | zero => intro s r h; simp only [demixedSurround, Except.ok.injEq] at h; subst h; simp
  | succ n ih =>
    intro s r h
    unfold demixedSurround at h
    obtain ⟨g, h1, h⟩ := except_bind_ok h
    obtain ⟨g', h2, h⟩ := except_bind_ok h
    simp only [Except.ok.injEq] at h
    subst h
    have hg : Label.omitted ∉ g.1.coupled ∧ Label.omitted ∉ g.1.single := by
      split at h1 <;> first
        | (simp only [Except.ok.injEq] at h1; subst h1; decide)
        | (split at h1 <;> first | cases h1; done | (simp only [Except.ok.injEq] at h1; subst h1; decide))
    have := ih _ _ h2
    simp only [List.mem_append, not_or]
    exact ⟨⟨hg.1, this.1⟩, hg.2, this.2⟩

private theorem loud_demixed {a c : ChannelNumbers} {g : GroupLabels} (h : demixedGroup a c = .ok g) :
    Label.omitted ∉ g.coupled ∧ Label.omitted ∉ g.single := by
  unfold demixedGroup at h
  obtain ⟨s, h1, h⟩ := except_bind_ok h
  obtain ⟨t, h2, h⟩ := except_bind_ok h
  obtain ⟨e, h3, h⟩ := except_bind_ok h
  simp only [Except.ok.injEq] at h
  subst h
  have hs := loud_surround _ _ _ h1
  have ht : Label.omitted ∉ t := by
    revert h2
    repeat' split
    all_goals intro h2
    all_goals first | cases h2; done | (simp only [Except.ok.injEq] at h2; subst h2; first | decide | (split <;> decide))
  have he : Label.omitted ∉ e := by
    revert h3
    repeat' split
    all_goals intro h3
    all_goals first | cases h3; done | (simp only [Except.ok.injEq] at h3; subst h3; decide)
  simp only [List.mem_append, not_or]
  refine ⟨⟨hs.1, ht⟩, ⟨hs.2, he⟩, ?_⟩
  split <;> decide

private theorem loud_layer {i : Nat} {l : ChannelLayer} {acc : ChannelNumbers} {r : ChannelNumbers × GroupLabels}
    (h : layerGroup i l acc = .ok r) : Label.omitted ∉ r.2.coupled ∧ Label.omitted ∉ r.2.single := by
  unfold layerGroup at h
  split at h
  · unfold expandedGroup at h
    split at h
    · cases h
    · split at h
      · cases h
      · split at h <;> first | cases h; done | (simp only [Except.ok.injEq] at h; subst h; decide)
  · unfold layoutGroup at h
    obtain ⟨c, -, h⟩ := except_bind_ok h
    split at h
    · cases h
    · obtain ⟨g, h1, h⟩ := except_bind_ok h
      simp only [Except.ok.injEq] at h
      subst h
      split at h1
      · exact loud_base h1
      · exact loud_demixed h1

private theorem loud_layers (ids : List UInt32) (ls : List ChannelLayer) : ∀ (i : Nat) (acc : ChannelNumbers) (si : Nat)
    (r x : ElementLabels), Loud r.labels → finalizeLayers ids ls i acc si r = .ok x → Loud x.labels := by
  induction ls with
  | nil => intro i acc si r x hr h; simp only [finalizeLayers, Except.ok.injEq] at h; subst h; exact hr
  | cons l ls ih =>
    intro i acc si r x hr h
    unfold finalizeLayers at h
    obtain ⟨cg, h1, h⟩ := except_bind_ok h
    obtain ⟨ms, h2, h⟩ := except_bind_ok h
    obtain ⟨g1, g2⟩ := loud_layer h1
    have hms : Loud ms.1 := by
      unfold addSubstreamLabels at h2
      split at h2
      · cases h2
      · split at h2
        · cases h2
        · obtain ⟨q, h3, h2⟩ := except_bind_ok h2
          exact loud_single ids _ _ _ _ g2 (loud_coupled ids _ _ _ _ g1 hr h3) h2
    simp only at h
    split at h
    · cases h
    · obtain ⟨gs, -, h⟩ := except_bind_ok h
      exact ih _ _ _ _ _ hms h

private theorem label_loud {n : Nat} {l : Label} (h : ambisonicsLabel n = .ok l) : Label.omitted ≠ l := by
  unfold ambisonicsLabel at h
  split at h
  · cases h
    simp
  · cases h

private theorem loud_mono (ids : List UInt32) (vs : List UInt8) : ∀ (n : Nat) (m x : SubstreamLabels), Loud m →
    finalizeMono ids vs n m = .ok x → Loud x := by
  induction vs with
  | nil => intro n m x hm h; simp only [finalizeMono, Except.ok.injEq] at h; subst h; exact hm
  | cons v vs ih =>
    intro n m x hm h
    unfold finalizeMono at h
    split at h
    · exact ih _ _ _ hm h
    · split at h
      · cases h
      · obtain ⟨l, h1, h⟩ := except_bind_ok h
        exact ih _ _ _ (loud_push hm _ (by simpa using label_loud h1)) h

private theorem loud_projection (coupled : Nat) (ids : List UInt32) : ∀ (n : Nat) (m x : SubstreamLabels), Loud m →
    finalizeProjection coupled ids n m = .ok x → Loud x := by
  induction ids with
  | nil => intro n m x hm h; simp only [finalizeProjection, Except.ok.injEq] at h; subst h; exact hm
  | cons s ids ih =>
    intro n m x hm h
    unfold finalizeProjection at h
    obtain ⟨ls, h1, h⟩ := except_bind_ok h
    refine ih _ _ _ (loud_push hm _ ?_) h
    intro hl
    have := mapM_forall₂ h1
    obtain ⟨i, hi, he⟩ := List.getElem_of_mem hl
    have := (List.forall₂_iff_get.mp this).2 i (by rw [this.length_eq]; exact hi) hi
    simp only [List.get_eq_getElem] at this
    exact label_loud this he.symm

/-- **C40 (the premises are met).** The audio elements that are made from descriptors have what `ElementsOk` asks for. -/
theorem C40_elements_of_descriptors (codecs : List (UInt32 × CodecObu)) (e : AudioElement) (x : ElementWithData)
    (h : generateElement codecs e = .ok x) : x.obu = e ∧ AllSound x.data.labels ∧ x.codec.isSome := by
  unfold generateElement at h
  obtain ⟨d, h1, h⟩ := except_bind_ok h
  split at h
  · cases h
  · simp only [Except.ok.injEq] at h
    subst h
    refine ⟨rfl, ?_, rfl⟩
    have hd : Loud d.labels := by
      split at h1
      · split at h1
        · unfold finalizeScalable at h1
          split at h1
          · cases h1
          · obtain ⟨r, h2, h1⟩ := except_bind_ok h1
            split at h1
            · cases h1
            · simp only [Except.ok.injEq] at h1
              subst h1
              exact loud_layers _ _ _ _ _ _ _ loud_nil h2
        · cases h1
      · split at h1
        · obtain ⟨m, h2, h1⟩ := except_bind_ok h1
          simp only [Except.ok.injEq] at h1
          subst h1
          unfold finalizeAmbisonics at h2
          split at h2
          · cases h2
          split at h2
          · exact loud_mono _ _ _ _ _ loud_nil h2
          · split at h2
            · cases h2
            · exact loud_projection _ _ _ _ _ loud_nil h2
          · cases h2
        · simp only [Except.ok.injEq] at h1
          subst h1
          exact loud_nil
    intro s ls hl
    simp only at hl
    generalize d.labels = m at hl hd
    induction m with
    | nil => cases hl
    | cons a m ih =>
      obtain ⟨i, l⟩ := a
      simp only [List.lookup] at hl
      split at hl
      · cases hl; exact hd _ (List.mem_cons_self ..)
      · exact ih hl fun p hp => hd p (List.mem_cons_of_mem _ hp)

/-! ### Examples and findings -/

/-- Two audio elements of one channel each; gains are taken as they are (in place of dB), in units of 1/256. -/
def exampleMath : GainMath Rat := ⟨fun x => x, fun x => x⟩

def exampleGainOf (id : UInt32) (g : Int16) : ParamDef := ⟨⟨id, 48000, 0, none⟩, .mixGain g⟩

def exampleLayoutRenderer (t : TrimmingSettings) : LayoutRenderer :=
  ⟨[⟨1, exampleGainOf 10 512, .passThrough [.mono], []⟩, ⟨2, exampleGainOf 11 256, .passThrough [.mono], []⟩], exampleGainOf 12 128, 1,
    48000, 4, t⟩

private def exampleSound (xs : List Rat) (trim : UInt32) : RenderFrame :=
  ⟨fun l => if l = .mono then some xs else none, trim, 0, ⟨10000, 8660, 8660, 8660, -1, 0, 0, false⟩⟩

/-- A block for the gain of the first element: a line from 0 to 4 over 4 ticks. -/
def exampleRamp : BlockWithData := ⟨⟨10, some ⟨4, 0, 1, [4]⟩, [some (.mixGain (.linear 0 1024))]⟩, 0, 4, ⟨3, false, false, 0, 0, none⟩, exampleGainOf 10 512⟩

/-- The premises of `C40_the_mix` are met; with gains 2 and 1 and 1/2 for the output, and with the ramp in place of the 2. -/
example : Ready (exampleLayoutRenderer ⟨true, true⟩) := by
  refine ⟨by decide, by decide, fun e he => ?_⟩
  have hr : e.renderer = .passThrough [.mono] := by
    simp only [exampleLayoutRenderer, List.mem_cons, List.not_mem_nil, or_false] at he
    rcases he with rfl | rfl <;> rfl
  rw [hr]
  intro frameSize hfs t f
  have h := C39_pass_through_is_exact [.mono] (by decide) frameSize hfs t f
  unfold Reports
  split <;> rename_i hx <;> rw [hx] at h
  · obtain ⟨-, h⟩ := h
    simp only [h]
    refine ⟨by simp [trimmedSamples, exampleLayoutRenderer], fun s hs => ?_⟩
    simp only [trimmedSamples, List.mem_map] at hs
    obtain ⟨l, -, rfl⟩ := hs
    simp
  · exact h.1

private def exampleFrames (n : UInt32) : Option RenderFrame :=
  if n = 1 then some (exampleSound [1, 2, 3, 4] 0) else if n = 2 then some (exampleSound [10, 20, 30, 40] 0) else none

example : ((exampleLayoutRenderer ⟨true, true⟩).render exampleMath exampleFrames (fun _ => none)).1 = .ok [[6, 12, 18, 24]] ∧
    ((exampleLayoutRenderer ⟨true, true⟩).render exampleMath exampleFrames
      (fun id => if id = 10 then some exampleRamp else none)).1 = .ok [[5, 11, 18, 26]] := by
  decide +kernel

/-- **C40 (finding).** Gains are counted from the first sample that is kept.  If two samples are trimmed at the start, then the third one
gets the gain that the parameter block has for the first. -/
theorem C40_trimming_shifts_gains :
    ((exampleLayoutRenderer ⟨false, false⟩).render exampleMath
      (fun n => if n = 1 then some (exampleSound [1, 1, 1, 1] 2) else if n = 2 then some (exampleSound [0, 0, 0, 0] 2) else none)
      (fun id => if id = 10 then some exampleRamp else none)).1 = .ok [[0, 1 / 2, 1, 3 / 2]] ∧
    ((exampleLayoutRenderer ⟨true, true⟩).render exampleMath
      (fun n => if n = 1 then some (exampleSound [1, 1, 1, 1] 2) else if n = 2 then some (exampleSound [0, 0, 0, 0] 2) else none)
      (fun id => if id = 10 then some exampleRamp else none)).1 = .ok [[0, 1 / 2]] := by
  decide +kernel

/-- **C40 (finding).** If an audio element has no frame in a temporal unit then its last samples are played again, with their gain applied
once more: 4 times in place of twice in the second unit. -/
theorem C40_missing_frame_repeats_sound :
    let one := (exampleLayoutRenderer ⟨true, true⟩).render exampleMath exampleFrames (fun _ => none)
    let two := one.2.render exampleMath (fun n => if n = 2 then some (exampleSound [0, 0, 0, 0] 0) else none) (fun _ => none)
    one.1 = .ok [[6, 12, 18, 24]] ∧ two.1 = .ok [[2, 4, 6, 8]] ∧
      (two.2.render exampleMath (fun n => if n = 2 then some (exampleSound [0, 0, 0, 0] 0) else none) (fun _ => none)).1 =
        .ok [[4, 8, 12, 16]] := by
  decide +kernel

/-- **C40 (finding).** A parameter block that no mix uses makes a temporal unit fail, if its times are not those of the unit. -/
theorem C40_unused_block_spoils_unit (M : GainMath Rat) (frames : UInt32 → Option RenderFrame) (start stop : Int) (b : BlockWithData)
    (h : b.stop ≠ stop) (mix : Option (List (List LayoutState))) :
    (pushRenderUnit M frames start stop [b] mix).1 = .error .invalidArgument := by
  unfold pushRenderUnit
  simp [h]

end Iamf.Props
