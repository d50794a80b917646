import Verif.Props.AmbisonicsMixer
/-
  C59: the mixer as a down-mixer of the encoder, and what a renderer makes of the mixed channels.
-/
namespace Iamf.Props
open Iamf
open scoped BigOperators

/-! ### Specification -/

/-- All these channels have samples, as many each, and not too many. -/
def ChannelsPresent (m : SamplesMap) (labels : List Label) (n : Nat) : Prop := ∀ l ∈ labels, ∃ s, m l = some s ∧ s.length = n

/-! ### The down-mixer -/

private theorem present_frame {m : SamplesMap} : ∀ {labels : List Label} {ss : List Samples}, presentSamples m labels = .ok ss →
    List.Forall₂ (fun l s => m l = some s) labels ss
  | [], ss, h => by
    simp only [presentSamples, Except.ok.injEq] at h
    subst h
    exact .nil
  | l :: ls, ss, h => by
    unfold presentSamples at h
    split at h
    · cases h
    · rename_i s hs
      cases hp : presentSamples m ls with
      | error e => rw [hp] at h; cases h
      | ok r =>
        rw [hp] at h
        simp only [Bind.bind, Except.bind, Except.ok.injEq] at h
        subst h
        exact .cons hs (present_frame hp)

private theorem present_error {m : SamplesMap} : ∀ {labels : List Label} {e : Err}, presentSamples m labels = .error e →
    e = .invalidArgument ∧ ∃ l ∈ labels, m l = none
  | [], e, h => by cases h
  | l :: ls, e, h => by
    unfold presentSamples at h
    split at h
    · rename_i hn
      cases h
      exact ⟨rfl, l, by simp, hn⟩
    · cases hp : presentSamples m ls with
      | error e' =>
        rw [hp] at h
        simp only [Bind.bind, Except.bind, Except.error.injEq] at h
        subst h
        obtain ⟨h1, k, h2, h3⟩ := present_error hp
        exact ⟨h1, k, by simp [h2], h3⟩
      | ok r => rw [hp] at h; cases h

private theorem forall₂_get {α β : Type} {R : α → β → Prop} {l : List α} {r : List β} (h : List.Forall₂ R l r) :
    l.length = r.length ∧ ∀ i (h1 : i < l.length) (h2 : i < r.length), R l[i] r[i] :=
  ⟨h.length_eq, fun i h1 h2 => by simpa using h.get h1 h2⟩

private theorem written : ∀ (labels : List Label) (out : List Samples) (m : SamplesMap), labels.length ≤ out.length → labels.Nodup →
    ∃ m', writeBack labels out m = .ok m' ∧ (∀ l, l ∉ labels → m' l = m l) ∧
      ∀ i (h1 : i < labels.length) (h2 : i < out.length), m' labels[i] = some out[i]
  | [], _, m, _, _ => ⟨m, rfl, fun _ _ => rfl, fun i h1 => by simp at h1⟩
  | l :: ls, [], _, h, _ => by simp at h
  | l :: ls, s :: ss, m, h, hn => by
    obtain ⟨m', h1, h2, h3⟩ := written ls ss (m.set l s) (by simpa using h) (List.nodup_cons.mp hn).2
    refine ⟨m', h1, fun k hk => ?_, fun i hi hj => ?_⟩
    · rw [List.mem_cons, not_or] at hk
      rw [h2 k hk.2]
      simp [SamplesMap.set, hk.1]
    · cases i with
      | zero =>
        simp only [List.getElem_cons_zero]
        rw [h2 l (List.nodup_cons.mp hn).1]
        simp [SamplesMap.set]
      | succ i =>
        simp only [List.getElem_cons_succ]
        exact h3 i (by simpa using hi) (by simpa using hj)

private theorem channels_nodup (order : Nat) : (ambisonicsChannels order).Nodup :=
  List.Nodup.map (fun a b h => by cases h; rfl) List.nodup_range

private theorem frame_iff {m : SamplesMap} {labels : List Label} {ss : List Samples} (h : presentSamples m labels = .ok ss) (maxSamples : Nat) :
    MixerFrame labels.length maxSamples ss ↔ ∃ n ≤ maxSamples, ChannelsPresent m labels n := by
  obtain ⟨h1, h2⟩ := forall₂_get (present_frame h)
  constructor
  · rintro ⟨-, n, hn, hs⟩
    refine ⟨n, hn, fun l hl => ?_⟩
    obtain ⟨i, hi, rfl⟩ := List.getElem_of_mem hl
    exact ⟨ss[i]'(by omega), h2 i hi (by omega), hs _ (List.getElem_mem _)⟩
  · rintro ⟨n, hn, hs⟩
    refine ⟨h1.symm, n, hn, fun s hm => ?_⟩
    obtain ⟨i, hi, rfl⟩ := List.getElem_of_mem hm
    obtain ⟨s', a, b⟩ := hs (labels[i]'(by omega)) (List.getElem_mem _)
    rw [h2 i (by omega) hi] at a
    cases a
    exact b

/-- **C59 (down-mixing).** The down-mixer of an ambisonics element takes the samples exactly if it has as many for each of the channels
of ambisonics, and no more than a frame has.  It leaves all other channels as they are.  Only third order ambisonics in Opus is mixed: the
channels are replaced by as many samples of the mixed ones; all other presets change nothing. -/
theorem C59_down_mixing (codecId : UInt32) (p : AmbisonicsPreset) (maxSamples : Nat) (x₀ x : AmbisonicsMixer)
    (h : AmbisonicsMixer.fromPreset codecId p maxSamples = .ok x₀) (hx : AfterPushes x₀ x) (m : SamplesMap) :
    match x.runOn (ambisonicsChannels (presetOrder p)) m with
    | .ok (m', y) => AfterPushes x₀ y ∧
        (∀ l, l ∉ ambisonicsChannels (presetOrder p) → m' l = m l) ∧
        (∃ n ≤ maxSamples, ChannelsPresent m (ambisonicsChannels (presetOrder p)) n ∧ ChannelsPresent m' (ambisonicsChannels (presetOrder p)) n ∧
          (IsMixed codecId p → ∀ o < 16, ∀ t < n,
            m'.at t (.a o) = ∑ i ∈ Finset.range 16, mixingEntry i o * m.at t (.a i))) ∧
        (¬ IsMixed codecId p → m' = m)
    | .error e => e = .invalidArgument ∧ ¬ ∃ n ≤ maxSamples, ChannelsPresent m (ambisonicsChannels (presetOrder p)) n := by
  have hch : x.channels = (ambisonicsChannels (presetOrder p)).length := by
    obtain ⟨y, h1, h2, -⟩ := C59_presets codecId p maxSamples
    rw [h] at h1
    cases h1
    have : x.channels = x₀.channels := by
      clear h h2
      induction hx with
      | none => rfl
      | @more y z frame _ hp ih =>
        rw [← ih]
        unfold AmbisonicsMixer.push AmbisonicsMixer.pushDerived at hp
        split at hp
        · cases hp
        · split at hp
          · cases hp
          · split at hp
            · cases hp
            · split at hp
              · cases hp; rfl
              · cases ha : applyMixing y.matrix frame with
                | error e => rw [ha] at hp; cases hp
                | ok out => rw [ha] at hp; cases hp; rfl
    rw [this, h2]
    simp [ambisonicsChannels, pow_two]
  have hnd := channels_nodup (presetOrder p)
  unfold AmbisonicsMixer.runOn
  cases hp : presentSamples m (ambisonicsChannels (presetOrder p)) with
  | error e =>
    obtain ⟨h1, l, h2, h3⟩ := present_error hp
    refine ⟨h1, ?_⟩
    rintro ⟨n, -, hn⟩
    obtain ⟨s, h4, -⟩ := hn l h2
    rw [h3] at h4
    cases h4
  | ok input =>
    have hfr := frame_iff hp maxSamples
    obtain ⟨hl, hget⟩ := forall₂_get (present_frame hp)
    simp only [Bind.bind, Except.bind]
    -- reading a channel of the map
    have hat : ∀ (i : Nat) (hi : i < input.length), m ((ambisonicsChannels (presetOrder p))[i]'(by omega)) = some input[i] :=
      fun i hi => hget i (by omega) hi
    by_cases hm : IsMixed codecId p
    · have hmix := C59_channels_are_mixed codecId p hm maxSamples x₀ x h hx input
      have h16 : (ambisonicsChannels (presetOrder p)).length = 16 := by rw [hm.2]; rfl
      cases hpush : x.push input with
      | error e =>
        rw [hpush] at hmix
        rw [h16] at hfr
        exact ⟨hmix.1, fun hc => hmix.2 (hfr.mpr hc)⟩
      | ok y =>
        rw [hpush] at hmix
        obtain ⟨c1, c2, c3, c4⟩ := hmix
        simp only
        obtain ⟨m', w1, w2, w3⟩ := written (ambisonicsChannels (presetOrder p)) y.output m (by omega) hnd
        rw [w1]
        simp only
        obtain ⟨n, hn, hs⟩ := c1.2
        have hhead : (input.head?.getD []).length = n := by
          cases hi : input with
          | nil => rw [hi, h16] at hl; cases hl
          | cons s ss => exact hs s (by rw [hi]; simp)
        have hget16 : ∀ (k : Nat) (h : k < (ambisonicsChannels (presetOrder p)).length), (ambisonicsChannels (presetOrder p))[k] = Label.a k := by
          intro k h
          simp [ambisonicsChannels]
        refine ⟨.more hx hpush, w2, ⟨n, hn, ?_, ?_, fun _ o ho t ht => ?_⟩, fun hc => absurd hm hc⟩
        · intro l hlm
          obtain ⟨i, hi, rfl⟩ := List.getElem_of_mem hlm
          exact ⟨_, hat i (by omega), hs _ (List.getElem_mem _)⟩
        · intro l hlm
          obtain ⟨i, hi, rfl⟩ := List.getElem_of_mem hlm
          refine ⟨_, w3 i hi (by omega), ?_⟩
          rw [c3 _ (List.getElem_mem _) (input[0]'(by omega)) (List.getElem_mem _)]
          exact hs _ (List.getElem_mem _)
        · have e1 : m' (Label.a o) = some (y.output[o]'(by omega)) := by
            have := w3 o (by omega) (by omega)
            rwa [hget16 o (by omega)] at this
          have e2 := c4 o ho t (by omega)
          rw [frameSample, List.getElem?_eq_getElem (by omega : o < y.output.length), Option.getD_some] at e2
          rw [SamplesMap.at, e1, Option.getD_some, List.getD_eq_getElem?_getD, e2]
          refine Finset.sum_congr rfl fun i hi => ?_
          have hi : i < 16 := by simpa using hi
          have e3 := hat i (by omega)
          rw [hget16 i (by omega)] at e3
          rw [SamplesMap.at, e3, Option.getD_some, List.getD_eq_getElem?_getD, frameSample,
            List.getElem?_eq_getElem (by omega : i < input.length), Option.getD_some]
    · have hcopy := C59_channels_are_copied x₀ x maxSamples (.inl ⟨codecId, p, hm, h⟩) hx input
      cases hpush : x.push input with
      | error e =>
        rw [hpush, hch] at hcopy
        exact ⟨hcopy.1, fun hc => hcopy.2 (hfr.mpr hc)⟩
      | ok y =>
        rw [hpush, hch] at hcopy
        obtain ⟨c1, c2⟩ := hcopy
        simp only
        rw [c2]
        obtain ⟨m', w1, w2, w3⟩ := written (ambisonicsChannels (presetOrder p)) input m (by omega) hnd
        rw [w1]
        simp only
        have hsame : m' = m := by
          funext l
          by_cases hlm : l ∈ ambisonicsChannels (presetOrder p)
          · obtain ⟨i, hi, rfl⟩ := List.getElem_of_mem hlm
            rw [w3 i hi (by omega), hat i (by omega)]
          · exact w2 l hlm
        obtain ⟨n, hn, hs⟩ := hfr.mp c1
        refine ⟨.more hx hpush, w2, ⟨n, hn, hs, by rw [hsame]; exact hs, fun hc => absurd hc hm⟩, fun _ => hsame⟩

/-- The mixing matrix as one of the down-mixers of the encoder (C43 to C48): the channels it requires and a formula for each channel. -/
def thirdOrderDownMix : DownMix where
  inputs := ambisonicsChannels 3
  outputs := (List.range 16).map fun o => (.a o, fun _ x => ∑ i ∈ Finset.range 16, mixingEntry i o * x (.a i))

private theorem stored (p : MixFactors) (x : Nat → Label → Rat) (n : Nat) : ∀ (outs : List (Label × (MixFactors → (Label → Rat) → Rat)))
    (m : SamplesMap), (outs.map Prod.fst).Nodup → ∀ l,
      (l ∉ outs.map Prod.fst → storeOutputs p x n outs m l = m l) ∧
      ∀ F, (l, F) ∈ outs → storeOutputs p x n outs m l = some ((List.range n).map fun i => F p (x i))
  | [], m, _, l => ⟨fun _ => rfl, fun F h => by simp at h⟩
  | (k, G) :: outs, m, h, l => by
    have h1 := List.nodup_cons.mp h
    obtain ⟨a, b⟩ := stored p x n outs (m.set k ((List.range n).map fun i => G p (x i))) h1.2 l
    constructor
    · intro hl
      simp only [List.map_cons, List.mem_cons, not_or] at hl
      refine (a hl.2).trans ?_
      simp [SamplesMap.set, hl.1]
    · intro F hF
      rcases List.mem_cons.mp hF with hF | hF
      · cases hF
        refine (a h1.1).trans ?_
        simp [SamplesMap.set]
      · exact b F hF

/-- **C59 (the encoder).** On every frame that it takes, the mixer for third order ambisonics in Opus does what this down-mixer does; so
everything proved about the encoder with given down-mixers holds with it. -/
theorem C59_is_a_down_mixer (codecId : UInt32) (p : AmbisonicsPreset) (hm : IsMixed codecId p) (maxSamples : Nat) (x₀ x y : AmbisonicsMixer)
    (h : AmbisonicsMixer.fromPreset codecId p maxSamples = .ok x₀) (hx : AfterPushes x₀ x) (m m' : SamplesMap)
    (hrun : x.runOn (ambisonicsChannels 3) m = .ok (m', y)) (factors : MixFactors) : thirdOrderDownMix.run factors m = .ok m' := by
  have hd := C59_down_mixing codecId p maxSamples x₀ x h hx m
  rw [hm.2, hrun] at hd
  obtain ⟨-, h1, ⟨n, -, h2, h3, h4⟩, -⟩ := hd
  have h4 := h4 hm
  have hps : ∃ ss, presentSamples m (ambisonicsChannels 3) = .ok ss := by
    cases hp : presentSamples m (ambisonicsChannels 3) with
    | ok ss => exact ⟨ss, rfl⟩
    | error e =>
      obtain ⟨-, l, a, b⟩ := present_error hp
      obtain ⟨s, c, -⟩ := h2 l a
      rw [b] at c
      cases c
  obtain ⟨ss, hss⟩ := hps
  obtain ⟨hl, hg⟩ := forall₂_get (present_frame hss)
  have hlen : ∀ s ∈ ss, s.length = n := by
    intro s hs
    obtain ⟨i, hi, rfl⟩ := List.getElem_of_mem hs
    obtain ⟨s', a, b⟩ := h2 ((ambisonicsChannels 3)[i]'(by omega)) (List.getElem_mem _)
    rw [hg i (by omega) hi] at a
    cases a
    exact b
  have hct : commonTicks ss = .ok n := by
    cases hs : ss with
    | nil => rw [hs] at hl; cases hl
    | cons s ss' =>
      simp only [commonTicks]
      rw [if_pos, hlen s (by rw [hs]; simp)]
      simp only [List.all_eq_true, beq_iff_eq]
      intro t ht
      rw [hlen t (by rw [hs]; simp [ht]), hlen s (by rw [hs]; simp)]
  unfold DownMix.run
  show (presentSamples m (ambisonicsChannels 3) >>= fun ss => commonTicks ss >>= fun n => .ok (storeOutputs factors m.at n thirdOrderDownMix.outputs m)) = _
  rw [hss]
  simp only [Bind.bind, Except.bind, hct, Except.ok.injEq]
  have hfst : thirdOrderDownMix.outputs.map Prod.fst = ambisonicsChannels 3 := by
    simp [thirdOrderDownMix, ambisonicsChannels]
  funext l
  obtain ⟨a, b⟩ := stored factors m.at n thirdOrderDownMix.outputs m (by rw [hfst]; exact channels_nodup 3) l
  by_cases hlm : l ∈ ambisonicsChannels 3
  · obtain ⟨o, ho, rfl⟩ := List.mem_map.mp hlm
    have ho : o < 16 := by simpa using ho
    rw [b _ (List.mem_map.mpr ⟨o, List.mem_range.mpr ho, rfl⟩)]
    obtain ⟨s, c, d⟩ := h3 _ hlm
    rw [c]
    refine congrArg some (List.ext_getElem (by simp [d]) fun t t1 t2 => ?_)
    have := h4 o ho t (by omega)
    rw [SamplesMap.at, c, Option.getD_some, List.getD_eq_getElem?_getD, List.getElem?_eq_getElem t2, Option.getD_some] at this
    rw [this]
    simp
  · rw [a (by rw [hfst]; exact hlm), h1 l hlm]

/-! ### What is heard -/

private theorem keys_lookup : ∀ (m : SubstreamLabels), (m.map Prod.fst).Nodup →
    (m.map Prod.fst).map (fun s => (m.lookup s).getD []) = m.map Prod.snd
  | [], _ => rfl
  | (k, v) :: m, h => by
    have h1 := List.nodup_cons.mp h
    simp only [List.map_cons, List.lookup_cons_self, Option.getD_some, List.cons.injEq, true_and]
    rw [← keys_lookup m h1.2]
    refine List.map_congr_left fun s hs => ?_
    have hne : s ≠ k := fun hc => h1.1 (by rw [hc] at hs; exact hs)
    rw [List.lookup_cons, show (s == k) = false by simpa using hne]

/-- **C59 (substreams).** The audio element made with the configuration for third order ambisonics in Opus has 8 substreams, and the
16 channels in them, two each, are those of ambisonics in order. -/
theorem C59_substreams (id : UInt32) (reserved : UInt8) (cc : UInt32) (ids : List UInt32) (hn : ids.length < 256) (e : AudioElement)
    (h : AudioElement.createAmbisonics id reserved cc ids (.projection thirdOrderProjection) = .ok e) :
    e.elementType = 1 ∧ e.config = .ambisonics (.projection thirdOrderProjection) ∧ e.substreamIds = ids ∧ ids.Nodup ∧ ids.length = 8 ∧
      ∃ sub, finalizeAmbisonics e = .ok sub ∧ sub.map Prod.fst = ids ∧ allLabels sub = ambisonicsChannels 3 ∧
        ∀ x ∈ sub, x.2.length = 2 := by
  unfold AudioElement.createAmbisonics at h
  split at h
  · cases h
  · rename_i hd
    split at h
    · cases h
    · rename_i hc
      have hd : ids.Nodup := by simpa using hd
      have hc : UInt8.ofNat ids.length = 8 := Decidable.byContradiction hc
      have h8 : ids.length = 8 := by
        have := congrArg UInt8.toNat hc
        rw [UInt8.toNat_ofNat', Nat.mod_eq_of_lt (by omega)] at this
        exact this
      simp only [Except.ok.injEq] at h
      subst h
      refine ⟨rfl, rfl, rfl, hd, h8, ?_⟩
      obtain ⟨h1, h2⟩ := C27_ambisonics_projection ⟨id, 1, reserved, cc, ids, [], .ambisonics (.projection thirdOrderProjection)⟩
        thirdOrderProjection rfl rfl hd (by show 8 ≤ ids.length; omega) (by show ids.length < 2 ^ 32; omega)
      obtain ⟨sub, hs⟩ := h1.mpr ⟨h8, by show ids.length + 8 ≤ 25; omega⟩
      obtain ⟨a, b, c⟩ := h2 sub hs
      refine ⟨sub, hs, a, ?_, fun x hx => ?_⟩
      · rw [b, show ids.length = 8 from h8]
        rfl
      · have : x.2.length ∈ sub.map (fun x => x.2.length) := List.mem_map.mpr ⟨x, hx, rfl⟩
        rw [c, show ids.length = 8 from h8] at this
        simp only [List.mem_append, List.mem_replicate] at this
        rcases this with this | this
        · exact this.2
        · exact absurd rfl this.1

private theorem heard_sample {m' : SamplesMap} {f : RenderFrame} (hf : f.samples = m') {n j : Nat}
    (hp : ∃ s, m' (.a j) = some s ∧ s.length = n) (i : Nat) : sampleOf f (.a j) i = m'.at i (.a j) := by
  obtain ⟨s, h1, -⟩ := hp
  unfold sampleOf findSamples SamplesMap.at
  rw [hf, h1, if_neg (by intro hc; cases hc)]
  simp only [Option.getD_some, List.getD_eq_getElem?_getD]

private theorem sum_labels (F : Label → Nat → Rat) :
    ((ambisonicsChannels 3).zipIdx.map fun x => F x.1 x.2).sum = ∑ o ∈ Finset.range 16, F (.a o) o := by
  rfl

/-- **C59 (what is heard).** Let the encoder mix any frame of third order ambisonics for Opus.  A renderer for loudspeakers, made for the
audio element, renders the mixed channels (as they are when nothing is lost in coding) to what the gains for third order ambisonics make
of the sixteen channels before mixing, up to 0.0175 percent of the largest sample times the sum of the gains. -/
theorem C59_mixed_ambisonics_are_heard (codecId : UInt32) (p : AmbisonicsPreset) (hm : IsMixed codecId p) (maxSamples : Nat)
    (x₀ x y : AmbisonicsMixer) (hx₀ : AmbisonicsMixer.fromPreset codecId p maxSamples = .ok x₀) (hx : AfterPushes x₀ x)
    (m m' : SamplesMap) (hrun : x.runOn (ambisonicsChannels 3) m = .ok (m', y))
    (id : UInt32) (reserved : UInt8) (cc : UInt32) (ids : List UInt32) (hn : ids.length < 256) (e : AudioElement)
    (he : AudioElement.createAmbisonics id reserved cc ids x₀.config = .ok e) (sub : SubstreamLabels) (hsub : finalizeAmbisonics e = .ok sub)
    (E : RenderEnv) (rc : RenderingConfig) (d : Layout) (hb : ¬ (rc.headphonesMode = 1 ∧ d.type = 3)) (r : ElementRenderer)
    (hr : createRenderer E e sub rc d = .ok (some r)) :
    ∃ o g, (if d.type = 3 then stereoLayout else d).outputKey = .ok o ∧ E.gains (.ambisonics 3) o = .ok g ∧
      ∀ columns, MatrixShape g 16 columns → ∀ frameSize < 4294967296, ∀ (t : TrimmingSettings) (f : RenderFrame), f.samples = m' →
        match r.render frameSize t f with
        | .ok (out, ticks) => out.length = columns ∧ ∀ k < columns, ∀ i < ticks, ∀ B : Rat,
            (∀ j < 16, |m.at (startOf t f + i) (.a j)| ≤ B) →
            |frameSample out k i - ∑ j ∈ Finset.range 16, m.at (startOf t f + i) (.a j) * entry g j k| ≤
              175 / 1000000 * B * ∑ j ∈ Finset.range 16, |entry g j k|
        | .error e => e.fatal = false ∧ ¬ ∃ ticks, Renderable f t (ambisonicsChannels 3) frameSize ticks := by
  have hcfg : x₀.config = .projection thirdOrderProjection := by
    obtain ⟨z, h1, -, -, -, -, h2, -⟩ := C59_presets codecId p maxSamples
    rw [hx₀] at h1
    cases h1
    exact (h2 hm).1
  rw [hcfg] at he
  obtain ⟨e1, e2, e3, e4, e5, sub', e6, e7, e8, -⟩ := C59_substreams id reserved cc ids hn e he
  rw [hsub] at e6
  cases e6
  have hmap : (ids.map fun s => (sub.lookup s).getD []).flatten = ambisonicsChannels 3 := by
    rw [← e8, ← e7, keys_lookup sub (by rw [e7]; exact e4)]
    rfl
  -- the down-mixed frame
  have hdown := C59_down_mixing codecId p maxSamples x₀ x hx₀ hx m
  rw [hm.2, hrun] at hdown
  obtain ⟨-, -, ⟨n, -, -, hp', hmixed⟩, -⟩ := hdown
  have hmixed := hmixed hm
  -- the renderer
  have hscene : createScene E (.projection thirdOrderProjection) ids sub (if d.type = 3 then stereoLayout else d) = .ok (some r) := by
    unfold createRenderer at hr
    have hu : (rc.headphonesMode == 1 && d.type == 3) = false := by
      rw [Bool.eq_false_iff]
      intro hc
      simp only [Bool.and_eq_true, beq_iff_eq] at hc
      exact hb hc
    simp only [hu, Bool.not_false, Bool.true_and, e1, if_true, e2, e3, Bool.false_eq_true, if_false, beq_iff_eq] at hr
    exact hr
  obtain ⟨labels, order, o, g, l1, -, l3, l4, l5, l6⟩ := C39_projection E thirdOrderProjection ids sub _ (by decide +kernel) r hscene
  have hord : order = 3 := by
    have l3 : 16 = (order + 1) * (order + 1) := l3
    have : order < 4 := by
      refine Decidable.byContradiction fun hc => ?_
      have : 5 * 5 ≤ (order + 1) * (order + 1) := Nat.mul_le_mul (by omega) (by omega)
      omega
    have : order = 0 ∨ order = 1 ∨ order = 2 ∨ order = 3 := by omega
    rcases this with rfl | rfl | rfl | rfl <;> first | rfl | (exfalso; revert l3; decide)
  subst hord
  rw [hmap] at l1
  subst l1
  refine ⟨o, g, l4, l5, fun columns hg frameSize hf t f hfm => ?_⟩
  have hren := l6 columns hg frameSize hf t f
  cases hrr : r.render frameSize t f with
  | error e => rw [hrr] at hren; exact hren
  | ok res =>
    obtain ⟨out, ticks⟩ := res
    rw [hrr] at hren
    obtain ⟨⟨n', ⟨-, hn'⟩, -, hticks⟩, hout⟩ := hren
    have hmem : ∀ j < 16, Label.a j ∈ ambisonicsChannels 3 := fun j hj => List.mem_map.mpr ⟨j, List.mem_range.mpr hj, rfl⟩
    have hnn : n' = n := by
      obtain ⟨s, a, b⟩ := hn' (.a 0) (hmem 0 (by decide)) (by intro hc; cases hc)
      obtain ⟨s', a', b'⟩ := hp' (.a 0) (hmem 0 (by decide))
      unfold findSamples at a
      rw [hfm, a'] at a
      simp only [Except.ok.injEq] at a
      rw [← b, ← a, b']
    refine ⟨by rw [hout]; simp [projected], fun k hk i hi B hB => ?_⟩
    have hti : startOf t f + i < n := by omega
    have eo : frameSample out k i = ∑ j ∈ Finset.range 16, ambisonicsSample thirdOrderProjection f (ambisonicsChannels 3) (startOf t f + i) j * entry g j k := by
      rw [hout, frameSample, projected, List.getElem?_map, List.getElem?_range hk]
      simp only [Option.map_some, Option.getD_some, List.getElem?_map, List.getElem?_range hi]
      rfl
    have ea : ∀ j, ambisonicsSample thirdOrderProjection f (ambisonicsChannels 3) (startOf t f + i) j =
        ∑ o ∈ Finset.range 16, (∑ q ∈ Finset.range 16, mixingEntry q o * m.at (startOf t f + i) (.a q)) * demixingEntry thirdOrderProjection o j := by
      intro j
      unfold ambisonicsSample
      rw [sum_labels (fun l c => sampleOf f l (startOf t f + i) * demixingEntry thirdOrderProjection c j)]
      refine Finset.sum_congr rfl fun c hc => ?_
      have hc : c < 16 := by simpa using hc
      rw [heard_sample hfm (hp' _ (hmem c hc)), hmixed c hc _ hti]
    rw [eo, ← Finset.sum_sub_distrib, Finset.mul_sum]
    refine le_trans (Finset.abs_sum_le_sum_abs _ _) (Finset.sum_le_sum fun j hj => ?_)
    rw [← sub_mul, abs_mul, ea j]
    exact mul_le_mul_of_nonneg_right
      (C59_demixing_undoes_mixing (fun q => m.at (startOf t f + i) (.a q)) B hB j (by simpa using hj)) (abs_nonneg _)

/-! ### Which elements have a mixer -/

/-- The presets, as the user names them. -/
def namedPreset (v : Nat) (p : AmbisonicsPreset) : Prop := v = presetOrder p + 1

/-- **C59 (which elements).** The down-mixers of an element are those of the preset that the user first says for it: none if there is no
preset for it, or if its name is not known; otherwise the mixer for the preset, on the channels of its order. -/
theorem C59_which_mixer (metadata : List ElementPreset) (id codecId : UInt32) (samplesPerFrame : Nat) :
    ∃ mixers, ambisonicsDownMixers metadata id codecId samplesPerFrame = .ok mixers ∧
      ((mixers = [] ∧ ∀ before v after, metadata = before ++ ⟨id, some v⟩ :: after →
          (∀ e ∈ before, e.id = id → e.preset = none) → ∀ p, ¬ namedPreset v p) ∨
        ∃ before v after p x, metadata = before ++ ⟨id, some v⟩ :: after ∧ (∀ e ∈ before, e.id = id → e.preset = none) ∧
          namedPreset v p ∧ AmbisonicsMixer.fromPreset codecId p samplesPerFrame = .ok x ∧
          mixers = [(x, ambisonicsChannels (presetOrder p))]) := by
  have hnamed : ∀ v p, presetOfProto v = some p ↔ namedPreset v p := by
    intro v p
    unfold presetOfProto namedPreset
    split <;> cases p <;> simp_all [presetOrder]
  have key : ∀ md : List ElementPreset,
      (presetForElement id md = none ∧ ∀ before v after, md = before ++ ⟨id, some v⟩ :: after →
          (∀ e ∈ before, e.id = id → e.preset = none) → ∀ p, ¬ namedPreset v p) ∨
      ∃ before v after p, md = before ++ ⟨id, some v⟩ :: after ∧ (∀ e ∈ before, e.id = id → e.preset = none) ∧
          namedPreset v p ∧ presetForElement id md = some p := by
    intro md
    induction md with
    | nil => exact .inl ⟨rfl, fun before v after h => by simp at h⟩
    | cons a md ih =>
      obtain ⟨i, q⟩ := a
      by_cases hhit : i = id ∧ q ≠ none
      · obtain ⟨rfl, hq⟩ := hhit
        obtain ⟨v, rfl⟩ := Option.ne_none_iff_exists'.mp hq
        have hpe : presetForElement i (⟨i, some v⟩ :: md) = presetOfProto v := by
          simp [presetForElement]
        cases hv : presetOfProto v with
        | none =>
          refine .inl ⟨hpe.trans hv, fun before v' after h hbef p hc => ?_⟩
          cases before with
          | nil =>
            simp only [List.nil_append, List.cons.injEq, ElementPreset.mk.injEq, Option.some.injEq, true_and] at h
            rw [← h.1, ← hnamed, hv] at hc
            cases hc
          | cons b bs =>
            simp only [List.cons_append, List.cons.injEq] at h
            have := hbef b (by simp) (by rw [← h.1])
            rw [← h.1] at this
            cases this
        | some p => exact .inr ⟨[], v, md, p, rfl, by simp, (hnamed v p).mp hv, hpe.trans hv⟩
      · have hpe : presetForElement id (⟨i, q⟩ :: md) = presetForElement id md := by
          cases q with
          | none => rfl
          | some v =>
            have : i ≠ id := fun hc => hhit ⟨hc, by simp⟩
            simp [presetForElement, this]
        have hskip : ∀ e : ElementPreset, e = ⟨i, q⟩ → e.id = id → e.preset = none := by
          rintro e rfl h1
          exact Decidable.byContradiction fun h2 => hhit ⟨h1, h2⟩
        rcases ih with ⟨h1, h2⟩ | ⟨before, v, after, p, h1, h2, h3, h4⟩
        · refine .inl ⟨hpe.trans h1, fun before v after h hbef p => ?_⟩
          cases before with
          | nil =>
            simp only [List.nil_append, List.cons.injEq, ElementPreset.mk.injEq] at h
            exact absurd ⟨h.1.1, by rw [h.1.2]; simp⟩ hhit
          | cons b bs =>
            simp only [List.cons_append, List.cons.injEq] at h
            exact h2 bs v after h.2 (fun e he => hbef e (by simp [he])) p
        · refine .inr ⟨⟨i, q⟩ :: before, v, after, p, by rw [h1]; rfl, fun e he => ?_, h3, hpe.trans h4⟩
          rcases List.mem_cons.mp he with he | he
          · exact hskip e he
          · exact h2 e he
  unfold ambisonicsDownMixers
  rcases key metadata with ⟨h1, h2⟩ | ⟨before, v, after, p, h1, h2, h3, h4⟩
  · rw [h1]
    exact ⟨[], rfl, .inl ⟨rfl, h2⟩⟩
  · rw [h4]
    obtain ⟨x, a1, a2, a3, -⟩ := C59_presets codecId p samplesPerFrame
    simp only [a1, a3, Bind.bind, Except.bind]
    rw [if_neg (by rw [a2]; simp [ambisonicsChannels, pow_two])]
    exact ⟨_, rfl, .inr ⟨before, v, after, p, x, h1, h2, h3, a1, rfl⟩⟩

/-! ### Examples -/

/-- Third order ambisonics to be coded by Opus, and by another codec. -/
example : IsMixed 0x4f707573 .order3 ∧ ¬ IsMixed 0x6970636d .order3 ∧ ¬ IsMixed 0x4f707573 .order2 := by simp [IsMixed, presetOrder]

private def exampleMap : SamplesMap
  | .a n => some [(n : Rat) / 16, -1, 1 / 2]
  | _ => none

/-- The hypotheses of `C59_mixed_ambisonics_are_heard`, for a frame of three samples and stereo. -/
example : ∃ (x₀ y : AmbisonicsMixer) (m' : SamplesMap) (e : AudioElement) (sub : SubstreamLabels) (r : ElementRenderer),
    AmbisonicsMixer.fromPreset 0x4f707573 .order3 960 = .ok x₀ ∧ AfterPushes x₀ x₀ ∧
    x₀.runOn (ambisonicsChannels 3) exampleMap = .ok (m', y) ∧
    AudioElement.createAmbisonics 1 0 2 [10, 11, 12, 13, 14, 15, 16, 17] x₀.config = .ok e ∧ finalizeAmbisonics e = .ok sub ∧
    createRenderer exampleEnv e sub ⟨0, 0, 0, [], none, []⟩ ⟨2, .soundSystem 0 0⟩ = .ok (some r) := by
  obtain ⟨x₀, h1, -, -, -, -, h2, -⟩ := C59_presets 0x4f707573 .order3 960
  have hm : IsMixed 0x4f707573 .order3 := ⟨rfl, rfl⟩
  have h3 := C59_down_mixing 0x4f707573 .order3 960 x₀ x₀ h1 .none exampleMap
  have hall : ∃ n ≤ 960, ChannelsPresent exampleMap (ambisonicsChannels (presetOrder .order3)) n := by
    refine ⟨3, by decide, fun l hl => ?_⟩
    obtain ⟨j, -, rfl⟩ := List.mem_map.mp hl
    exact ⟨_, rfl, rfl⟩
  cases hr : x₀.runOn (ambisonicsChannels (presetOrder .order3)) exampleMap with
  | error e =>
    rw [hr] at h3
    exact absurd hall h3.2
  | ok z =>
    obtain ⟨m', y⟩ := z
    refine ⟨x₀, y, m', ⟨1, 1, 0, 2, [10, 11, 12, 13, 14, 15, 16, 17], [], .ambisonics (.projection thirdOrderProjection)⟩, _, _, h1, .none, hr,
      ?_, rfl, rfl⟩
    rw [(h2 hm).1]
    rfl

/-- The hypotheses of `C59_which_mixer` leave both cases: a known preset, and a name that is not known. -/
example : (ambisonicsDownMixers [⟨7, none⟩, ⟨7, some 4⟩] 7 0x4f707573 960).toOption.map List.length = some 1 ∧
    (ambisonicsDownMixers [⟨7, some 9⟩, ⟨7, some 4⟩] 7 0x4f707573 960).toOption.map List.length = some 0 := by
  decide +kernel

end Iamf.Props
