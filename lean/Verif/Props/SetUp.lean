import Verif.Props.SetUpParams
import Verif.Props.Profile
import Verif.Props.Lpcm
import Verif.Props.Reset
/-
  C53: which descriptors a decoder can be set up for, and what it then plays.
-/
namespace Iamf.Props
open Iamf

/-! ### Specification -/

open Classical in
/-- The mix presentations that a requested profile allows, in the order of the bitstream. -/
noncomputable def playableMixes (s : DecoderSettings) (x : Descriptors) : List MixPresentation :=
  x.mixes.filter fun m => decide (∃ p ∈ s.profiles, MixAllowed x.elements m p)

/-- The mix presentation, and the sub-mix of it, that the user gets: of the allowed ones, the first that meets the most important
preference (the id asked for, then what suits the layout asked for); in it, the first sub-mix with the layout asked for, or the
first one. -/
def Chosen (s : DecoderSettings) (x : Descriptors) (m : MixPresentation) (sub : SubMix) : Prop :=
  ∃ i k, FirstPreferred (preferences (x.elements.map fun e => (e.1, e.2.obu)) s.layout s.mixId) (playableMixes s x) i ∧
    (playableMixes s x)[i]? = some m ∧ ChosenSubMix s.layout m k ∧ m.subMixes[k]? = some sub

/-- The codec can decode the substreams of the element: of one or two channels, and with a configuration that it takes. -/
def Decodable (C : Codecs) (e : ElementWithData) : Prop :=
  ∀ c, e.codec = some c → ∀ l ∈ e.data.labels, (l.2.length = 1 ∨ l.2.length = 2) ∧
    ((∃ p, c.config.decoderConfig = .lpcm p ∧ ValidLpcm p) ∨
     (∀ p, c.config.decoderConfig ≠ .lpcm p) ∧ ∃ st, C.create c l.2.length = .ok st)

/-- What the user asks for can be played. -/
def CanPlay (C : Codecs) (s : DecoderSettings) (x : Descriptors) : Prop :=
  SoundDescriptors x ∧ ∃ m sub, Chosen s x m sub ∧ ∀ u ∈ sub.elements, ∀ e, x.elements.lookup u.id = some e → Decodable C e

/-! ### Uniqueness -/

private theorem first_unique : ∀ (ps : List (MixPresentation → Prop)) {ms : List MixPresentation} {i j : Nat},
    FirstPreferred ps ms i → FirstPreferred ps ms j → i = j := by
  intro ps
  induction ps with
  | nil => intro ms i j hi hj; exact hi.trans hj.symm
  | cons p ps ih =>
    intro ms i j hi hj
    rcases hi with ⟨m, h1, h2, h3⟩ | ⟨h1, h2⟩ <;> rcases hj with ⟨m', k1, k2, k3⟩ | ⟨k1, k2⟩
    · rcases Nat.lt_trichotomy i j with h | h | h
      · exact absurd h2 (k3 i h m h1)
      · exact h
      · exact absurd k2 (h3 j h m' k1)
    · exact absurd h2 (k1 m (List.mem_of_getElem? h1))
    · exact absurd k2 (h1 m' (List.mem_of_getElem? k1))
    · exact ih h2 k2

private theorem sub_unique {d : Option Layout} {m : MixPresentation} {i j : Nat} (hi : ChosenSubMix d m i) (hj : ChosenSubMix d m j) : i = j := by
  cases d with
  | none => exact Eq.trans hi (Eq.symm hj)
  | some d =>
    rcases hi with ⟨s, h1, ⟨l, h2, h3⟩, h4⟩ | ⟨h1, h2⟩ <;> rcases hj with ⟨s', k1, ⟨l', k2, k3⟩, k4⟩ | ⟨k1, k2⟩
    · rcases Nat.lt_trichotomy i j with h | h | h
      · exact absurd h3 (k4 i h s h1 l h2)
      · exact h
      · exact absurd k3 (h4 j h s' k1 l' k2)
    · exact absurd h3 (k2 s (List.mem_of_getElem? h1) l h2)
    · exact absurd k3 (h2 s' (List.mem_of_getElem? k1) l' k2)
    · rw [h1, k1]

private theorem chosen_unique {s : DecoderSettings} {x : Descriptors} {m m' : MixPresentation} {sub sub' : SubMix} (h : Chosen s x m sub)
    (h' : Chosen s x m' sub') : m = m' ∧ sub = sub' := by
  obtain ⟨i, k, h1, h2, h3, h4⟩ := h
  obtain ⟨i', k', h1', h2', h3', h4'⟩ := h'
  cases first_unique _ h1 h1'
  rw [h2] at h2'
  cases h2'
  cases sub_unique h3 h3'
  rw [h4] at h4'
  cases h4'
  exact ⟨rfl, rfl⟩

/-! ### Allowed mix presentations -/

private theorem except_bind_ok {α β : Type} {x : Except Err α} {f : α → Except Err β} {b : β} (h : (x >>= f) = .ok b) :
    ∃ a, x = .ok a ∧ f a = .ok b := by
  cases x with
  | error e => cases h
  | ok a => exact ⟨a, rfl, h⟩

private theorem mem_of_lookup {β : Type} {l : List (UInt32 × β)} {a : UInt32} {b : β} (h : l.lookup a = some b) : (a, b) ∈ l := by
  induction l with
  | nil => cases h
  | cons x l ih =>
    rw [List.lookup_cons] at h
    split at h
    · next he =>
      cases h
      rw [beq_iff_eq] at he
      subst he
      exact List.mem_cons_self
    · exact List.mem_cons_of_mem _ (ih h)

/-- The layouts of a channel-based element that was built. -/
private theorem layers_known (ids : List UInt32) : ∀ (ls : List ChannelLayer) (i : Nat) (acc : ChannelNumbers) (si : Nat) (r x : ElementLabels),
    finalizeLayers ids ls i acc si r = .ok x → ∀ l ∈ ls, (∃ c, layoutChannels l.layout = .ok c ∧ l.layout ≠ kLayoutExpanded) ∨
      l.layout = kLayoutExpanded ∧ ∃ e, l.expanded = some e := by
  intro ls
  induction ls with
  | nil => intro i acc si r x _ l hl; cases hl
  | cons l ls ih =>
    intro i acc si r x h
    unfold finalizeLayers at h
    obtain ⟨⟨c, g⟩, hg, h⟩ := except_bind_ok h
    obtain ⟨⟨m, si'⟩, -, h⟩ := except_bind_ok h
    simp only at h
    split at h
    · cases h
    · obtain ⟨gs, -, h⟩ := except_bind_ok h
      intro l' hl'
      rcases List.mem_cons.mp hl' with e | hl''
      · subst e
        unfold layerGroup at hg
        split at hg
        · next he =>
          refine .inr ⟨he, ?_⟩
          unfold expandedGroup at hg
          split at hg
          · cases hg
          · cases hx : l'.expanded with
            | none => rw [hx] at hg; cases hg
            | some e => exact ⟨e, rfl⟩
        · next he =>
          unfold layoutGroup at hg
          obtain ⟨c', hc', -⟩ := except_bind_ok hg
          exact .inl ⟨c', hc', he⟩
      · exact ih _ _ _ _ _ h l' hl''

private theorem layout_small {l : UInt8} {c : ChannelNumbers} (h : layoutChannels l = .ok c) : l.toNat ≤ 9 := by
  unfold layoutChannels at h
  split at h <;> first | omega | cases h

private theorem built_layers {x : Descriptors} (hx : ReadDescriptors x) {e : UInt32 × ElementWithData} (he : e ∈ x.elements) {c : ScalableLayout}
    (hc : e.2.obu.config = .scalable c) : ∀ l ∈ c.layers, l.layout.toNat ≤ 9 ∨ l.layout = kLayoutExpanded ∧ ∃ e, l.expanded = some e := by
  obtain ⟨h1, codecs, o, h2⟩ := hx.elements e he
  have ho := (C40_elements_of_descriptors _ _ _ h2).1
  rw [ho] at h1 hc
  obtain ⟨c0, c1, c2, c3⟩ := h1.config
  by_cases h0 : o.elementType = 0
  · obtain ⟨s, hs, -, h8⟩ := c0 h0
    rw [hc] at hs
    cases hs
    have hn : c.numLayers.toNat = c.layers.length := by
      unfold ScalableLayout.numLayers
      rw [UInt8.toNat_ofNat']; omega
    unfold generateElement at h2
    obtain ⟨d, hd, -⟩ := except_bind_ok h2
    rw [if_pos h0, hc] at hd
    simp only at hd
    unfold finalizeScalable at hd
    split at hd
    · cases hd
    · obtain ⟨r, hr, -⟩ := except_bind_ok hd
      rw [hn, List.take_length] at hr
      intro l hl
      rcases layers_known _ _ _ _ _ _ _ hr l hl with ⟨c', hc', -⟩ | h
      · exact .inl (layout_small hc')
      · exact .inr h
  · by_cases h1' : o.elementType = 1
    · obtain ⟨a, ha, -⟩ := c1 h1'; rw [hc] at ha; cases ha
    · by_cases h2' : o.elementType = 2
      · obtain ⟨a, ha, -⟩ := c2 h2'; rw [hc] at ha; cases ha
      · have := c3 h0 h1' h2'
        rw [hc] at this
        cases this
        exact fun l hl => (by cases hl)

private theorem lookup_own {x : Descriptors} (hc : ConsistentDescriptors x) {e : UInt32 × ElementWithData} (he : e ∈ x.elements) :
    x.elements.lookup e.1 = some e.2 := by
  have hn := hc.elementIds
  clear hc
  generalize x.elements = l at he hn
  induction l with
  | nil => cases he
  | cons y l ih =>
    obtain ⟨k, v⟩ := y
    simp only [List.map_cons, List.nodup_cons] at hn
    simp only [List.lookup]
    rcases List.mem_cons.mp he with h | h
    · subst h; simp
    · have : e.1 ≠ k := fun hk => hn.1 (hk ▸ List.mem_map_of_mem h)
      rw [beq_eq_false_iff_ne.mpr this]
      exact ih h hn.2

private theorem well_formed {x : Descriptors} (hx : ReadDescriptors x) (hc : ConsistentDescriptors x) (m : MixPresentation) :
    WellFormed x.elements m := by
  refine ⟨fun i a c l ls hi ha hl => ?_, fun c hc' d hd hid => ?_⟩
  · have := built_layers hx (mem_of_lookup hi) ha l (by rw [hl]; simp)
    rw [UInt8.le_iff_toNat_le]
    rcases this with h | ⟨h, -⟩
    · have : (15 : UInt8).toNat = 15 := rfl
      omega
    · rw [h]; decide
  · have key : ∀ c ∈ codecsOf x.elements (m.subMixes.flatMap (·.elements)), (c.config.configId, c) ∈ x.codecs := by
      intro c hc'
      unfold codecsOf at hc'
      obtain ⟨u, -, hu⟩ := List.mem_filterMap.mp hc'
      cases hl : x.elements.lookup u.id with
      | none => rw [hl] at hu; cases hu
      | some e =>
        rw [hl] at hu
        obtain ⟨-, -, c', hm, hc''⟩ := hc.elements _ (mem_of_lookup hl)
        have : c' = c := by
          simp only [Option.bind_some] at hu
          rw [hc''] at hu
          exact Option.some.inj hu
        subst this
        have := (hc.codecs _ hm).1
        simp only at this
        rw [← this]
        exact hm
    have h1 := key c hc'
    have h2 := key d hd
    rw [hid] at h1
    obtain ⟨i, hi, hi'⟩ := List.mem_iff_getElem.mp h1
    obtain ⟨j, hj, hj'⟩ := List.mem_iff_getElem.mp h2
    have h3 := (List.getElem?_inj (l := x.codecs.map Prod.fst) (i := i) (j := j) (by simpa using hi) hc.codecIds).mp (by
      simp only [List.getElem?_map, List.getElem?_eq_getElem hi, List.getElem?_eq_getElem hj, Option.map_some, hi', hj'])
    subst h3
    rw [hi'] at hj'
    exact congrArg Prod.snd hj'

open Classical in
private theorem supported_playable {s : DecoderSettings} (hs : ∀ p ∈ s.profiles, p ≤ 5) {x : Descriptors} (hx : ReadDescriptors x)
    (hc : ConsistentDescriptors x) : supportedMixes s x = playableMixes s x := by
  unfold supportedMixes playableMixes
  refine List.filter_congr fun m _ => ?_
  have := C24_succeeds_iff_supported x.elements m (well_formed hx hc m) s.profiles hs
  cases hf : (filterMix x.elements m s.profiles).1 with
  | ok u =>
    rw [hf] at this
    exact (decide_eq_true (this.mp rfl)).symm
  | error e =>
    rw [hf] at this
    refine (decide_eq_false fun h => ?_).symm
    have := this.mpr h
    cases this

open Classical in
private theorem playable_allowed {s : DecoderSettings} {x : Descriptors} {m : MixPresentation} (h : m ∈ playableMixes s x) :
    m ∈ x.mixes ∧ ∃ p ∈ s.profiles, MixAllowed x.elements m p := by
  obtain ⟨h1, h2⟩ := List.mem_filter.mp h
  exact ⟨h1, of_decide_eq_true h2⟩

/-! ### Decoders -/

variable {C : Codecs}

/-- One substream can be decoded. -/
private def Takes (C : Codecs) (c : CodecObu) (n : Nat) : Prop := (n = 1 ∨ n = 2) ∧
  ((∃ p, c.config.decoderConfig = .lpcm p ∧ ValidLpcm p) ∨ (∀ p, c.config.decoderConfig ≠ .lpcm p) ∧ ∃ st, C.create c n = .ok st)

private theorem decoder_iff (c : CodecObu) (n : Nat) : (∃ d, createDecoder C c n = .ok d) ↔
    (∃ p, c.config.decoderConfig = .lpcm p ∧ ValidLpcm p) ∨ (∀ p, c.config.decoderConfig ≠ .lpcm p) ∧ ∃ st, C.create c n = .ok st := by
  unfold createDecoder
  split
  · next l hl =>
    constructor
    · rintro ⟨d, h⟩
      obtain ⟨y, hy, -⟩ := except_bind_ok h
      exact .inl ⟨l, hl, (C37_decoder_for_valid_configurations l n _).mp ⟨y, hy⟩⟩
    · rintro (⟨p, hp, hv⟩ | ⟨hn, -⟩)
      · rw [hl] at hp
        cases hp
        obtain ⟨y, hy⟩ := (C37_decoder_for_valid_configurations l n c.config.numSamplesPerFrame).mpr hv
        refine ⟨.lpcm y, ?_⟩
        rw [hy]; rfl
      · exact absurd hl (hn l)
  · next hn =>
    constructor
    · rintro ⟨d, h⟩
      obtain ⟨y, hy, -⟩ := except_bind_ok h
      exact .inr ⟨fun p hp => hn p hp, y, hy⟩
    · rintro (⟨p, hp, -⟩ | ⟨-, st, hst⟩)
      · exact absurd hp (hn p)
      · refine ⟨.other st, ?_⟩
        rw [hst]; rfl

private theorem decoders_iff (c : CodecObu) : ∀ (m : SubstreamLabels) (ds : List (UInt32 × SubstreamDecoder C)),
    (ds.map Prod.fst ++ m.map Prod.fst).Nodup →
    ((∃ r, initDecoders C c m ds = .ok r) ↔ ∀ l ∈ m, Takes C c l.2.length) ∧
    ∀ r, initDecoders C c m ds = .ok r → r.map Prod.fst = ds.map Prod.fst ++ m.map Prod.fst := by
  intro m
  induction m with
  | nil =>
    intro ds _
    refine ⟨⟨fun _ l hl => (by cases hl), fun _ => ⟨ds, rfl⟩⟩, fun r h => ?_⟩
    have h := Except.ok.inj h
    rw [h]; simp
  | cons y m ih =>
    intro ds hn
    obtain ⟨id, labels⟩ := y
    have hfresh : ¬ (ds.lookup id).isSome = true := by
      rw [Option.not_isSome_iff_eq_none, List.lookup_eq_none_iff]
      intro z hz
      simp only [beq_eq_false_iff_ne, ne_eq, bne_iff_ne]
      intro he
      rw [List.nodup_append] at hn
      exact hn.2.2 z.1 (List.mem_map_of_mem hz) id (by simp) he.symm
    unfold initDecoders
    rw [if_neg hfresh]
    by_cases hlen : labels.length = 1 ∨ labels.length = 2
    · have hch : substreamChannelCount labels.length = .ok labels.length := by
        unfold substreamChannelCount
        rcases hlen with h | h <;> rw [h] <;> rfl
      rw [hch]
      simp only [bind, Except.bind]
      have hd := decoder_iff (C := C) c labels.length
      cases hcd : createDecoder C c labels.length with
      | error e =>
        refine ⟨⟨fun ⟨r, h⟩ => (by cases h), fun h => ?_⟩, fun r h => (by cases h)⟩
        have := hd.mpr (h (id, labels) (by simp)).2
        rw [hcd] at this
        obtain ⟨d, this⟩ := this
        cases this
      | ok d =>
        simp only
        obtain ⟨i1, i2⟩ := ih (ds ++ [(id, d)]) (by
          simpa only [List.map_append, List.map_cons, List.map_nil, List.append_assoc, List.singleton_append] using hn)
        refine ⟨i1.trans ⟨fun h l hl => ?_, fun h l hl => h l (by simp [hl])⟩, fun r h => ?_⟩
        · rcases List.mem_cons.mp hl with rfl | hl
          · exact ⟨hlen, hd.mp ⟨d, hcd⟩⟩
          · exact h l hl
        · rw [i2 r h]
          simp only [List.map_append, List.map_cons, List.map_nil, List.append_assoc, List.singleton_append]
    · have hch : substreamChannelCount labels.length = .error .invalidArgument := by
        unfold substreamChannelCount
        rw [if_neg (fun h => hlen (.inl h)), if_neg (fun h => hlen (.inr h))]
      rw [hch]
      exact ⟨⟨fun ⟨r, h⟩ => (by cases h), fun h => absurd (h (id, labels) (by simp)).1 hlen⟩, fun r h => (by cases h)⟩

private theorem elements_iff : ∀ (l : List (UInt32 × ElementWithData)) (M : RenderingModels C),
    (∀ e ∈ l, e.2.codec.isSome = true ∧ ∃ y, createDemixEntry e.1 e.2 = .ok y) →
    (M.decoders.map Prod.fst ++ (l.flatMap fun e => e.2.data.labels.map fun y => (y.1, e.2)).map Prod.fst).Nodup →
    ((∃ r, configureElements C l M = .ok r) ↔ ∀ e ∈ l, Decodable C e.2) := by
  intro l
  induction l with
  | nil => intro M _ _; exact ⟨fun _ e he => (by cases he), fun _ => ⟨M, rfl⟩⟩
  | cons e l ih =>
    intro M h hn
    obtain ⟨id, e⟩ := e
    obtain ⟨hcs, y, hy⟩ := h (id, e) (by simp)
    obtain ⟨c, hc⟩ := Option.isSome_iff_exists.mp hcs
    simp only at hc hy
    have hk : (e.data.labels.map fun y => (y.1, e)).map Prod.fst = e.data.labels.map Prod.fst := by
      rw [List.map_map]; rfl
    rw [List.flatMap_cons, List.map_append] at hn
    simp only [hk] at hn
    rw [← List.append_assoc] at hn
    obtain ⟨d1, d2⟩ := decoders_iff (C := C) c e.data.labels M.decoders (List.nodup_append.mp hn).1
    have hdec : Decodable C e ↔ ∀ l ∈ e.data.labels, Takes C c l.2.length := by
      refine ⟨fun k => k c hc, fun k c' hc' => ?_⟩
      rw [hc] at hc'
      cases hc'
      exact k
    unfold configureElements
    rw [hc]
    simp only
    cases hi : initDecoders C c e.data.labels M.decoders with
    | error er =>
      refine ⟨fun ⟨r, k⟩ => (by cases k), fun k => ?_⟩
      have := d1.mpr (hdec.mp (k (id, e) (by simp)))
      rw [hi] at this
      obtain ⟨d, this⟩ := this
      cases this
    | ok ds =>
      simp only [bind, Except.bind, hy]
      rw [ih _ (fun f hf => h f (by simp [hf])) (by simp only; rw [d2 ds hi]; exact hn)]
      refine ⟨fun k f hf => ?_, fun k f hf => k f (by simp [hf])⟩
      rcases List.mem_cons.mp hf with rfl | hf
      · exact hdec.mpr (d1.mp ⟨ds, hi⟩)
      · exact k f hf

private theorem plain_labels {l : UInt8} (h : l.toNat ≤ 9) : ∃ r, plainLayoutLabels l = .ok r := by
  unfold plainLayoutLabels
  generalize l.toNat = n at h ⊢
  have : n = 0 ∨ n = 1 ∨ n = 2 ∨ n = 3 ∨ n = 4 ∨ n = 5 ∨ n = 6 ∨ n = 7 ∨ n = 8 ∨ n = 9 := by omega
  rcases this with h | h | h | h | h | h | h | h | h | h <;> subst h <;> exact ⟨_, rfl⟩

private theorem entry_made {x : Descriptors} (hx : ReadDescriptors x) {e : UInt32 × ElementWithData} (he : e ∈ x.elements) {p : UInt8}
    (ha : ElementAllowed p e.2.obu) : ∃ y, createDemixEntry e.1 e.2 = .ok y := by
  unfold createDemixEntry
  have : ∃ ls, elementLabelsToReconstruct e.2.obu = .ok ls := by
    unfold elementLabelsToReconstruct
    rcases ha with ⟨h0, c, l, ls, hc, hl, -⟩ | ⟨h1, -⟩ | ⟨h2, -⟩
    · rw [if_pos h0, hc]
      simp only
      unfold labelsToReconstruct
      have hne : c.layers ≠ [] := by rw [hl]; simp
      rw [List.getLast?_eq_some_getLast hne]
      simp only
      have := built_layers hx he hc _ (List.getLast_mem hne)
      by_cases hexp : (c.layers.getLast hne).layout = kLayoutExpanded
      · rw [if_pos hexp]
        rcases this with h | ⟨-, ex, h⟩
        · rw [hexp] at h; exact absurd h (by decide)
        · rw [h]; exact ⟨_, rfl⟩
      · rw [if_neg hexp]
        rcases this with h | ⟨h, -⟩
        · exact plain_labels h
        · exact absurd h hexp
    · rw [if_neg (by rw [h1]; decide), if_pos (.inl h1)]; exact ⟨_, rfl⟩
    · rw [if_neg (by rw [h2]; decide), if_pos (.inr h2)]; exact ⟨_, rfl⟩
  obtain ⟨ls, hls⟩ := this
  rw [hls]
  exact ⟨_, rfl⟩

/-! ### Renderers -/

private theorem mapM_all {α β : Type} {f : α → Except Err β} : ∀ {l : List α}, (∀ a ∈ l, ∃ b, f a = .ok b) → ∃ r, l.mapM f = .ok r := by
  intro l
  induction l with
  | nil => intro _; exact ⟨[], rfl⟩
  | cons a l ih =>
    intro h
    obtain ⟨b, hb⟩ := h a (by simp)
    obtain ⟨r, hr⟩ := ih fun a ha => h a (by simp [ha])
    refine ⟨b :: r, ?_⟩
    rw [List.mapM_cons, hb, hr]
    rfl

private theorem mixes_exist {E : RenderEnv} (hE : GoodEnv E) {d : Layout} (hd : HasSoundSystem d) {n : Int} (hn : numChannelsFromLayout d = .ok n) :
    ∀ {es : List (SubMixElement × ElementWithData)}, (∀ p ∈ es, SceneOk p.2.obu ∧ AllSound p.2.data.labels) →
    ∃ y, createElementMixes E d es = .ok y := by
  intro es
  induction es with
  | nil => intro _; exact ⟨_, rfl⟩
  | cons p es ih =>
    intro h
    obtain ⟨s, e⟩ := p
    obtain ⟨x, hx, -⟩ := C39_made_renderers_work E hE e.obu (h (s, e) (by simp)).1 e.data.labels (h (s, e) (by simp)).2 s.rendering d hd n hn
    obtain ⟨y, hy⟩ := ih fun p hp => h p (by simp [hp])
    unfold createElementMixes
    rw [hx]
    cases x with
    | none => exact ⟨_, rfl⟩
    | some r =>
      simp only [bind, Except.bind, hy]
      cases y <;> exact ⟨_, rfl⟩

private theorem channels_mild {d : Layout} (hd : HasSoundSystem d) : ∃ y, orNull (numChannelsFromLayout d) = .ok y ∧
    ∀ n, y = some n → numChannelsFromLayout d = .ok n := by
  have : ∀ e, numChannelsFromLayout d = .error e → e.fatal = false := by
    intro e he
    unfold numChannelsFromLayout at he
    split at he
    · cases he
    · split at he
      · next h2 =>
        obtain ⟨s, r, hs⟩ := hd h2
        rw [hs] at he
        simp only at he
        split at he
        · cases he
        · cases he; rfl
      · cases he; rfl
  unfold orNull
  cases hx : numChannelsFromLayout d with
  | ok n => exact ⟨some n, rfl, fun m hm => by cases hm; rfl⟩
  | error e =>
    simp only [this e hx]
    exact ⟨none, rfl, fun m hm => (by cases hm)⟩

private theorem collect_known {elements : List (UInt32 × ElementWithData)} : ∀ {l : List SubMixElement},
    (∀ u ∈ l, ∃ e, elements.lookup u.id = some e) → ∃ r, collectElements elements l = .ok r ∧ r.map Prod.fst = l ∧
      ∀ p ∈ r, elements.lookup p.1.id = some p.2 := by
  intro l
  induction l with
  | nil => intro _; exact ⟨[], rfl, rfl, fun p hp => (by cases hp)⟩
  | cons u l ih =>
    intro h
    obtain ⟨e, he⟩ := h u (by simp)
    obtain ⟨r, hr, hm, hp⟩ := ih fun u hu => h u (by simp [hu])
    refine ⟨(u, e) :: r, ?_, by rw [List.map_cons, hm], fun p hp' => ?_⟩
    · unfold collectElements
      rw [he]
      simp only [hr, bind, Except.bind]
    · rcases List.mem_cons.mp hp' with rfl | hp'
      · exact he
      · exact hp p hp'

/-- The renderers for one sub-mix and one layout can be made. -/
private theorem mix_made {E : RenderEnv} (hE : GoodEnv E) (t : TrimmingSettings) {elements : List (UInt32 × ElementWithData)}
    (hel : ElementsOk elements) {m : MixPresentation} {sub : SubMix} (hm : m.subMixes = [sub]) (hne : sub.elements ≠ [])
    (hl : ∀ l ∈ sub.layouts, HasSoundSystem l.layout) (hknown : ∀ u ∈ sub.elements, ∃ e, elements.lookup u.id = some e)
    (hsame : ∀ c ∈ codecsOf elements sub.elements, ∀ d ∈ codecsOf elements sub.elements,
      c.config.numSamplesPerFrame = d.config.numSamplesPerFrame ∧ c.outputRate = d.outputRate) :
    ∃ y, createMix E t elements m = .ok y := by
  obtain ⟨es, h1, h2, h3⟩ := collect_known hknown
  have hok : ∀ p ∈ es, SceneOk p.2.obu ∧ AllSound p.2.data.labels ∧ p.2.codec.isSome := fun p hp => hel _ _ (h3 p hp)
  have hcs : ∃ cs, (es.map (·.2)).mapM (fun e => match e.codec with
      | none => (.error .ub : Except Err CodecObu)
      | some c => .ok c) = .ok cs ∧ cs.length = es.length ∧ ∀ c ∈ cs, c ∈ codecsOf elements sub.elements := by
    rw [← h2]
    clear h1 hsame hne hknown
    clear h2
    induction es with
    | nil => exact ⟨[], rfl, rfl, fun c hc => (by cases hc)⟩
    | cons p es ih =>
      obtain ⟨cs, i1, i2, i3⟩ := ih (fun p hp => h3 p (by simp [hp])) (fun p hp => hok p (by simp [hp]))
      obtain ⟨c, hc⟩ := Option.isSome_iff_exists.mp (hok p (by simp)).2.2
      refine ⟨c :: cs, ?_, by simp [i2], fun d hd => ?_⟩
      · rw [List.map_cons, List.mapM_cons, i1, hc]
        rfl
      · have hlk := h3 p (by simp)
        rw [List.map_cons]
        unfold codecsOf
        rw [List.filterMap_cons, hlk]
        simp only [Option.bind_some, hc]
        rcases List.mem_cons.mp hd with rfl | hd
        · simp
        · exact List.mem_cons_of_mem _ (i3 d hd)
  obtain ⟨cs, k1, k2, k3⟩ := hcs
  have hes : es ≠ [] := by
    rintro rfl
    exact hne h2.symm
  have hcp : ∃ rf, commonProperties (es.map (·.2)) = .ok rf := by
    unfold commonProperties
    simp only [bind, Except.bind]
    split
    · next e he =>
      have := k1.symm.trans he
      cases this
    · next v hv =>
      have := Except.ok.inj (k1.symm.trans hv)
      subst this
      cases cs with
      | nil => exact absurd (List.length_eq_zero_iff.mp k2.symm) hes
      | cons c cs =>
        simp only
        rw [if_neg, if_neg]
        · exact ⟨_, rfl⟩
        · simp only [List.any_eq_true, decide_eq_true_eq, not_exists, not_and, ne_eq, Decidable.not_not]
          exact fun d hd => (hsame d (k3 d (by simp [hd])) c (k3 c (by simp))).2
        · simp only [List.any_eq_true, decide_eq_true_eq, not_exists, not_and, ne_eq, Decidable.not_not]
          exact fun d hd => (hsame d (k3 d (by simp [hd])) c (k3 c (by simp))).1
  obtain ⟨⟨rate, size⟩, hcp⟩ := hcp
  have hsub : ∃ ls, createSubMix E t elements sub = .ok ls := by
    unfold createSubMix
    simp only [h1, hcp, bind, Except.bind]
    refine mapM_all fun l hlm => ?_
    obtain ⟨y, hy, hn⟩ := channels_mild (hl l hlm)
    have : ∃ r, createLayoutRenderer E t sub es rate size l.layout = .ok r := by
      unfold createLayoutRenderer
      rw [hy]
      cases y with
      | none => exact ⟨_, rfl⟩
      | some n =>
        obtain ⟨z, hz⟩ := mixes_exist hE (hl l hlm) (hn n rfl) fun p hp => ⟨(hok p hp).1, (hok p hp).2.1⟩
        simp only [bind, Except.bind, hz]
        cases z <;> exact ⟨_, rfl⟩
    obtain ⟨r, hr⟩ := this
    rw [hr]
    exact ⟨_, rfl⟩
  obtain ⟨ls, hls⟩ := hsub
  unfold createMix
  rw [hm]
  simp only [List.mapM_cons, List.mapM_nil, hls, bind, Except.bind, pure, Except.pure]
  split <;> exact ⟨_, rfl⟩

/-! ### Setting up -/

private theorem filter_nodup {l : List (UInt32 × ElementWithData)} (p : UInt32 × ElementWithData → Bool)
    (h : (l.flatMap fun e => e.2.obu.substreamIds).Nodup) : ((l.filter p).flatMap fun e => e.2.obu.substreamIds).Nodup := by
  have : ((l.filter p).flatMap fun e => e.2.obu.substreamIds).Sublist (l.flatMap fun e => e.2.obu.substreamIds) := by
    clear h
    induction l with
    | nil => exact .slnil
    | cons e l ih =>
      rw [List.filter_cons, List.flatMap_cons]
      split
      · rw [List.flatMap_cons]; exact (List.Sublist.refl _).append ih
      · exact ih.trans (List.sublist_append_right _ _)
  exact h.sublist this

private theorem extended_sub {d : Option Layout} {m m' : MixPresentation} (h : Extended d m m') {k : Nat} {s : SubMix}
    (hs : m'.subMixes[k]? = some s) : m'.id = m.id ∧ ∃ sub, m.subMixes[k]? = some sub ∧ sub.elements = s.elements ∧
      ∀ l ∈ s.layouts, l ∈ sub.layouts ∨ d = some l.layout := by
  cases h with
  | same _ => exact ⟨rfl, s, hs, rfl, fun l hl => .inl hl⟩
  | added d s' ss hd _ hm =>
    simp only at hs
    refine ⟨rfl, ?_⟩
    rw [hm]
    cases k with
    | zero =>
      simp only [List.getElem?_cons_zero, Option.some.injEq] at hs
      subst hs
      refine ⟨s', rfl, rfl, fun l hl => ?_⟩
      rcases List.mem_append.mp hl with hl | hl
      · exact .inl hl
      · simp only [List.mem_singleton] at hl
        subst hl
        exact .inr hd
    | succ k =>
      rw [List.getElem?_cons_succ] at hs ⊢
      exact ⟨s, hs, rfl, fun l hl => .inl hl⟩

/-- What is rendered: the mix presentation chosen, the layout asked for or its first one, and the sample rate and the frame size if
there is just one codec configuration. -/
structure PlaysChosen {B : Backend} (s : DecoderSettings) (x : Descriptors) (p : Processor B) : Prop where
  mix : ∃ m sub, Chosen s x m sub ∧ p.mixId = m.id ∧
    (s.layout = none → ∃ l, sub.layouts.head? = some l ∧ p.layout = l.layout)
  layout : ∀ l, s.layout = some l → p.layout = l
  rate : ∀ r n, p.rate = some (r, n) ↔ ∃ c, x.codecs = [c] ∧ c.2.outputRate = r ∧ c.2.config.numSamplesPerFrame = n

/-- Which descriptors can be set up, and for what. -/
theorem initAll_iff {M : GainMath Rat} {E : RenderEnv} (hE : GoodEnv E) (t : TrimmingSettings)
    {s : DecoderSettings} (hs : ∀ p ∈ s.profiles, p ≤ 5) (hl : ∀ l, s.layout = some l → HasSoundSystem l)
    {x : Descriptors} (hx : ReadDescriptors x) (hc : ConsistentDescriptors x) :
    ((∃ p, initAll (B := standardBackend M E C t) s x = .ok p) ↔ CanPlay C s x) ∧
    ∀ p, initAll (B := standardBackend M E C t) s x = .ok p → PlaysChosen s x p := by
  have hinit := initProcessor_iff hx hc
  have hlay := supported_layered hs hx
  have hsup := supported_playable hs hx hc
  rw [hsup] at hlay
  have hlay : Layered (x.elements.map fun e : UInt32 × ElementWithData => (e.1, e.2.obu)) (playableMixes s x) := hlay
  have hel : ElementsOk x.elements := by
    intro id e he
    obtain ⟨r1, codecs, o, r2⟩ := hx.elements _ (mem_of_lookup he)
    have := C40_elements_of_descriptors _ _ _ r2
    exact ⟨(scene_read r1).1, this.2.1, this.2.2⟩
  -- without a mix presentation that is allowed
  by_cases hnil : playableMixes s x = []
  · have hno : ∀ p, initAll (B := standardBackend M E C t) s x ≠ .ok p := by
      intro p h
      unfold initAll at h
      obtain ⟨q, -, h⟩ := except_bind_ok h
      unfold initRendering at h
      rw [hsup, hnil] at h
      split at h
      · cases h
      · split at h
        · cases h
        · rw [if_pos (by rfl)] at h; cases h
    refine ⟨⟨fun ⟨p, h⟩ => absurd h (hno p), fun ⟨_, m, sub, ⟨i, k, _, h, _, _⟩, _⟩ => ?_⟩, fun p h => absurd h (hno p)⟩
    rw [hnil] at h; simp at h
  -- otherwise one of them is chosen
  obtain ⟨i, m, hfirst, hmi, hsel⟩ := C23_selection _ (playableMixes s x) s.layout s.mixId hlay hnil
  have hmem : m ∈ playableMixes s x := List.mem_of_getElem? hmi
  obtain ⟨hmx, p, hp, hallow⟩ := playable_allowed hmem
  obtain ⟨flag, hread⟩ := hx.mixes m hmx
  have hne1 : x.mixes.isEmpty = false := by
    cases hm : x.mixes with
    | nil => rw [hm] at hmx; cases hmx
    | cons a l => rfl
  have hne2 : x.elements.isEmpty = false := by
    obtain ⟨u, hu, hue⟩ := hallow.codecs.used
    obtain ⟨v, hv⟩ := List.exists_mem_of_ne_nil _ hue
    obtain ⟨a, c, ha, -⟩ := hallow.codecs.known u hu v hv
    cases hm : x.elements with
    | nil => rw [hm] at ha; cases ha
    | cons a l => rfl
  have hne3 : (playableMixes s x).isEmpty = false := by
    cases hm : playableMixes s x with
    | nil => exact absurd hm hnil
    | cons a l => rfl
  have hsubne : m.subMixes ≠ [] := hread.nonempty
  cases hf : findMixAndLayout (x.elements.map fun e => (e.1, e.2.obu)) (playableMixes s x) s.layout s.mixId with
  | error e =>
    rw [hf] at hsel
    exfalso
    rcases hsel.2 with h | ⟨-, u, us, hu, hul⟩
    · exact hsubne h
    · have := (hread.subs u (by rw [hu]; simp)).stereo
      rw [hul] at this
      cases this
  | ok r =>
    rw [hf] at hsel
    obtain ⟨r1, r2, r3, r4, m', sub', lay, r5, r6, r7, r8, r9⟩ := hsel
    obtain ⟨e1, sub, e2, e3, e4⟩ := extended_sub r5 r7
    have hchosen : Chosen s x m sub := ⟨i, r.subMixIndex, hfirst, hmi, r4, e2⟩
    have hsubm : sub ∈ m.subMixes := List.mem_of_getElem? e2
    have hil : i < (playableMixes s x).length := (List.getElem?_eq_some_iff.mp hmi).1
    have hget : r.mixes[r.mix]? = some m' := by
      rw [r6, r1, List.getElem?_set]
      simp [hil]
    have hsimple : simplifyMix m' r.subMixIndex r.layoutIndex = .ok { m' with subMixes := [{ sub' with layouts := [lay] }] } := by
      unfold simplifyMix
      rw [if_neg (by omega)]
      simp only [Int.toNat_natCast, r7]
      rw [if_neg (by omega)]
      simp only [r8]
    have hfil : ∀ e, e ∈ (x.elements.filter fun e => (subMixElementIds [{ sub' with layouts := [lay] }]).contains e.1) ↔
        ∃ u ∈ sub.elements, x.elements.lookup u.id = some e.2 ∧ u.id = e.1 := by
      intro e
      simp only [List.mem_filter, subMixElementIds, List.flatMap_cons, List.flatMap_nil, List.append_nil, List.contains_iff_mem, List.mem_map,
        ← e3]
      constructor
      · rintro ⟨he, u, hu, hid⟩
        exact ⟨u, hu, by rw [hid]; exact lookup_own hc he, hid⟩
      · rintro ⟨u, hu, hlk, hid⟩
        have := mem_of_lookup hlk
        rw [hid] at this
        exact ⟨this, u, hu, hid⟩
    have hconf : SoundDescriptors x → ((∃ z, configurePipeline E C t x.elements { m' with subMixes := [{ sub' with layouts := [lay] }] } = .ok z) ↔
        ∀ u ∈ sub.elements, ∀ e, x.elements.lookup u.id = some e → Decodable C e) := by
      intro hsound
      obtain ⟨y, hy⟩ := mix_made hE t hel (m := { m' with subMixes := [{ sub' with layouts := [lay] }] })
        (sub := { sub' with layouts := [lay] }) rfl (by simp only; rw [← e3]; exact (hread.subs sub hsubm).nonempty) (by
          intro l hlm
          simp only [List.mem_singleton] at hlm
          subst hlm
          rcases e4 _ (List.mem_of_getElem? r8) with h | h
          · exact ((hread.subs sub hsubm).layouts _ h).2.mp
          · exact hl _ h) (by
          intro u hu
          simp only [← e3] at hu
          obtain ⟨a, c, ha, -⟩ := hallow.codecs.known sub hsubm u hu
          exact ⟨a, ha⟩) (by
          simp only [← e3]
          have hin : ∀ c ∈ codecsOf x.elements sub.elements, c ∈ codecsOf x.elements (m.subMixes.flatMap (·.elements)) := by
            intro c hcc
            unfold codecsOf at hcc ⊢
            obtain ⟨u, hu, h⟩ := List.mem_filterMap.mp hcc
            exact List.mem_filterMap.mpr ⟨u, List.mem_flatMap.mpr ⟨sub, hsubm, hu⟩, h⟩
          exact fun c hcc d hd => hallow.codecs.same c (hin c hcc) d (hin d hd))
      have hmade : ∀ e ∈ x.elements.filter fun e => (subMixElementIds [{ sub' with layouts := [lay] }]).contains e.1,
          e.2.codec.isSome = true ∧ ∃ y, createDemixEntry e.1 e.2 = .ok y := by
        intro e he
        have hex := (List.mem_filter.mp he).1
        obtain ⟨u, hu, hlk, -⟩ := (hfil e).mp he
        refine ⟨(hel _ _ hlk).2.2, ?_⟩
        obtain ⟨a, ha, hal⟩ := hallow.elements sub hsubm u hu
        rw [hlk] at ha
        cases ha
        exact entry_made hx hex hal
      have hdec := elements_iff (C := C) (x.elements.filter fun e => (subMixElementIds [{ sub' with layouts := [lay] }]).contains e.1)
        ⟨[], [], [], none⟩ hmade (by
          simp only [List.map_nil, List.nil_append]
          refine keys_nodup _ (fun e he => ?_) (filter_nodup _ hsound.substreams)
          obtain ⟨-, codecs, o, h2⟩ := hx.elements e (List.mem_filter.mp he).1
          exact labelled_substreams h2)
      have hdec' : (∃ z, configureElements C (x.elements.filter fun e => (subMixElementIds [{ sub' with layouts := [lay] }]).contains e.1)
          ⟨[], [], [], none⟩ = .ok z) ↔ ∀ u ∈ sub.elements, ∀ e, x.elements.lookup u.id = some e → Decodable C e := by
        refine hdec.trans ⟨fun k u hu e he => ?_, fun k e he => ?_⟩
        · exact k (u.id, e) ((hfil _).mpr ⟨u, hu, he, rfl⟩)
        · obtain ⟨u, hu, hlk, -⟩ := (hfil e).mp he
          exact k u hu e.2 hlk
      rw [← hdec']
      unfold configurePipeline
      constructor
      · rintro ⟨z, hz⟩
        obtain ⟨w, hw, -⟩ := except_bind_ok hz
        exact ⟨w, hw⟩
      · rintro ⟨w, hw⟩
        refine ⟨⟨w.relevant, w.decoders, w.demixing, y⟩, ?_⟩
        simp only [hw, hy, bind, Except.bind]
    have hsplit : ∀ q, initRendering (B := standardBackend M E C t) s x q =
        (configurePipeline E C t x.elements { m' with subMixes := [{ sub' with layouts := [lay] }] }).bind fun z =>
          .ok ⟨q.1, q.2, z, m'.id, r.layout, sampleRateAndFrameSize x⟩ := by
      intro q
      unfold initRendering
      rw [hsup, hne1, hne2, hne3]
      simp only [Bool.false_eq_true, if_false, hf, bind, Except.bind, hget, hsimple]
      rfl
    constructor
    · constructor
      · rintro ⟨p, h⟩
        unfold initAll at h
        obtain ⟨q, hq, h⟩ := except_bind_ok h
        have hsound := hinit.mp ⟨q, hq⟩
        rw [hsplit] at h
        obtain ⟨z, hz, -⟩ := except_bind_ok h
        exact ⟨hsound, m, sub, hchosen, (hconf hsound).mp ⟨z, hz⟩⟩
      · rintro ⟨hsound, m1, sub1, hch1, hdec⟩
        obtain ⟨rfl, rfl⟩ := chosen_unique hch1 hchosen
        obtain ⟨q, hq⟩ := hinit.mpr hsound
        obtain ⟨z, hz⟩ := (hconf hsound).mpr hdec
        refine ⟨⟨q.1, q.2, z, m'.id, r.layout, sampleRateAndFrameSize x⟩, ?_⟩
        unfold initAll
        rw [hq]
        simp only [bind, Except.bind]
        rw [hsplit, hz]
        rfl
    · intro p h
      unfold initAll at h
      obtain ⟨q, hq, h⟩ := except_bind_ok h
      rw [hsplit] at h
      obtain ⟨z, hz, h⟩ := except_bind_ok h
      have h := Except.ok.inj h
      subst h
      refine ⟨⟨m, sub, hchosen, e1, fun hnone => ?_⟩, r2, fun rr n => ?_⟩
      · obtain ⟨k1, k2⟩ := r3 hnone
        rw [hnone] at r5
        cases r5 with
        | same _ =>
          rw [r7] at e2
          have e2 := Option.some.inj e2
          subst e2
          refine ⟨lay, ?_, r9.symm⟩
          rw [k2] at r8
          rw [List.head?_eq_getElem?, r8]
        | added d _ _ hd => cases hd
      · simp only
        unfold sampleRateAndFrameSize
        constructor
        · intro hh
          split at hh
          · next c hc1 => cases hh; exact ⟨c, hc1, rfl, rfl⟩
          · cases hh
        · rintro ⟨c, hc1, rfl, rfl⟩
          rw [hc1]

end Iamf.Props
