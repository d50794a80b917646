import Verif.Cli.Profile
import Mathlib.Data.List.Perm.Subperm
/-
  Properties of the filtering of profiles: C24.
-/
namespace Iamf.Props
open Iamf

/-! ## Specification -/

/-- The limits of a profile. -/
structure Limits where
  subMixes : Nat
  codecConfigs : Nat
  audioElements : Nat
  channels : Nat

/-- The limits of the six defined profiles: Simple, Base, Base-Enhanced, Base-Advanced, Advanced 1, Advanced 2. -/
def limits : UInt8 → Option Limits
  | 0 => some ⟨1, 1, 1, 16⟩
  | 1 => some ⟨1, 1, 2, 18⟩
  | 2 => some ⟨1, 1, 28, 28⟩
  | 3 => some ⟨2, 2, 18, 18⟩
  | 4 => some ⟨2, 2, 18, 18⟩
  | 5 => some ⟨2, 2, 28, 28⟩
  | _ => none

/-- The list has at most `n` different members. -/
def AtMost (n : Nat) (l : List UInt32) : Prop := ∀ k : List UInt32, k.Nodup → (∀ x ∈ k, x ∈ l) → k.length ≤ n

/-- The first layer of a channel based element: the layouts from mono to binaural for all profiles; expanded layouts from
Base-Enhanced on, and those of 10.2.9.3 and 7.1.5.4 from Base-Advanced on. -/
def LayerAllowed (p : UInt8) (l : ChannelLayer) : Prop :=
  l.layout ≤ 9 ∨ (l.layout = 15 ∧ 2 ≤ p ∧ ∃ x, l.expanded = some x ∧ (x ≤ 12 ∨ x ≤ 19 ∧ 3 ≤ p))

/-- Audio elements: channel based and scene based elements for all profiles, objects from Base-Advanced on, nothing else. -/
def ElementAllowed (p : UInt8) (e : AudioElement) : Prop :=
  (e.elementType = 0 ∧ ∃ c l ls, e.config = .scalable c ∧ c.layers = l :: ls ∧ LayerAllowed p l) ∨
  (e.elementType = 1 ∧ ∃ a, e.config = .ambisonics a) ∨
  (e.elementType = 2 ∧ 3 ≤ p)

/-- The codec configurations used by the elements. -/
def codecsOf (aes : List (UInt32 × ElementWithData)) (es : List SubMixElement) : List CodecObu :=
  es.filterMap fun e => (aes.lookup e.id).bind (·.codec)

/-- The number of channels of the elements. -/
def channelsOf (aes : List (UInt32 × ElementWithData)) (es : List SubMixElement) : Nat :=
  ((es.filterMap fun e => aes.lookup e.id).map fun a => (a.data.labels.flatMap Prod.snd).length).sum

/-- The rules for codec configurations of section 4 of the specification that hold for all profiles. -/
structure CodecRules (aes : List (UInt32 × ElementWithData)) (m : MixPresentation) : Prop where
  /-- every element is known and has a codec configuration -/
  known : ∀ s ∈ m.subMixes, ∀ e ∈ s.elements, ∃ a c, aes.lookup e.id = some a ∧ a.codec = some c
  /-- there is an element -/
  used : ∃ s ∈ m.subMixes, s.elements ≠ []
  /-- the first sub-mix uses only one codec configuration -/
  first : ∀ s, m.subMixes.head? = some s → AtMost 1 ((codecsOf aes s.elements).map (·.config.configId))
  /-- one of several codec configurations is LPCM -/
  lpcm : AtMost 1 ((codecsOf aes (m.subMixes.flatMap (·.elements))).map (·.config.configId)) ∨
    ∃ c ∈ codecsOf aes (m.subMixes.flatMap (·.elements)), c.config.codecId = 0x6970636d
  /-- they have the same frame size and output sample rate -/
  same : ∀ c ∈ codecsOf aes (m.subMixes.flatMap (·.elements)), ∀ d ∈ codecsOf aes (m.subMixes.flatMap (·.elements)),
    c.config.numSamplesPerFrame = d.config.numSamplesPerFrame ∧ c.outputRate = d.outputRate

/-- A profile supports a mix presentation. -/
structure MixAllowed (aes : List (UInt32 × ElementWithData)) (m : MixPresentation) (p : UInt8) : Prop where
  codecs : CodecRules aes m
  limits : ∃ l, limits p = some l ∧ m.subMixes.length ≤ l.subMixes ∧
    AtMost l.codecConfigs ((codecsOf aes (m.subMixes.flatMap (·.elements))).map (·.config.configId)) ∧
    (m.subMixes.flatMap (·.elements)).length ≤ l.audioElements ∧
    channelsOf aes (m.subMixes.flatMap (·.elements)) ≤ l.channels
  elements : ∀ s ∈ m.subMixes, ∀ e ∈ s.elements, ∃ a, aes.lookup e.id = some a ∧ ElementAllowed p a.obu
  headphones : ∀ s ∈ m.subMixes, ∀ e ∈ s.elements,
    e.rendering.headphonesMode ≠ 3 ∧ (e.rendering.headphonesMode = 2 → 3 ≤ p)

/-! ## Proofs -/

/-- A filter keeps exactly the profiles with the property, and fails only if none is left. -/
private def Keeps (f : ProfileFilter) (S : UInt8 → Prop) : Prop :=
  ∀ s, (∀ p, p ∈ (f s).2 ↔ p ∈ s ∧ S p) ∧ ∀ e, (f s).1 = .error e → e = .invalidArgument ∧ (f s).2 = []

private theorem Keeps.andThen {f g : ProfileFilter} {S T : UInt8 → Prop} (hf : Keeps f S) (hg : Keeps g T) :
    Keeps (f.andThen g) (fun p => S p ∧ T p) := by
  intro s
  obtain ⟨h1, h2⟩ := hf s
  unfold ProfileFilter.andThen
  split
  next s' h =>
    rw [h] at h1 h2
    obtain ⟨h3, h4⟩ := hg s'
    refine ⟨fun p => ?_, h4⟩
    rw [h3, h1, and_assoc]
  next e s' h =>
    rw [h] at h1 h2
    obtain ⟨h3, h4⟩ := h2 e rfl
    simp only at h4
    refine ⟨fun p => ?_, fun e' he => ⟨by cases he; exact h3, h4⟩⟩
    have := h1 p
    simp only [h4, List.not_mem_nil, false_iff] at this ⊢
    exact fun ⟨a, b, _⟩ => this ⟨a, b⟩

private theorem Keeps.congr {f : ProfileFilter} {S T : UInt8 → Prop} (hf : Keeps f S) (h : ∀ p, S p ↔ T p) : Keeps f T := by
  intro s
  refine ⟨fun p => ?_, (hf s).2⟩
  rw [(hf s).1, h]

private theorem keeps_failIfEmpty : Keeps failIfEmpty (fun _ => True) := by
  intro s
  unfold failIfEmpty
  cases s <;> simp

private theorem keeps_clear : Keeps clearAll (fun _ => False) := by
  intro s; simp [clearAll]

private theorem keeps_ok : Keeps (fun s => (.ok (), s)) (fun _ => True) := by
  intro s; simp

private theorem keeps_erasing (ps : List UInt8) : Keeps (erasing ps) (fun p => p ∉ ps) := by
  intro s; simp [erasing, eraseProfiles]

private theorem keeps_all {α : Type} {f : α → ProfileFilter} {S : α → UInt8 → Prop} (h : ∀ a, Keeps (f a) (S a)) (l : List α) :
    Keeps (filterAll f l) (fun p => ∀ a ∈ l, S a p) := by
  induction l with
  | nil => exact keeps_ok.congr (by simp)
  | cons a l ih => exact ((h a).andThen ih).congr (by simp)

private theorem not_ok {f : ProfileFilter} {s s' : List UInt8} {u : Unit} (h : (f.andThen failIfEmpty) s = (.ok u, s')) : s' ≠ [] := by
  unfold ProfileFilter.andThen at h
  split at h
  · unfold failIfEmpty at h
    split at h
    · cases h
    next hh => cases h; simpa using hh
  · cases h

private theorem andThen_ok {f g : ProfileFilter} {s s' : List UInt8} {u : Unit} (h : (f.andThen g) s = (.ok u, s')) :
    ∃ t, g t = (.ok u, s') := by
  unfold ProfileFilter.andThen at h
  split at h
  next t _ => exact ⟨t, h⟩
  · cases h

private theorem mem012 (p : UInt8) : p ∉ [0, 1, 2] ↔ 3 ≤ p := by
  simp only [List.mem_cons, List.not_mem_nil, or_false, ← UInt8.toNat_inj, UInt8.le_iff_toNat_le]
  simp only [UInt8.reduceToNat]; omega

private theorem keeps_element (e : AudioElement) (hl : ∀ c l ls, e.config = .scalable c → c.layers = l :: ls → l.layout ≤ 15)
    : ∃ S, Keeps (filterElement e) S ∧ ∀ p, p ≤ 5 → (S p ↔ ElementAllowed p e) := by
  unfold filterElement filterElementType
  refine ⟨_, (((keeps_erasing _).andThen keeps_failIfEmpty).andThen
    (T := fun p => (e.elementType = 0 → ∃ c l ls, e.config = .scalable c ∧ c.layers = l :: ls ∧
        (l.layout ≤ 9 ∨ (10 ≤ l.layout ∧ l.layout ≤ 14 ∧ 6 ≤ p) ∨ (l.layout = 15 ∧ 2 ≤ p ∧ ∃ x, l.expanded = some x ∧ (x ≤ 12 ∨ (x ≤ 19 ∧ p ≠ 2) ∨ 6 ≤ p)))) ∧
      (e.elementType = 1 → ∃ a, e.config = .ambisonics a)) ?_), ?_⟩
  · split
    next h0 =>
      simp only [h0, true_implies]
      refine Keeps.congr (S := fun p => ∃ c l ls, e.config = .scalable c ∧ c.layers = l :: ls ∧
        (l.layout ≤ 9 ∨ (10 ≤ l.layout ∧ l.layout ≤ 14 ∧ 6 ≤ p) ∨ (l.layout = 15 ∧ 2 ≤ p ∧ ∃ x, l.expanded = some x ∧ (x ≤ 12 ∨ (x ≤ 19 ∧ p ≠ 2) ∨ 6 ≤ p)))) ?_ (by simp)
      unfold filterChannelBased
      split
      next c hc =>
        split
        next hn => exact keeps_clear.congr (by simp [hc, hn])
        next l ls hls =>
          have h15 := hl c l ls hc hls
          have red : ∀ p : UInt8, (∃ c l ls, e.config = .scalable c ∧ c.layers = l :: ls ∧
              (l.layout ≤ 9 ∨ (10 ≤ l.layout ∧ l.layout ≤ 14 ∧ 6 ≤ p) ∨ (l.layout = 15 ∧ 2 ≤ p ∧ ∃ x, l.expanded = some x ∧ (x ≤ 12 ∨ (x ≤ 19 ∧ p ≠ 2) ∨ 6 ≤ p)))) ↔
              (l.layout ≤ 9 ∨ (10 ≤ l.layout ∧ l.layout ≤ 14 ∧ 6 ≤ p) ∨ (l.layout = 15 ∧ 2 ≤ p ∧ ∃ x, l.expanded = some x ∧ (x ≤ 12 ∨ (x ≤ 19 ∧ p ≠ 2) ∨ 6 ≤ p))) := by
            intro p
            constructor
            · rintro ⟨c', l', ls', h1, h2, h3⟩
              rw [hc] at h1; cases h1
              rw [hls] at h2; cases h2
              exact h3
            · exact fun h => ⟨c, l, ls, hc, hls, h⟩
          refine Keeps.congr ?_ (fun p => (red p).symm)
          split
          next h9 =>
            refine (((keeps_erasing []).andThen keeps_failIfEmpty)).congr fun p => ?_
            simp only [List.not_mem_nil, not_false_eq_true, and_true, true_iff]
            left
            simp only [UInt8.lt_iff_toNat_lt, UInt8.le_iff_toNat_le, UInt8.reduceToNat] at h9 ⊢; omega
          next h9 =>
            split
            next h14 =>
              refine (((keeps_erasing _).andThen keeps_failIfEmpty)).congr fun p => ?_
              simp only [List.mem_cons, List.not_mem_nil, or_false, ← UInt8.toNat_inj, UInt8.le_iff_toNat_le, UInt8.lt_iff_toNat_lt, UInt8.reduceToNat, and_true] at h9 h14 ⊢
              omega
            next h14 =>
              split
              next he =>
                unfold filterExpanded
                split
                next hn =>
                  refine ((((keeps_erasing _).andThen keeps_clear)).andThen keeps_failIfEmpty).congr fun p => ?_
                  simp [hn, he]
                next x hx =>
                  refine ((((keeps_erasing _).andThen ((keeps_erasing _).andThen keeps_failIfEmpty))).andThen keeps_failIfEmpty).congr fun p => ?_
                  simp only [hx, Option.some.injEq, exists_eq_left', he, and_true]
                  split
                  · simp only [ne_eq, true_and, not_false_eq_true, List.mem_cons, List.not_mem_nil, or_false, ← UInt8.toNat_inj, UInt8.le_iff_toNat_le, UInt8.reduceToNat, and_true] at *
                    omega
                  · split
                    · simp only [ne_eq, true_and, not_false_eq_true, List.mem_cons, List.not_mem_nil, or_false, ← UInt8.toNat_inj, UInt8.le_iff_toNat_le, UInt8.reduceToNat, and_true] at *
                      omega
                    · simp only [ne_eq, true_and, not_false_eq_true, List.mem_cons, List.not_mem_nil, or_false, ← UInt8.toNat_inj, UInt8.le_iff_toNat_le, UInt8.reduceToNat, and_true] at *
                      omega
              next he =>
                exfalso
                simp only [← UInt8.toNat_inj, UInt8.le_iff_toNat_le, UInt8.lt_iff_toNat_lt, UInt8.reduceToNat] at *
                omega
      next hne =>
        exact keeps_clear.congr fun p => ⟨False.elim, fun ⟨c, _, _, h, _⟩ => hne _ h⟩
    next h0 =>
      split
      next h1 =>
        unfold filterAmbisonics
        split
        next a ha => exact keeps_failIfEmpty.congr (by simp [h1, ha])
        next hne => exact keeps_clear.congr fun p => ⟨False.elim, fun ⟨_, h⟩ => by
          obtain ⟨a, ha⟩ := h h1
          exact hne _ ha⟩
      next h1 => exact keeps_ok.congr (by simp [h0, h1])
  · intro p hp
    have hp' : ¬ 6 ≤ p := by
      simp only [UInt8.le_iff_toNat_le, UInt8.reduceToNat] at *; omega
    unfold ElementAllowed LayerAllowed
    by_cases h0 : e.elementType = 0
    · simp only [h0, true_or, if_true, List.not_mem_nil, not_false_eq_true, true_and, true_implies, hp', and_false, false_or, or_false]
      simp
      constructor
      · rintro ⟨c, hc, l, ⟨ls, hls⟩, h⟩
        refine ⟨c, hc, l, ⟨ls, hls⟩, ?_⟩
        rcases h with h | ⟨h1, h2, x, h3, h4⟩
        · exact .inl h
        · refine .inr ⟨h1, h2, x, h3, ?_⟩
          simp only [← UInt8.toNat_inj, UInt8.le_iff_toNat_le, UInt8.reduceToNat] at *; omega
      · rintro ⟨c, hc, l, ⟨ls, hls⟩, h⟩
        refine ⟨c, hc, l, ⟨ls, hls⟩, ?_⟩
        rcases h with h | ⟨h1, h2, x, h3, h4⟩
        · exact .inl h
        · refine .inr ⟨h1, h2, x, h3, ?_⟩
          simp only [← UInt8.toNat_inj, UInt8.le_iff_toNat_le, UInt8.reduceToNat] at *; omega
    · by_cases h1 : e.elementType = 1
      · simp [h1]
      · by_cases h2 : e.elementType = 2
        · simp only [h2]
          simp [← mem012]
        · simp [h0, h1, h2]
          intro a b c d e
          simp only [← UInt8.toNat_inj, UInt8.le_iff_toNat_le, UInt8.reduceToNat] at *; omega

private theorem mem_codecsOf {aes : List (UInt32 × ElementWithData)} {es : List SubMixElement} {c : CodecObu} :
    c ∈ codecsOf aes es ↔ ∃ e ∈ es, ∃ a, aes.lookup e.id = some a ∧ a.codec = some c := by
  simp only [codecsOf, List.mem_filterMap, Option.bind_eq_some_iff]

private theorem codecsOf_append (aes : List (UInt32 × ElementWithData)) (a b : List SubMixElement) :
    codecsOf aes (a ++ b) = codecsOf aes a ++ codecsOf aes b := by simp [codecsOf]

/-- The information about a codec configuration. -/
private def infoOf (c : CodecObu) : UInt32 × CodecInfo := (c.config.configId, ⟨c.config.numSamplesPerFrame, c.outputRate⟩)

/-- The map is what the codec configurations `cs` give. -/
private structure Gathered (cs : List CodecObu) (r : CodecInfos × Bool) : Prop where
  nodup : (r.1.map Prod.fst).Nodup
  keys : ∀ i, i ∈ r.1.map Prod.fst ↔ i ∈ cs.map (·.config.configId)
  infos : ∀ x ∈ r.1, ∃ c ∈ cs, x = infoOf c
  lpcm : r.2 = true ↔ ∃ c ∈ cs, c.config.codecId = 0x6970636d

private theorem lookup_isSome {β : Type} (m : List (UInt32 × β)) (i : UInt32) : (m.lookup i).isSome ↔ i ∈ m.map Prod.fst := by
  induction m with
  | nil => simp
  | cons x m ih =>
    obtain ⟨k, v⟩ := x
    simp only [List.lookup_cons, List.map_cons, List.mem_cons]
    by_cases h : i = k
    · simp [h]
    · rw [show (i == k) = false by simpa using h]
      simp [ih, h]

private theorem Gathered.emplace {cs : List CodecObu} {m : CodecInfos} {b : Bool} (h : Gathered cs (m, b)) (c : CodecObu) :
    Gathered (cs ++ [c]) (m.emplace c.config.configId ⟨c.config.numSamplesPerFrame, c.outputRate⟩, b || c.config.codecId == 0x6970636d) := by
  obtain ⟨h1, h2, h3, h4⟩ := h
  simp only at h1 h2 h3 h4
  refine ⟨?_, ?_, ?_, ?_⟩
  · simp only [CodecInfos.emplace]
    split
    · exact h1
    next hn =>
      rw [lookup_isSome] at hn
      simp only [List.map_append, List.map_cons, List.map_nil]
      exact List.nodup_append.mpr ⟨h1, by simp, by
        intro a ha b hb
        simp only [List.mem_singleton] at hb
        subst hb
        exact fun e => hn (e ▸ ha)⟩
  · intro i
    simp only [CodecInfos.emplace]
    split
    next hn =>
      rw [lookup_isSome] at hn
      rw [h2, List.map_append, List.mem_append]
      constructor
      · exact .inl
      · rintro (h | h)
        · exact h
        · simp only [List.map_cons, List.map_nil, List.mem_singleton] at h
          rw [h]; exact (h2 _).mp hn
    · simp only [List.map_append, List.mem_append, h2, List.map_cons, List.map_nil]
  · intro x hx
    simp only [CodecInfos.emplace] at hx
    split at hx
    · obtain ⟨c', hc', he⟩ := h3 x hx
      exact ⟨c', by simp [hc'], he⟩
    · rcases List.mem_append.mp hx with hx | hx
      · obtain ⟨c', hc', he⟩ := h3 x hx
        exact ⟨c', by simp [hc'], he⟩
      · simp only [List.mem_singleton] at hx
        exact ⟨c, by simp, hx⟩
  · simp only [Bool.or_eq_true, h4, beq_iff_eq, List.mem_append, List.mem_singleton]
    constructor
    · rintro (⟨c', a, b⟩ | h)
      · exact ⟨c', .inl a, b⟩
      · exact ⟨c, .inr rfl, h⟩
    · rintro ⟨c', a | rfl, b⟩
      · exact .inl ⟨c', a, b⟩
      · exact .inr b

private theorem gather_elements (aes : List (UInt32 × ElementWithData)) (es : List SubMixElement) (cs : List CodecObu)
    (r : CodecInfos × Bool) (h : Gathered cs r) :
    match gatherElements aes es r with
    | none => ¬ ∀ e ∈ es, ∃ a c, aes.lookup e.id = some a ∧ a.codec = some c
    | some r' => (∀ e ∈ es, ∃ a c, aes.lookup e.id = some a ∧ a.codec = some c) ∧ Gathered (cs ++ codecsOf aes es) r' := by
  induction es generalizing cs r with
  | nil => simpa [gatherElements, codecsOf] using h
  | cons e es ih =>
    obtain ⟨m, b⟩ := r
    simp only [gatherElements]
    split
    next h' =>
      intro hh
      obtain ⟨a, c, h1, _⟩ := hh e (by simp)
      cases hl : aes.lookup e.id with
      | none => rw [hl] at h1; cases h1
      | some a' =>
        rw [hl] at h' h1; cases h1
        simp only at h'
        split at h'
        next hc => simp_all
        next c' hc =>
          have := ih _ _ (h.emplace c')
          rw [h'] at this
          exact this fun e he => hh e (by simp [he])
    next r' h' =>
      cases hl : aes.lookup e.id with
      | none => rw [hl] at h'; cases h'
      | some a' =>
        rw [hl] at h'
        simp only at h'
        split at h'
        · cases h'
        next c' hc =>
          have := ih _ _ (h.emplace c')
          rw [h'] at this
          refine ⟨?_, ?_⟩
          · intro x hx
            rcases List.mem_cons.mp hx with rfl | hx
            · exact ⟨a', c', hl, hc⟩
            · exact this.1 x hx
          · have h2 := this.2
            rw [List.append_assoc] at h2
            have : codecsOf aes (e :: es) = [c'] ++ codecsOf aes es := by
              simp [codecsOf, hl, hc]
            rw [this]; exact h2

private theorem atMost_iff {n : Nat} {cs : List CodecObu} {r : CodecInfos × Bool} (h : Gathered cs r) :
    AtMost n (cs.map (·.config.configId)) ↔ r.1.length ≤ n := by
  constructor
  · intro ha
    have := ha (r.1.map Prod.fst) h.nodup (fun x hx => (h.keys x).mp hx)
    simpa using this
  · intro hn k hk hs
    have : k.Subperm (r.1.map Prod.fst) := hk.subperm (fun x hx => (h.keys x).mpr (hs x hx))
    have := this.length_le
    simp only [List.length_map] at this
    omega

private theorem gather_subMixes (aes : List (UInt32 × ElementWithData)) (ss : List SubMix) (i : Nat) (cs : List CodecObu)
    (r : CodecInfos × Bool) (h : Gathered cs r) (hi : i = 0 → cs = []) :
    match gatherSubMixes aes ss i r with
    | none => ¬ ((∀ s ∈ ss, ∀ e ∈ s.elements, ∃ a c, aes.lookup e.id = some a ∧ a.codec = some c) ∧
        (i = 0 → ∀ s, ss.head? = some s → AtMost 1 ((codecsOf aes s.elements).map (·.config.configId))))
    | some r' => ((∀ s ∈ ss, ∀ e ∈ s.elements, ∃ a c, aes.lookup e.id = some a ∧ a.codec = some c) ∧
        (i = 0 → ∀ s, ss.head? = some s → AtMost 1 ((codecsOf aes s.elements).map (·.config.configId)))) ∧
        Gathered (cs ++ codecsOf aes (ss.flatMap (·.elements))) r' := by
  induction ss generalizing i cs r with
  | nil => simpa [gatherSubMixes, codecsOf] using h
  | cons s ss ih =>
    have hg := gather_elements aes s.elements cs r h
    unfold gatherSubMixes
    cases he : gatherElements aes s.elements r with
    | none =>
      rw [he] at hg
      simp only
      exact fun hh => hg (hh.1 s (by simp))
    | some r' =>
      rw [he] at hg
      simp only at hg ⊢
      obtain ⟨hk, hg⟩ := hg
      by_cases hc : i = 0 ∧ r'.1.length > 1
      · rw [if_pos hc]
        simp only
        rintro ⟨_, hh⟩
        have := hh hc.1 s rfl
        have hcs := hi hc.1
        subst hcs
        rw [List.nil_append] at hg
        have := (atMost_iff hg).mp this
        omega
      · rw [if_neg hc]
        have := ih (i + 1) (cs ++ codecsOf aes s.elements) r' hg (by omega)
        cases hr : gatherSubMixes aes ss (i + 1) r' with
        | none =>
          rw [hr] at this
          simp only at this ⊢
          exact fun hh => this ⟨fun x hx => hh.1 x (by simp [hx]), by omega⟩
        | some r'' =>
          rw [hr] at this
          simp only at this ⊢
          obtain ⟨⟨h1, _⟩, h2⟩ := this
          refine ⟨⟨?_, ?_⟩, ?_⟩
          · intro x hx
            rcases List.mem_cons.mp hx with rfl | hx
            · exact hk
            · exact h1 x hx
          · intro h0 x hx
            simp only [List.head?_cons, Option.some.injEq] at hx
            subst hx
            have hcs := hi h0
            subst hcs
            rw [List.nil_append] at hg
            exact (atMost_iff hg).mpr (by omega)
          · rw [List.flatMap_cons, codecsOf_append, ← List.append_assoc]
            exact h2

private theorem sameInfo_iff {cs : List CodecObu} {r : CodecInfos × Bool} (h : Gathered cs r)
    (hc : ∀ c ∈ cs, ∀ d ∈ cs, c.config.configId = d.config.configId → c = d) :
    sameInfo r.1 = true ↔ ∀ c ∈ cs, ∀ d ∈ cs,
      c.config.numSamplesPerFrame = d.config.numSamplesPerFrame ∧ c.outputRate = d.outputRate := by
  have hall : ∀ c ∈ cs, infoOf c ∈ r.1 := by
    intro c hcm
    have : c.config.configId ∈ r.1.map Prod.fst := (h.keys _).mpr (List.mem_map_of_mem hcm)
    obtain ⟨x, hx, he⟩ := List.mem_map.mp this
    obtain ⟨d, hd, hxd⟩ := h.infos x hx
    have : d = c := hc d hd c hcm (by rw [hxd] at he; exact he)
    rw [← this, ← hxd]; exact hx
  have hinf := h.infos
  generalize r.1 = m at hall hinf
  cases m with
  | nil =>
    simp only [sameInfo, true_iff]
    intro c hcm
    exact absurd (hall c hcm) (by simp)
  | cons x m =>
    obtain ⟨k, i⟩ := x
    simp only [sameInfo, List.all_eq_true, Bool.and_eq_true, beq_iff_eq]
    constructor
    · intro hs
      have key : ∀ c ∈ cs, c.config.numSamplesPerFrame = i.samplesPerFrame ∧ c.outputRate = i.outputRate := by
        intro c hcm
        rcases List.mem_cons.mp (hall c hcm) with he | hm
        · have := congrArg Prod.snd he
          simp only [infoOf] at this
          rw [← this]; exact ⟨rfl, rfl⟩
        · have := hs _ hm
          exact ⟨this.1, this.2.symm⟩
      intro c hcm d hd
      exact ⟨(key c hcm).1.trans (key d hd).1.symm, (key c hcm).2.trans (key d hd).2.symm⟩
    · intro hs x hx
      obtain ⟨c, hc1, hc2⟩ := hinf (k, i) (by simp)
      obtain ⟨d, hd1, hd2⟩ := hinf x (by simp [hx])
      have hi : i = (infoOf c).2 := congrArg Prod.snd hc2
      rw [hd2, hi]
      exact ⟨(hs d hd1 c hc1).1, (hs c hc1 d hd1).2⟩

private theorem not_tooMany {table : List (UInt8 × Nat)} {n : Nat} {p : UInt8} :
    p ∉ tooMany table n ↔ ∀ x ∈ table, x.1 = p → n ≤ x.2 := by
  simp only [tooMany, List.mem_map, List.mem_filter, decide_eq_true_eq, not_exists, not_and]
  constructor
  · intro h x hx hp
    rcases Nat.lt_or_ge x.2 n with hn | hn
    · exact absurd hp (h x ⟨hx, hn⟩)
    · exact hn
  · intro h x hx hp
    have := h x hx.1 hp
    omega

private theorem table_limits {p : UInt8} {l : Limits} (h : limits p = some l) (n : Nat) :
    (p ∉ tooMany [(0, 1), (1, 1), (2, 1), (3, 2), (4, 2), (5, 2)] n ↔ n ≤ l.codecConfigs) ∧
    (p ∉ tooMany [(0, 1), (1, 2), (2, 28), (3, 18), (4, 18), (5, 28)] n ↔ n ≤ l.audioElements) ∧
    (p ∉ tooMany [(0, 16), (1, 18), (2, 28), (3, 18), (4, 18), (5, 28)] n ↔ n ≤ l.channels) := by
  simp only [not_tooMany]
  unfold limits at h
  split at h <;> first | (cases h; simp; done) | cases h

private theorem keeps_codecs (aes : List (UInt32 × ElementWithData)) (m : MixPresentation)
    (hc : ∀ c ∈ codecsOf aes (m.subMixes.flatMap (·.elements)), ∀ d ∈ codecsOf aes (m.subMixes.flatMap (·.elements)),
      c.config.configId = d.config.configId → c = d) :
    ∃ S, Keeps (filterCodecs aes m) S ∧ ∀ p l, limits p = some l →
      (S p ↔ CodecRules aes m ∧
        AtMost l.codecConfigs ((codecsOf aes (m.subMixes.flatMap (·.elements))).map (·.config.configId))) := by
  have hg := gather_subMixes aes m.subMixes 0 [] ([], false) ⟨by simp, by simp, by simp, by simp⟩ (fun _ => rfl)
  unfold filterCodecs
  cases hr : gatherSubMixes aes m.subMixes 0 ([], false) with
  | none =>
    rw [hr] at hg
    refine ⟨_, keeps_clear, fun p l _ => ⟨False.elim, fun h => hg ⟨h.1.known, fun _ => h.1.first⟩⟩⟩
  | some r =>
    obtain ⟨infos, lpcm⟩ := r
    rw [hr] at hg
    simp only [List.nil_append, true_implies] at hg ⊢
    obtain ⟨⟨hk, hf⟩, hg⟩ := hg
    have hl := atMost_iff (n := 1) hg
    have hlp := hg.lpcm
    have hsm := sameInfo_iff hg hc
    have hused : infos ≠ [] ↔ ∃ s ∈ m.subMixes, s.elements ≠ [] := by
      have : infos ≠ [] ↔ ∃ i, i ∈ infos.map Prod.fst := by
        rw [ne_eq, ← List.map_eq_nil_iff (f := Prod.fst), List.eq_nil_iff_forall_not_mem]
        simp
      rw [this]
      constructor
      · rintro ⟨i, hi⟩
        have := (hg.keys i).mp hi
        obtain ⟨c, hcm, _⟩ := List.mem_map.mp this
        obtain ⟨e, he, _⟩ := mem_codecsOf.mp hcm
        obtain ⟨s, hs, he⟩ := List.mem_flatMap.mp he
        exact ⟨s, hs, List.ne_nil_of_mem he⟩
      · rintro ⟨s, hs, hne⟩
        obtain ⟨e, he⟩ := List.exists_mem_of_ne_nil _ hne
        obtain ⟨a, c, h1, h2⟩ := hk s hs e he
        exact ⟨c.config.configId, (hg.keys _).mpr (List.mem_map_of_mem
          (mem_codecsOf.mpr ⟨e, List.mem_flatMap.mpr ⟨s, hs, he⟩, a, h1, h2⟩))⟩
    have hrules : CodecRules aes m ↔ ¬ (infos.length > 1 ∧ (!lpcm) = true) ∧ infos ≠ [] ∧ sameInfo infos = true := by
      constructor
      · intro h
        refine ⟨?_, hused.mpr h.used, hsm.mpr h.same⟩
        rintro ⟨h1, h2⟩
        rcases h.lpcm with h3 | h3
        · have := hl.mp h3; simp only at this; omega
        · have := hlp.mpr h3
          simp only at this; rw [this] at h2; simp at h2
      · rintro ⟨h1, h2, h3⟩
        refine ⟨hk, hused.mp h2, hf, ?_, hsm.mp h3⟩
        by_cases h4 : infos.length > 1
        · right
          apply hlp.mp
          simp only
          cases lpcm
          · exact absurd ⟨h4, rfl⟩ h1
          · rfl
        · left; exact hl.mpr (by simp only; omega)
    refine ⟨_, (keeps_erasing _).andThen (T := fun _ => CodecRules aes m) ?_, ?_⟩
    · rw [show (fun _ : UInt8 => CodecRules aes m) = fun _ => _ from funext fun _ => propext hrules]
      split
      next h1 => exact keeps_clear.congr fun p => ⟨False.elim, fun h => h.1 h1⟩
      next h1 =>
        split
        next h2 => exact keeps_clear.congr fun p => ⟨False.elim, fun h => h.2.1 (by simpa using h2)⟩
        next h2 =>
          split
          next h3 => exact keeps_ok.congr fun p => ⟨fun _ => ⟨h1, by simpa using h2, h3⟩, fun _ => trivial⟩
          next h3 => exact keeps_clear.congr fun p => ⟨False.elim, fun h => h3 h.2.2⟩
    · intro p l hp
      rw [atMost_iff hg]
      rw [and_comm]
      refine and_congr_right fun _ => ?_
      exact (table_limits hp infos.length).1

private theorem mem05 (p : UInt8) : p ∉ [0, 1, 2, 3, 4, 5] ↔ 6 ≤ p := by
  simp only [List.mem_cons, List.not_mem_nil, or_false, ← UInt8.toNat_inj, UInt8.le_iff_toNat_le]
  simp only [UInt8.reduceToNat]; omega

private theorem keeps_headphones (mode : UInt8) :
    Keeps (filterHeadphones mode) (fun p => (mode = 3 → 6 ≤ p) ∧ (mode = 2 → 3 ≤ p)) := by
  unfold filterHeadphones
  refine ((keeps_erasing _).andThen keeps_failIfEmpty).congr fun p => ?_
  split
  next h => simp only [h, mem012]; simp
  next h =>
    split
    next h' => simp only [h', mem05]; simp
    next h' => simp [h, h']

private theorem keeps_subMixes (n : Nat) : Keeps (filterNumSubMixes n) (fun p => (n > 1 → 3 ≤ p) ∧ n ≤ 2) := by
  unfold filterNumSubMixes
  have h1 : Keeps (if n > 1 then erasing [0, 1, 2] else erasing []) (fun p => n > 1 → 3 ≤ p) := by
    split
    next h => exact (keeps_erasing _).congr fun p => by rw [mem012]; simp [h]
    next h => exact (keeps_erasing _).congr fun p => by simp [h]
  have h2 : Keeps (if n > 2 then clearAll else failIfEmpty) (fun _ => n ≤ 2) := by
    split
    next h => exact keeps_clear.congr fun p => by simp; omega
    next h => exact keeps_failIfEmpty.congr fun p => by simp; omega
  exact h1.andThen h2

private theorem limits_some {p : UInt8} (hp : p ≤ 5) : ∃ l, limits p = some l := by
  have : p = 0 ∨ p = 1 ∨ p = 2 ∨ p = 3 ∨ p = 4 ∨ p = 5 := by
    simp only [← UInt8.toNat_inj, UInt8.le_iff_toNat_le, UInt8.reduceToNat] at *; omega
  rcases this with rfl | rfl | rfl | rfl | rfl | rfl <;> exact ⟨_, rfl⟩

private theorem limits_subMixes {p : UInt8} {l : Limits} (h : limits p = some l) (n : Nat) :
    ((n > 1 → 3 ≤ p) ∧ n ≤ 2) ↔ n ≤ l.subMixes := by
  unfold limits at h
  split at h
  all_goals first | (cases h; simp; omega) | (cases h; simp; done) | cases h

private theorem channels_eq {aes : List (UInt32 × ElementWithData)} {m : MixPresentation} :
    countChannels aes m = channelsOf aes (m.subMixes.flatMap (·.elements)) := by
  unfold countChannels channelsOf MixPresentation.allElements
  show ((m.subMixes.flatMap (·.elements)).map _).sum = _
  induction m.subMixes.flatMap (·.elements) with
  | nil => rfl
  | cons e es ih =>
    simp only [List.map_cons, List.sum_cons, ih, List.filterMap_cons]
    split
    next h => rw [h]; simp
    next a h =>
      rw [h]
      simp [ElementWithData.numChannels, List.length_flatMap]

/-- The hypotheses under which the result is characterised: a loudspeaker layout fits its 4-bit field, and a codec configuration
is determined by its identifier (both hold for parsed descriptors). -/
structure WellFormed (aes : List (UInt32 × ElementWithData)) (m : MixPresentation) : Prop where
  layouts : ∀ i a c l ls, aes.lookup i = some a → a.obu.config = .scalable c → c.layers = l :: ls → l.layout ≤ 15
  codecs : ∀ c ∈ codecsOf aes (m.subMixes.flatMap (·.elements)), ∀ d ∈ codecsOf aes (m.subMixes.flatMap (·.elements)),
      c.config.configId = d.config.configId → c = d

private theorem keeps_mix (aes : List (UInt32 × ElementWithData)) (m : MixPresentation) (hw : WellFormed aes m) :
    ∃ S, Keeps (filterMix aes m) S ∧ ∀ p, p ≤ 5 → (S p ↔ MixAllowed aes m p) := by
  obtain ⟨C, hC1, hC2⟩ := keeps_codecs aes m hw.codecs
  have hE : ∀ e : SubMixElement, ∃ S, Keeps (filterReferenced aes e) S ∧
      ∀ p, p ≤ 5 → (S p ↔ ∃ a, aes.lookup e.id = some a ∧ ElementAllowed p a.obu) := by
    intro e
    unfold filterReferenced
    cases h : aes.lookup e.id with
    | none => exact ⟨_, keeps_clear, by simp⟩
    | some a =>
      obtain ⟨S, h1, h2⟩ := keeps_element a.obu (fun c l ls => hw.layouts e.id a c l ls h)
      exact ⟨S, h1, fun p hp => by simp [h2 p hp]⟩
  choose E hE1 hE2 using hE
  have K1 := keeps_subMixes m.subMixes.length
  have K2 := keeps_all (fun e : SubMixElement => keeps_headphones e.rendering.headphonesMode) m.allElements
  have K4 := keeps_all hE1 m.allElements
  have K5 := (keeps_erasing (tooMany [(0, 1), (1, 2), (2, 28), (3, 18), (4, 18), (5, 28)] m.allElements.length)).andThen keeps_failIfEmpty
  have K6 := (keeps_erasing (tooMany [(0, 16), (1, 18), (2, 28), (3, 18), (4, 18), (5, 28)] (countChannels aes m))).andThen keeps_failIfEmpty
  refine ⟨_, K1.andThen (K2.andThen (hC1.andThen (K4.andThen (K5.andThen K6)))), ?_⟩
  clear K1 K2 K4 K5 K6
  intro p hp
  obtain ⟨l, hl⟩ := limits_some hp
  have hn6 : ¬ 6 ≤ p := by
    simp only [UInt8.le_iff_toNat_le, UInt8.reduceToNat] at *; omega
  have hmem : ∀ (Q : SubMixElement → Prop), (∀ e ∈ m.allElements, Q e) ↔ ∀ s ∈ m.subMixes, ∀ e ∈ s.elements, Q e := by
    intro Q
    simp only [MixPresentation.allElements, List.mem_flatMap]
    exact ⟨fun h s hs e he => h e ⟨s, hs, he⟩, fun h e ⟨s, hs, he⟩ => h s hs e he⟩
  have t1 := (table_limits hl m.allElements.length).2.1
  have t2 := (table_limits hl (countChannels aes m)).2.2
  have t3 := hmem (fun e => (e.rendering.headphonesMode = 3 → 6 ≤ p) ∧ (e.rendering.headphonesMode = 2 → 3 ≤ p))
  have t4 := hmem (fun e => E e p)
  rw [channels_eq] at t2
  simp only [hn6, imp_false] at t3
  simp only [hE2 _ p hp] at t4
  simp only [limits_subMixes hl, hC2 p l hl, hn6, imp_false, and_true, hE2 _ p hp, channels_eq, t1, t2, t3, t4]
  constructor
  · rintro ⟨h1, h2, ⟨h3, h4⟩, h5, h6, h7⟩
    exact ⟨h3, ⟨l, hl, h1, h4, h6, h7⟩, h5, h2⟩
  · rintro ⟨h3, ⟨l', hl', h1, h4, h6, h7⟩, h5, h2⟩
    rw [hl] at hl'; cases hl'
    exact ⟨h1, h2, ⟨h3, h4⟩, h5, h6, h7⟩

private theorem element_nonempty {e : AudioElement} {s s' : List UInt8} {u : Unit} (h : filterElement e s = (.ok u, s')) : s' ≠ [] := by
  unfold filterElement ProfileFilter.andThen at h
  split at h
  next t ht =>
    have hne : t ≠ [] := not_ok ht
    split at h
    · unfold filterChannelBased at h
      cases hc : e.config with
      | scalable c =>
        rw [hc] at h
        simp only at h
        cases hl : c.layers with
        | nil => rw [hl] at h; simp [clearAll] at h
        | cons l ls => rw [hl] at h; exact not_ok h
      | _ => rw [hc] at h; simp [clearAll] at h
    · split at h
      · unfold filterAmbisonics at h
        cases hc : e.config with
        | ambisonics a =>
          rw [hc] at h
          simp only [failIfEmpty] at h
          split at h
          · cases h
          next hh => cases h; simpa using hh
        | _ => rw [hc] at h; simp [clearAll] at h
      · cases h; exact hne
  · cases h

/-! ## C24 -/

/-- C24: of the given profiles, exactly those remain that support the mix presentation; the call succeeds if and only if a
profile remains, and otherwise fails with an invalid argument error. -/
theorem C24_mix_presentation (aes : List (UInt32 × ElementWithData)) (m : MixPresentation) (hw : WellFormed aes m)
    (profiles : List UInt8) :
    (∀ p ≤ 5, p ∈ (filterMix aes m profiles).2 ↔ p ∈ profiles ∧ MixAllowed aes m p) ∧
    (∀ p ∈ (filterMix aes m profiles).2, p ∈ profiles) ∧
    ((filterMix aes m profiles).1 = .ok () ↔ (filterMix aes m profiles).2 ≠ []) ∧
    (∀ e, (filterMix aes m profiles).1 = .error e → e = .invalidArgument) := by
  obtain ⟨S, h1, h2⟩ := keeps_mix aes m hw
  obtain ⟨h3, h4⟩ := h1 profiles
  refine ⟨fun p hp => by rw [h3, h2 p hp], fun p hp => ((h3 p).mp hp).1, ⟨?_, ?_⟩, fun e he => (h4 e he).1⟩
  · intro h
    have : filterMix aes m profiles = (.ok (), (filterMix aes m profiles).2) := Prod.ext h rfl
    rw [filterMix] at this
    obtain ⟨_, this⟩ := andThen_ok this
    obtain ⟨_, this⟩ := andThen_ok this
    obtain ⟨_, this⟩ := andThen_ok this
    obtain ⟨_, this⟩ := andThen_ok this
    obtain ⟨_, this⟩ := andThen_ok this
    exact not_ok this
  · intro h
    cases he : (filterMix aes m profiles).1 with
    | ok u => rfl
    | error e => exact absurd (h4 e he).2 h

/-- C24: for defined profiles, the call succeeds if and only if one of them supports the mix presentation. -/
theorem C24_succeeds_iff_supported (aes : List (UInt32 × ElementWithData)) (m : MixPresentation) (hw : WellFormed aes m)
    (profiles : List UInt8) (hp : ∀ p ∈ profiles, p ≤ 5) :
    (filterMix aes m profiles).1 = .ok () ↔ ∃ p ∈ profiles, MixAllowed aes m p := by
  obtain ⟨h1, h2, h3, _⟩ := C24_mix_presentation aes m hw profiles
  rw [h3]
  constructor
  · intro h
    obtain ⟨p, h⟩ := List.exists_mem_of_ne_nil _ h
    exact ⟨p, (h1 p (hp p (h2 p h))).mp h⟩
  · rintro ⟨p, h, h'⟩
    exact List.ne_nil_of_mem ((h1 p (hp p h)).mpr ⟨h, h'⟩)

/-- C24: the same for a single audio element. -/
theorem C24_audio_element (e : AudioElement) (hl : ∀ c l ls, e.config = .scalable c → c.layers = l :: ls → l.layout ≤ 15)
    (profiles : List UInt8) :
    (∀ p ≤ 5, p ∈ (filterElement e profiles).2 ↔ p ∈ profiles ∧ ElementAllowed p e) ∧
    ((filterElement e profiles).1 = .ok () ↔ (filterElement e profiles).2 ≠ []) := by
  obtain ⟨S, h1, h2⟩ := keeps_element e hl
  obtain ⟨h3, h4⟩ := h1 profiles
  refine ⟨fun p hp => by rw [h3, h2 p hp], ?_, ?_⟩
  · intro h
    have h' : filterElement e profiles = (.ok (), (filterElement e profiles).2) := Prod.ext h rfl
    exact element_nonempty h'
  · intro h
    cases he : (filterElement e profiles).1 with
    | ok u => rfl
    | error e => exact absurd (h4 e he).2 h

/-- A stereo element coded in LPCM. -/
private def lpcmStereo : List (UInt32 × ElementWithData) :=
  [(1, ⟨⟨1, 0, 0, 9, [5], [], .scalable ⟨0, [⟨1, false, false, 0, 1, 1, 0, 0, 0, none⟩]⟩⟩,
    some ⟨⟨9, 0x6970636d, 1024, 0, .lpcm ⟨1, 16, 48000⟩⟩, 48000, 48000, 16⟩,
    ⟨[(5, [.l2, .r2])], [], []⟩⟩)]

/-- `n` uses of the element in one sub-mix. -/
private def usesOf (n : Nat) : MixPresentation :=
  let g : ParamDef := ⟨⟨0, 1, 0, none⟩, .mixGain 0⟩
  ⟨7, 0, [], [], [⟨List.replicate n ⟨1, [], ⟨0, 0, 0, [], none, []⟩, g⟩, g, [⟨⟨2, .soundSystem 0 0⟩, ⟨0, 0, 0, 0, [], []⟩⟩]⟩], none, none⟩

/-- The hypotheses can be met: two stereo elements are supported by all profiles but the simple one, ten of them
(20 channels) only by two profiles, fifteen by none. -/
example : WellFormed lpcmStereo (usesOf 2) ∧
    filterMix lpcmStereo (usesOf 2) [0, 1, 2, 3, 4, 5] = (.ok (), [1, 2, 3, 4, 5]) ∧
    filterMix lpcmStereo (usesOf 10) [0, 1, 2, 3, 4, 5] = (.ok (), [2, 5]) ∧
    filterMix lpcmStereo (usesOf 15) [0, 1, 2, 3, 4, 5] = (.error .invalidArgument, []) := by
  refine ⟨⟨?_, ?_⟩, by decide +kernel, by decide +kernel, by decide +kernel⟩
  · intro i a c l ls h1 h2 h3
    simp only [lpcmStereo, List.lookup] at h1
    split at h1
    · cases h1; cases h2; cases h3; decide
    · cases h1
  · decide +kernel

/-- C24: limits are not checked for the reserved profile number 255, which remains although no profile supports the mix
presentation. -/
theorem C24_reserved_profile_has_no_limits :
    ∃ aes m, WellFormed aes m ∧ (∀ p, ¬ MixAllowed aes m p) ∧ filterMix aes m [0, 1, 2, 3, 4, 5, 255] = (.ok (), [255]) := by
  have hw : WellFormed lpcmStereo (usesOf 15) := by
    refine ⟨?_, by decide +kernel⟩
    intro i a c l ls h1 h2 h3
    simp only [lpcmStereo, List.lookup] at h1
    split at h1
    · cases h1; cases h2; cases h3; decide
    · cases h1
  have hr : filterMix lpcmStereo (usesOf 15) [0, 1, 2, 3, 4, 5, 255] = (.ok (), [255]) := by decide +kernel
  refine ⟨_, _, hw, ?_, hr⟩
  intro p hp
  obtain ⟨l, hl, _⟩ := hp.limits
  have h5 : p ≤ 5 := by
    unfold limits at hl
    split at hl
    all_goals first | (cases hl; done) | decide
  have := (C24_mix_presentation _ _ hw [0, 1, 2, 3, 4, 5, 255]).1 p h5
  rw [hr] at this
  have hm : p ∈ ([255] : List UInt8) := this.mpr ⟨by
    simp only [List.mem_cons, ← UInt8.toNat_inj, UInt8.le_iff_toNat_le, UInt8.reduceToNat] at *; omega, hp⟩
  simp only [List.mem_singleton] at hm
  subst hm
  revert h5; decide

end Iamf.Props
