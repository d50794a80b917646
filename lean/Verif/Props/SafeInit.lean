import Verif.Props.SafeRender
import Verif.Props.Selection
import Verif.Props.Descriptors
/-
  For C52: descriptors that were read give a processor that decodes and renders safely, or a status.
-/
namespace Iamf.Props
open Iamf

/-! ### Descriptors that were read -/

/-- An audio element as it was read. -/
structure ReadElement (a : AudioElement) : Prop where
  params : ∀ p ∈ a.params, ElementParamOk p
  config : a.config.SoundFor a.elementType (UInt32.ofNat a.substreamIds.length)

/-- Descriptors as they were read. -/
structure ReadDescriptors (d : Descriptors) : Prop where
  elements : ∀ x ∈ d.elements, ReadElement x.2.obu ∧ ∃ codecs e, generateElement codecs e = .ok x.2
  mixes : ∀ m ∈ d.mixes, ∃ flag, MixPresentation.Read flag m

/-- A value that is returned has the property. -/
private def Good {α : Type} (p : Rd α) (Q : α → Prop) : Prop := ∀ s a, (p.runA s).1 = .ok a → Q a

private theorem Good.ret {α : Type} {a : α} {Q : α → Prop} (h : Q a) : Good (.ret a) Q := fun s b hb => by
  simp only [Rd.runA, Except.ok.injEq] at hb; rw [← hb]; exact h

private theorem Good.fail {α : Type} {e : Err} {Q : α → Prop} : Good (.fail e) Q := fun s b hb => by
  simp only [Rd.runA] at hb; cases hb

private theorem Good.sf {α : Type} {p : Rd α} {Q : α → Prop} (h : Sf p Q) : Good p Q := fun s a ha => by
  have := h s; rw [ha] at this; exact this

private theorem Good.bind {α β : Type} {p : Rd α} {f : α → Rd β} {Q : α → Prop} {R : β → Prop} (h : Good p Q)
    (hf : ∀ a, Q a → Good (f a) R) : Good (p.bind f) R := by
  intro s b hb
  rw [Rd.runA_bind] at hb
  match hx : p.runA s with
  | (.ok a, s') =>
    rw [hx] at hb
    exact hf a (h s a (by rw [hx])) s' b hb
  | (.error e, s') => rw [hx] at hb; cases hb

private theorem Good.any {α : Type} {p : Rd α} : Good p fun _ => True := fun _ _ _ => trivial

private theorem Good.tell {α : Type} {k : Int → Rd α} {Q : α → Prop} (h : ∀ p, Good (k p) Q) : Good (.tell k) Q :=
  fun s a ha => h s.pos { s with valid := true } a ha

private theorem Good.avail {α : Type} {k : Int → Rd α} {Q : α → Prop} (h : ∀ p, Good (k p) Q) : Good (.avail k) Q :=
  fun s a ha => h _ s a ha

private theorem Good.seek {α : Type} {p : Int} {k : Rd α} {Q : α → Prop} (h : Good k Q) : Good (.seek p k) Q := by
  intro s a ha
  simp only [Rd.runA] at ha
  match hx : s.seek p with
  | (.ok (), s') => rw [hx] at ha; exact h s' a ha
  | (.error e, s') => rw [hx] at ha; cases ha

private theorem Good.attempt {α β : Type} {m : Rd β} {k : Except Err β → Rd α} {Q : α → Prop} {R : β → Prop} (hm : Good m R)
    (h : ∀ r, (∀ b, r = .ok b → R b) → Good (k r) Q) : Good (.attempt m k) Q := by
  intro s a ha
  simp only [Rd.runA] at ha
  match hx : m.runA s with
  | (.ok b, s') =>
    rw [hx] at ha
    exact h (.ok b) (fun b' hb' => by cases hb'; exact hm s b (by rw [hx])) s' a ha
  | (.error e, s') =>
    rw [hx] at ha
    simp only at ha
    split at ha
    · cases ha
    · exact h (.error e) (fun b' hb' => (by cases hb')) s' a ha

private theorem store_read {d : Descriptors} (hd : ReadDescriptors d) (h : ObuHeader) (n : Int) : Good (storeOther d h n) ReadDescriptors := by
  unfold storeOther
  split
  · unfold storeCodecConfig
    split
    · exact Good.tell fun p => Good.seek (Good.ret hd)
    · refine Good.any.bind fun r _ => ?_
      simp only
      split
      · exact Good.ret hd
      · exact Good.ret ⟨hd.elements, hd.mixes⟩
  · split
    · unfold storeAudioElement
      refine (Good.sf (sf_obuPayload n (AudioElement.sf n))).bind fun r hr => ?_
      split
      · exact Good.fail
      · next w hw =>
        split
        · exact Good.fail
        · refine Good.ret ⟨fun x hx => ?_, hd.mixes⟩
          rcases List.mem_append.mp hx with hx | hx
          · exact hd.elements x hx
          · simp only [List.mem_singleton] at hx
            subst hx
            have ho := (C40_elements_of_descriptors _ _ _ hw).1
            simp only
            refine ⟨?_, _, _, hw⟩
            rw [ho]
            exact ⟨fun p hp => (hr.2.2.2.2.2.1 p hp).1, hr.2.2.2.2.2.2⟩
    · split
      · unfold storeMixPresentation
        refine (Good.sf (sf_obuPayload n (MixPresentation.sf _ n))).bind fun r hr => ?_
        split
        · refine Good.ret ⟨hd.elements, fun m hm => ?_⟩
          rcases List.mem_append.mp hm with hm | hm
          · exact hd.mixes m hm
          · simp only [List.mem_singleton] at hm
            subst hm
            exact ⟨_, hr⟩
        · exact Good.fail
      · exact Good.fail

private theorem loop_read (exact : Bool) (start : Int) : ∀ (fuel : Nat) {d : Descriptors}, ReadDescriptors d →
    Good (descriptorLoop exact start fuel d) fun r => ∀ d', r = some d' → ReadDescriptors d' := by
  intro fuel
  induction fuel with
  | zero => intro d _; exact Good.fail
  | succ fuel ih =>
    intro d hd
    have hnone : ∀ p : Int, Good (Rd.seek p (.ret (none : Option Descriptors))) fun r => ∀ d', r = some d' → ReadDescriptors d' :=
      fun p => Good.seek (Good.ret fun d' h => (by cases h))
    have hsome : ∀ {d' : Descriptors}, ReadDescriptors d' → Good (Rd.ret (some d')) fun r => ∀ d', r = some d' → ReadDescriptors d' :=
      fun hd' => Good.ret fun d'' h => by cases h; exact hd'
    have hnext : ∀ {d' : Descriptors}, ReadDescriptors d' → Good (if d'.iaHeader.isNone then .fail .invalidArgument
        else if exact then .avail fun n => if n > 0 then descriptorLoop exact start fuel d' else .ret (some d')
        else descriptorLoop exact start fuel d') fun r => ∀ d', r = some d' → ReadDescriptors d' := by
      intro d' hd'
      split
      · exact Good.fail
      · split
        · refine Good.avail fun n => ?_
          split
          · exact ih hd'
          · exact hsome hd'
        · exact ih hd'
    have hstop : ∀ pos : Int, Good (Rd.seek pos (if d.iaHeader.isNone then .fail .invalidArgument else .ret (some d)))
        fun r => ∀ d', r = some d' → ReadDescriptors d' := by
      intro pos
      refine Good.seek ?_
      split
      · exact Good.fail
      · exact hsome hd
    unfold descriptorLoop
    refine Good.attempt Good.any fun r _ => ?_
    cases r with
    | error e =>
      simp only
      split
      · exact hnone _
      · exact Good.fail
    | ok m =>
      simp only
      split
      · split
        · exact Good.seek Good.fail
        · split
          · exact Good.fail
          · exact hsome hd
      · refine Good.avail fun n => ?_
        split
        · exact hnone _
        · refine Good.tell fun pos => Good.any.bind fun hs _ => ?_
          split
          · split
            · exact hstop pos
            · exact Good.any.bind fun r _ => hnext (d' := ⟨some (hs.1, r.1), d.codecs, d.elements, d.mixes⟩) ⟨hd.elements, hd.mixes⟩
          · split
            · exact hstop pos
            · refine Good.attempt (store_read hd _ _) fun r hr => ?_
              cases r with
              | ok d' => exact hnext (hr d' rfl)
              | error e => exact Good.seek (Good.tell fun p => Good.seek (hnext hd))

/-- Descriptors that the parser returns were read. -/
theorem parsed_descriptors {exact : Bool} {s : RS} {d : Descriptors} (h : ((parseDescriptors exact).runA s).1 = .ok (some d)) :
    ReadDescriptors d := by
  have : Good (parseDescriptors exact) fun r => ∀ d', r = some d' → ReadDescriptors d' := by
    unfold parseDescriptors
    exact Good.tell fun start => Good.avail fun n => loop_read exact start _ ⟨fun x hx => (by cases hx), fun m hm => (by cases hm)⟩
  exact this s _ h d rfl

/-! ### Audio elements -/

private theorem except_bind_ok {α β : Type} {x : Except Err α} {f : α → Except Err β} {b : β} (h : (x >>= f) = .ok b) :
    ∃ a, x = .ok a ∧ f a = .ok b := by
  cases x with
  | error e => cases h
  | ok a => exact ⟨a, rfl, h⟩

theorem scene_read {a : AudioElement} (h : ReadElement a) : SceneOk a ∧ HasConfig a := by
  obtain ⟨c0, c1, c2, c3⟩ := h.config
  have key : ∀ x, a.config = .ambisonics x → x.Made := by
    intro x hx
    by_cases h0 : a.elementType = 0
    · obtain ⟨s, hs, -⟩ := c0 h0; rw [hx] at hs; cases hs
    · by_cases h1 : a.elementType = 1
      · obtain ⟨y, hy, hm, -⟩ := c1 h1; rw [hx] at hy; cases hy; exact hm
      · by_cases h2 : a.elementType = 2
        · obtain ⟨o, ho, -⟩ := c2 h2; rw [hx] at ho; cases ho
        · have := c3 h0 h1 h2; rw [hx] at this; cases this
  refine ⟨⟨fun m hm => ?_, fun p hp => ?_⟩, fun h0 => ?_⟩
  · have : AmbisonicsMono.Made m := key _ hm
    exact this.1
  · have : AmbisonicsProjection.Made p := key _ hp
    exact this
  · obtain ⟨s, hs, -⟩ := c0 h0; exact ⟨s, hs⟩

private theorem layers_made (ids : List UInt32) : ∀ (ls : List ChannelLayer) (i : Nat) (acc : ChannelNumbers) (si : Nat) (r x : ElementLabels),
    finalizeLayers ids ls i acc si r = .ok x → x.layers.length = r.layers.length + ls.length := by
  intro ls
  induction ls with
  | nil => intro i acc si r x h; cases h; rfl
  | cons l ls ih =>
    intro i acc si r x h
    unfold finalizeLayers at h
    obtain ⟨⟨c, g⟩, -, h⟩ := except_bind_ok h
    obtain ⟨⟨m, si'⟩, -, h⟩ := except_bind_ok h
    simp only at h
    split at h
    · cases h
    · obtain ⟨gs, -, h⟩ := except_bind_ok h
      have := ih _ _ _ _ _ h
      simp only [List.length_append, List.length_cons, List.length_nil] at this ⊢
      omega

theorem aux_safe {codecs : List (UInt32 × CodecObu)} {o : AudioElement} {e : ElementWithData} (h : ReadElement e.obu)
    (hg : generateElement codecs o = .ok e) : Reports (reconGainAux e) fun _ => True := by
  have ho := (C40_elements_of_descriptors _ _ _ hg).1
  rw [ho] at h
  unfold reconGainAux
  rw [ho]
  split
  · next c hc =>
    split
    · next hlt =>
      exfalso
      unfold generateElement at hg
      obtain ⟨d, hd, hg⟩ := except_bind_ok hg
      obtain ⟨c0, c1, c2, c3⟩ := h.config
      by_cases h0 : o.elementType = 0
      · rw [if_pos h0, hc] at hd
        simp only at hd
        unfold finalizeScalable at hd
        split at hd
        · cases hd
        · obtain ⟨r, hr, hd⟩ := except_bind_ok hd
          have hl := layers_made _ _ _ _ _ _ _ hr
          split at hd
          · cases hd
          · have hd := Except.ok.inj hd
            have : e.data = r := by
              rw [hd]
              split at hg
              · cases hg
              · cases hg; rfl
            rw [this, hl] at hlt
            obtain ⟨s, hs, -, h8⟩ := c0 h0
            rw [hc] at hs
            cases hs
            have : c.numLayers.toNat = c.layers.length := by
              unfold ScalableLayout.numLayers
              rw [UInt8.toNat_ofNat']; omega
            simp only [List.length_take, List.length_nil, this] at hlt
            omega
      · by_cases h1 : o.elementType = 1
        · obtain ⟨x, hx, -⟩ := c1 h1; rw [hc] at hx; cases hx
        · by_cases h2 : o.elementType = 2
          · obtain ⟨x, hx, -⟩ := c2 h2; rw [hc] at hx; cases hx
          · have := c3 h0 h1 h2
            rw [hc] at this
            cases this
            exact absurd hlt (Nat.not_lt_zero _)
    · trivial
  · rfl

/-! ### Parameter definitions -/

private theorem insert_safe {t : List (UInt32 × ParamEntry)} (ht : ∀ p ∈ t, SafeDefinition p.2.1) {p : ParamEntry} (hp : SafeDefinition p.1) :
    Reports (insertParam t p) fun t' => ∀ p ∈ t', SafeDefinition p.2.1 := by
  unfold insertParam
  split
  · intro q hq
    rcases List.mem_append.mp hq with hq | hq
    · exact ht q hq
    · simp only [List.mem_singleton] at hq; subst hq; exact hp
  · split
    · exact ht
    · rfl

private theorem fold_safe {α : Type} {f : List (UInt32 × ParamEntry) → α → Except Err (List (UInt32 × ParamEntry))} : ∀ (l : List α)
    (t : List (UInt32 × ParamEntry)), (∀ a ∈ l, ∀ t : List (UInt32 × ParamEntry), (∀ p ∈ t, SafeDefinition p.2.1) →
      Reports (f t a) fun t' => ∀ p ∈ t', SafeDefinition p.2.1) → (∀ p ∈ t, SafeDefinition p.2.1) →
    Reports (l.foldlM f t) fun t' => ∀ p ∈ t', SafeDefinition p.2.1 := by
  intro l
  induction l with
  | nil => intro t _ ht; exact ht
  | cons a l ih =>
    intro t h ht
    rw [List.foldlM_cons]
    exact (h a (by simp) t ht).bind fun t' ht' => ih t' (fun b hb => h b (by simp [hb])) ht'

private theorem mix_definitions {flag : Bool} {m : MixPresentation} (h : MixPresentation.Read flag m) : ∀ p ∈ m.paramDefs, SafeDefinition p := by
  intro p hp
  unfold MixPresentation.paramDefs at hp
  obtain ⟨s, hs, hp⟩ := List.mem_flatMap.mp hp
  have hm := (h.subs s hs).made
  rcases List.mem_append.mp hp with hp | hp
  · obtain ⟨e, he, hp⟩ := List.mem_flatMap.mp hp
    have hme := hm.elements e he
    rcases List.mem_append.mp hp with hp | hp
    · obtain ⟨r, hr, rfl⟩ := List.mem_map.mp hp
      have := hme.rendering.params r hr
      refine ⟨this.1, fun h0 => ?_⟩
      have hpos := this.2
      cases hsp : r.definition.spec <;> rw [hsp] at h0 hpos <;> first | exact ⟨_, rfl⟩ | (exfalso; revert hpos; simp [ParamSpecific.positional]; done) | (exfalso; revert h0; simp [ParamSpecific.type]; done)
    · simp only [List.mem_singleton] at hp
      subst hp
      exact ⟨hme.gain, fun _ => hme.isGain⟩
  · simp only [List.mem_singleton] at hp
    subst hp
    exact ⟨hm.gain, fun _ => hm.isGain⟩

private theorem definitions_safe {d : Descriptors} (hd : ReadDescriptors d) :
    Reports (collectParamDefinitions d) fun t => ∀ p ∈ t, SafeDefinition p.2.1 := by
  unfold collectParamDefinitions
  refine (fold_safe _ _ (fun x hx t ht => ?_) fun p hp => (by cases hp)).bind fun t ht => fold_safe _ _ (fun p hp t ht => ?_) ht
  · obtain ⟨e, he, hx⟩ := List.mem_flatMap.mp hx
    obtain ⟨p, hp, rfl⟩ := List.mem_map.mp hx
    obtain ⟨h1, codecs, o, h2⟩ := hd.elements e he
    have hok := h1.params p hp
    unfold collectElementParam
    simp only
    split
    · next ht1 =>
      split
      · next i hi =>
        refine insert_safe ht ⟨hok.1, fun h0 => ?_⟩
        rw [ht1] at h0; exact absurd h0 (by decide)
      · next hn =>
        exfalso
        have hk := hok.2
        cases hsp : p.spec <;> rw [hsp] at ht1 hk <;> first | exact hn _ hsp | exact hk.elim | exact hk.1 ht1 | (revert ht1; simp [ParamSpecific.type]; done)
    · split
      · next ht2 =>
        split
        · next l hl =>
          refine (aux_safe h1 h2).bind fun aux _ => insert_safe ht ⟨hok.1, fun h0 => ?_⟩
          exact absurd h0 (by simp only [ParamSpecific.type]; decide)
        · next hn =>
          exfalso
          have hk := hok.2
          cases hsp : p.spec <;> rw [hsp] at ht2 hk <;> first | exact hn _ hsp | exact hk.elim | exact hk.2 ht2 | (revert ht2; simp [ParamSpecific.type]; done)
      · exact ht
  · obtain ⟨m, hm, hp⟩ := List.mem_flatMap.mp hp
    obtain ⟨flag, hm⟩ := hd.mixes m hm
    exact insert_safe ht (mix_definitions hm p hp)

private theorem params_safe : ∀ (ps : List ParamDef) (st : Option (ParamBase × DefaultDemixingInfo) × Option ParamBase),
    (∀ p ∈ ps, ElementParamOk p) → Reports (collectParams ps st) fun _ => True := by
  intro ps
  induction ps with
  | nil => intro st _; trivial
  | cons p ps ih =>
    intro st h
    have hok := h p (by simp)
    have ih' := fun st => ih st fun q hq => h q (by simp [hq])
    unfold collectParams
    split
    · next ht1 =>
      split
      · rfl
      · split
        · exact ih' _
        · next hn =>
          exfalso
          have hk := hok.2
          cases hsp : p.spec <;> rw [hsp] at ht1 hk <;> first | exact hn _ hsp | exact hk.elim | exact hk.1 ht1 | (revert ht1; simp [ParamSpecific.type]; done)
    · split
      · next ht2 =>
        split
        · rfl
        · split
          · exact ih' _
          · next hn =>
            exfalso
            have hk := hok.2
            cases hsp : p.spec <;> rw [hsp] at ht2 hk <;> first | exact hn _ hsp | exact hk.elim | exact hk.2 ht2 | (revert ht2; simp [ParamSpecific.type]; done)
      · exact ih' _

private theorem manager_safe : ∀ (l : List (UInt32 × AudioElement)) (pm : ParametersManager),
    (∀ x ∈ l, ∀ p ∈ x.2.params, ElementParamOk p) → Reports (pm.createFrom l) fun _ => True := by
  intro l
  induction l with
  | nil => intro pm _; trivial
  | cons x l ih =>
    intro pm h
    obtain ⟨id, a⟩ := x
    have := params_safe a.params (none, none) (h (id, a) (by simp))
    unfold ParametersManager.createFrom
    split
    · next e he => rw [he] at this; exact this
    · exact ih _ fun x hx => h x (by simp [hx])

private theorem mem_of_lookup {β : Type} {l : List (UInt32 × β)} {a : UInt32} {b : β} (h : l.lookup a = some b) : (a, b) ∈ l := by
  induction l with
  | nil => cases h
  | cons x l ih =>
    rw [List.lookup_cons] at h
    split at h
    · next he =>
      cases h
      rw [beq_iff_eq] at he
      subst he
      exact List.mem_cons_self
    · exact List.mem_cons_of_mem _ (ih h)

private theorem table_safe {P : ElementWithData → Prop} : ∀ (l m : List (UInt32 × ElementWithData)), (∀ x ∈ l, P x.2) → (∀ x ∈ m, P x.2) →
    Reports (substreamTable l m) fun r => ∀ x ∈ r, P x.2 := by
  intro l
  induction l with
  | nil => intro m _ hm; exact hm
  | cons x l ih =>
    intro m hl hm
    obtain ⟨s, e⟩ := x
    unfold substreamTable
    split
    · rfl
    · refine ih _ (fun y hy => hl y (by simp [hy])) fun y hy => ?_
      rcases List.mem_append.mp hy with hy | hy
      · exact hm y hy
      · simp only [List.mem_singleton] at hy; subst hy; exact hl _ (by simp)

/-- Initializing ends with a status or with what decodes safely. -/
theorem initProcessor_safe {d : Descriptors} (hd : ReadDescriptors d) :
    Reports (initProcessor d) fun x => SafeContext x.1 ∧ SafeState x.2 := by
  unfold initProcessor
  refine (definitions_safe hd).bind fun params hp => ?_
  refine (table_safe (P := fun e => e.codec.isSome) _ _ (fun x hx => ?_) fun x hx => (by cases hx)).bind fun subs hs => ?_
  · obtain ⟨e, he, hx⟩ := List.mem_flatMap.mp hx
    obtain ⟨l, -, rfl⟩ := List.mem_map.mp hx
    obtain ⟨-, codecs, o, h2⟩ := hd.elements e he
    exact (C40_elements_of_descriptors _ _ _ h2).2.2
  · split
    · rfl
    · have hpm := manager_safe (d.elements.map fun e => (e.1, e.2.obu)) ⟨.empty, .empty, .empty, .empty⟩ (by
        intro x hx
        obtain ⟨e, he, rfl⟩ := List.mem_map.mp hx
        exact (hd.elements e he).1.params)
      cases hc : ParametersManager.create (d.elements.map fun e => (e.1, e.2.obu)) with
      | error x =>
        have hc' := hc
        unfold ParametersManager.create at hc'
        rw [hc'] at hpm
        exact hpm
      | ok pm =>
        refine ⟨⟨fun id e h => hs _ (mem_of_lookup h), fun id p h => hp _ (mem_of_lookup h)⟩, created_quiet hc, ?_, ?_⟩
        · exact fun b hb => (by cases hb)
        · exact fun b hb => (by cases hb)

/-! ### The choice of a mix presentation -/

private theorem find_safe {cond : MixPresentation → Except Err Bool} : ∀ (ms : List MixPresentation) (n : Nat),
    (∀ m ∈ ms, Reports (cond m) fun _ => True) → Reports (findMixFrom cond ms n) fun r => ∀ i, r = some i → i < n + ms.length := by
  intro ms
  induction ms with
  | nil => intro n _; exact fun i hi => (by cases hi)
  | cons m ms ih =>
    intro n h
    unfold findMixFrom
    refine (h m (by simp)).bind fun b _ => ?_
    split
    · intro i hi; cases hi; simp
    · exact (ih (n + 1) fun m' hm' => h m' (by simp [hm'])).mono fun r hr i hi => by
        have := hr i hi; simp only [List.length_cons]; omega

private theorem one_safe {aes : List (UInt32 × AudioElement)} {m : MixPresentation} (h : LayeredFor aes m) {s : SubMix} (hs : s ∈ m.subMixes)
    (layout : UInt8) : Reports (hasOneElementWithLayout s.elements aes layout) fun b => b = true → s.elements ≠ [] := by
  unfold hasOneElementWithLayout
  split
  · next e he =>
    split
    · exact fun h => (by cases h)
    · next a ha =>
      split
      · next c hc =>
        split
        · next hn =>
          have := h s hs e (by rw [he]; simp) a c ha hc
          rw [List.getLast?_eq_none_iff] at hn
          exact absurd hn this
        · exact fun _ hn => by rw [he] at hn; cases hn
      · exact fun h => (by cases h)
  · exact fun h => (by cases h)

private theorem stereo_safe {aes : List (UInt32 × AudioElement)} {m : MixPresentation} (h : LayeredFor aes m) :
    Reports (hasOneStereo m aes) fun b => b = true → ∃ s ss, m.subMixes = s :: ss ∧ s.elements ≠ [] := by
  unfold hasOneStereo
  split
  · exact fun h => (by cases h)
  · next s ss hs =>
    split
    · split
      · exact (one_safe h (by rw [hs]; simp) 1).mono fun b hb hb' => ⟨s, ss, hs, hb hb'⟩
      · exact fun h => (by cases h)
    · exact fun h => (by cases h)

private theorem headphones_safe {aes : List (UInt32 × AudioElement)} {m : MixPresentation} (h : LayeredFor aes m) :
    Reports (hasOneStereoForHeadphones m aes) fun _ => True := by
  unfold hasOneStereoForHeadphones
  refine (stereo_safe h).bind fun b hb => ?_
  split
  · trivial
  · next hn =>
    obtain ⟨s, ss, hs, he⟩ := hb (by simpa using hn)
    rw [hs]
    simp only
    split
    · trivial
    · next hnil => exact absurd hnil he

private theorem binaural_safe {aes : List (UInt32 × AudioElement)} {m : MixPresentation} (h : LayeredFor aes m) :
    Reports (hasOneBinauralElement m aes) fun _ => True := by
  unfold hasOneBinauralElement
  split
  · trivial
  · next s ss hs => exact (one_safe h (by rw [hs]; simp) 9).mono fun _ _ => trivial

private theorem choose_safe {aes : List (UInt32 × AudioElement)} {ms : List MixPresentation} (hne : ms ≠ [])
    (h : ∀ m ∈ ms, LayeredFor aes m) (desired : Option Layout) (id : Option UInt32) :
    Reports (chooseMix aes ms desired id) fun i => i < ms.length := by
  have hpos := List.length_pos_iff.mpr hne
  unfold chooseMix
  refine Reports.bind (Q := fun r : Option Nat => ∀ i, r = some i → i < ms.length) ?_ fun a ha => ?_
  · split
    · exact (find_safe ms 0 fun m _ => show Reports (Except.ok _) _ from trivial).mono fun r hr i hi => by have := hr i hi; omega
    · exact fun i hi => (by cases hi)
  · refine Reports.bind (Q := fun r : Option Nat => ∀ i, r = some i → i < ms.length) ?_ fun b hb => ?_
    · split
      · split
        · unfold findPreferredBinaural
          refine (find_safe ms 0 fun m hm => binaural_safe (h m hm)).bind fun r hr => ?_
          split
          · next i => intro j hj; cases hj; have := hr i rfl; omega
          · exact (find_safe ms 0 fun m _ => show Reports (Except.ok _) _ from trivial).mono fun r hr i hi => by have := hr i hi; omega
        · split
          · unfold findPreferredStereo
            refine (find_safe ms 0 fun m hm => headphones_safe (h m hm)).bind fun r hr => ?_
            split
            · next i => intro j hj; cases hj; have := hr i rfl; omega
            · exact (find_safe ms 0 fun m hm => (stereo_safe (h m hm)).mono fun _ _ => trivial).mono fun r hr i hi => by
                have := hr i hi; omega
          · exact (find_safe ms 0 fun m _ => show Reports (Except.ok _) _ from trivial).mono fun r hr i hi => by have := hr i hi; omega
      · exact ha
    · cases b with
      | none => exact hpos
      | some i => exact hb i rfl

private def SoundLayouts (m : MixPresentation) : Prop := ∀ s ∈ m.subMixes, ∀ l ∈ s.layouts, HasSoundSystem l.layout

private theorem selection_safe {aes : List (UInt32 × AudioElement)} {ms : List MixPresentation}
    (h : ∀ m ∈ ms, LayeredFor aes m) (hl : ∀ m ∈ ms, SoundLayouts m) {desired : Option Layout}
    (hd : ∀ d, desired = some d → HasSoundSystem d) (id : Option UInt32) :
    Reports (findMixAndLayout aes ms desired id) fun r => HasSoundSystem r.layout ∧ ∃ m, r.mixes[r.mix]? = some m ∧ SoundLayouts m := by
  unfold findMixAndLayout
  split
  · rfl
  · next hne =>
    refine (choose_safe (by simpa using hne) h desired id).bind fun i hi => ?_
    have hm : ms[i]? = some ms[i] := List.getElem?_eq_getElem hi
    have hmem : ms[i] ∈ ms := List.getElem_mem hi
    generalize ms[i] = m at hm hmem
    rw [hm]
    simp only
    split
    · rfl
    · next s ss hs =>
      cases desired with
      | none =>
        simp only
        split
        · rfl
        · next l ls hls => exact ⟨hl m hmem s (by rw [hs]; simp) l (by rw [hls]; simp), m, hm, hl m hmem⟩
      | some d =>
        simp only
        split
        · exact ⟨hd d rfl, m, hm, hl m hmem⟩
        · refine ⟨hd d rfl, m.addLayout d, ?_, ?_⟩
          · simp only [List.getElem?_set_self hi]
          · intro t ht l hlt
            unfold MixPresentation.addLayout at ht
            rw [hs] at ht
            simp only at ht
            rcases List.mem_cons.mp ht with e | ht
            · subst e
              simp only at hlt
              rcases List.mem_append.mp hlt with hlt | hlt
              · exact hl m hmem s (by rw [hs]; simp) l hlt
              · simp only [List.mem_singleton] at hlt; subst hlt; exact hd d rfl
            · exact hl m hmem t (by rw [hs]; simp [ht]) l hlt

/-! ### Only mix presentations with known elements are supported -/

private theorem andThen_ok {f g : ProfileFilter} {s : List UInt8} (h : (ProfileFilter.andThen f g s).1 = .ok ()) :
    (f s).1 = .ok () ∧ (g (f s).2).1 = .ok () := by
  unfold ProfileFilter.andThen at h
  match hx : f s with
  | (.ok (), s') => rw [hx] at h; exact ⟨rfl, h⟩
  | (.error e, s') => rw [hx] at h; cases h

private theorem filterAll_ok {α : Type} {f : α → ProfileFilter} {K : List UInt8 → Prop} : ∀ (l : List α) (s : List UInt8), K s →
    (∀ a s, K s → (f a s).1 = .ok () → K (f a s).2) → (filterAll f l s).1 = .ok () → ∀ a ∈ l, ∃ s, K s ∧ (f a s).1 = .ok () := by
  intro l
  induction l with
  | nil => intro s _ _ _ a ha; cases ha
  | cons a l ih =>
    intro s hs hk h b hb
    obtain ⟨h1, h2⟩ := andThen_ok h
    rcases List.mem_cons.mp hb with e | hb
    · subst e; exact ⟨s, hs, h1⟩
    · exact ih _ (hk a s hs h1) hk h2 b hb

/-- Nothing is added to the set of profiles. -/
private def Shrinks (f : ProfileFilter) : Prop := ∀ s, ∀ p ∈ (f s).2, p ∈ s

private theorem shrinks_then {f g : ProfileFilter} (hf : Shrinks f) (hg : Shrinks g) : Shrinks (ProfileFilter.andThen f g) := by
  intro s p hp
  unfold ProfileFilter.andThen at hp
  match hx : f s with
  | (.ok (), s') =>
    rw [hx] at hp
    have := hf s p
    rw [hx] at this
    exact this (hg s' p hp)
  | (.error e, s') =>
    rw [hx] at hp
    have := hf s p
    rw [hx] at this
    exact this hp

private theorem shrinks_erasing (ps : List UInt8) : Shrinks (erasing ps) := fun s p hp => (List.mem_filter.mp hp).1

private theorem shrinks_fail : Shrinks failIfEmpty := by
  intro s p hp
  unfold failIfEmpty at hp
  split at hp <;> exact hp

private theorem shrinks_clear : Shrinks clearAll := fun s p hp => (by cases hp)

private theorem shrinks_id : Shrinks fun s => (.ok (), s) := fun s p hp => hp

private theorem shrinks_all {α : Type} {f : α → ProfileFilter} (hf : ∀ a, Shrinks (f a)) : ∀ l : List α, Shrinks (filterAll f l) := by
  intro l
  induction l with
  | nil => exact shrinks_id
  | cons a l ih => exact shrinks_then (hf a) ih

private theorem shrinks_element (e : AudioElement) : Shrinks (filterElement e) := by
  unfold filterElement filterElementType
  refine shrinks_then (shrinks_then (shrinks_erasing _) shrinks_fail) ?_
  split
  · unfold filterChannelBased
    split
    · split
      · exact shrinks_clear
      · refine shrinks_then ?_ shrinks_fail
        split
        · exact shrinks_erasing _
        · split
          · exact shrinks_erasing _
          · split
            · refine shrinks_then (shrinks_erasing _) ?_
              unfold filterExpanded
              split
              · exact shrinks_clear
              · exact shrinks_then (shrinks_erasing _) shrinks_fail
            · exact shrinks_erasing _
    · exact shrinks_clear
  · split
    · unfold filterAmbisonics
      split
      · exact shrinks_fail
      · exact shrinks_clear
    · exact shrinks_id

private theorem element_ok {e : AudioElement} (he : ReadElement e) {s : List UInt8} (hs : ∀ p ∈ s, p ≤ 5) (h : (filterElement e s).1 = .ok ())
    {c : ScalableLayout} (hc : e.config = .scalable c) : c.layers ≠ [] := by
  unfold filterElement at h
  obtain ⟨h1, h2⟩ := andThen_ok h
  obtain ⟨c0, c1, c2, c3⟩ := he.config
  by_cases h0 : e.elementType = 0
  · rw [if_pos h0] at h2
    intro hn
    unfold filterChannelBased at h2
    rw [hc] at h2
    simp only [hn] at h2
    cases h2
  · by_cases h1' : e.elementType = 1
    · obtain ⟨a, ha, -⟩ := c1 h1'; rw [hc] at ha; cases ha
    · by_cases h2' : e.elementType = 2
      · obtain ⟨a, ha, -⟩ := c2 h2'; rw [hc] at ha; cases ha
      · exfalso
        unfold filterElementType at h1
        rw [if_neg (by simp [h0, h1']), if_neg h2'] at h1
        have h3 := (andThen_ok h1).2
        have : eraseProfiles [0, 1, 2, 3, 4, 5] s = [] := by
          unfold eraseProfiles
          rw [List.filter_eq_nil_iff]
          intro p hp
          have := hs p hp
          simp only [Bool.not_eq_true', Bool.not_eq_false, List.contains_iff_mem]
          have h5 : p.toNat ≤ 5 := UInt8.le_iff_toNat_le.mp this
          simp only [List.mem_cons, ← UInt8.toNat_inj, UInt8.reduceToNat, List.not_mem_nil, or_false]
          omega
        simp only [erasing] at h3
        rw [this] at h3
        cases h3

private theorem lookup_obu (l : List (UInt32 × ElementWithData)) (id : UInt32) :
    (l.map fun e => (e.1, e.2.obu)).lookup id = (l.lookup id).map (·.obu) := by
  induction l with
  | nil => rfl
  | cons x l ih =>
    obtain ⟨i, e⟩ := x
    simp only [List.map_cons, List.lookup_cons]
    split
    · rfl
    · exact ih

theorem supported_layered {s : DecoderSettings} (hs : ∀ p ∈ s.profiles, p ≤ 5) {d : Descriptors} (hd : ReadDescriptors d) :
    ∀ m ∈ supportedMixes s d, LayeredFor (d.elements.map fun e => (e.1, e.2.obu)) m := by
  intro m hm t ht e he a c ha hc
  unfold supportedMixes at hm
  have hf := (List.mem_filter.mp hm).2
  have hok : (filterMix d.elements m s.profiles).1 = .ok () := by
    split at hf
    · assumption
    · cases hf
  unfold filterMix at hok
  obtain ⟨-, k2⟩ := andThen_ok hok
  obtain ⟨-, k3⟩ := andThen_ok k2
  obtain ⟨-, k4⟩ := andThen_ok k3
  obtain ⟨k5, -⟩ := andThen_ok k4
  have href : ∀ e, Shrinks (filterReferenced d.elements e) := by
    intro e
    unfold filterReferenced
    split
    · exact shrinks_clear
    · exact shrinks_element _
  have hsub : Shrinks (filterNumSubMixes m.subMixes.length) := by
    unfold filterNumSubMixes
    refine shrinks_then ?_ ?_
    · split <;> exact shrinks_erasing _
    · split
      · exact shrinks_clear
      · exact shrinks_fail
  have hhead : Shrinks (filterAll (fun e => filterHeadphones e.rendering.headphonesMode) m.allElements) :=
    shrinks_all (fun e => by unfold filterHeadphones; exact shrinks_then (shrinks_erasing _) shrinks_fail) _
  have hcod : Shrinks (filterCodecs d.elements m) := by
    unfold filterCodecs
    split
    · exact shrinks_clear
    · refine shrinks_then (shrinks_erasing _) ?_
      split
      · exact shrinks_clear
      · split
        · exact shrinks_clear
        · split
          · exact shrinks_id
          · exact shrinks_clear
  have hall : e ∈ m.allElements := List.mem_flatMap.mpr ⟨t, ht, he⟩
  obtain ⟨q, hq, hfe⟩ := filterAll_ok (K := fun s => ∀ p ∈ s, p ≤ 5) m.allElements _
    (fun p hp => hs p (hsub _ p (hhead _ p (hcod _ p hp)))) (fun a s hs' _ p hp => hs' p (href a s p hp)) k5 e hall
  rw [lookup_obu] at ha
  unfold filterReferenced at hfe
  cases hx : d.elements.lookup e.id with
  | none => rw [hx] at ha; cases ha
  | some x =>
    rw [hx] at ha hfe
    cases ha
    exact element_ok (hd.elements _ (mem_of_lookup hx)).1 hq hfe hc

/-- **Setting up.**  Descriptors that were read give a status, or a processor that decodes and renders safely. -/
theorem initAll_safe {M : GainMath Rat} {E : RenderEnv} (hE : GoodEnv E) {C : Codecs} (hC : MildCodecs C) (t : TrimmingSettings)
    {s : DecoderSettings} (hs : ∀ p ∈ s.profiles, p ≤ 5) (hl : ∀ l, s.layout = some l → HasSoundSystem l)
    {d : Descriptors} (hd : ReadDescriptors d) :
    Reports (initAll (B := standardBackend M E C t) s d) fun p =>
      SafeContext p.context ∧ SafeState p.state ∧ SafeMix p.renderer.mix ∧ HasSoundSystem p.layout := by
  unfold initAll
  refine (initProcessor_safe hd).bind fun x hx => ?_
  unfold initRendering
  split
  · rfl
  · split
    · rfl
    · split
      · rfl
      · have hsel := selection_safe (supported_layered hs hd) (fun m hm => by
          obtain ⟨flag, hr⟩ := hd.mixes m (List.mem_filter.mp hm).1
          exact fun s hs l hlm => ((hr.subs s hs).layouts l hlm).2.mp) hl s.mixId
        refine hsel.bind fun sel ⟨h1, m, h2, h3⟩ => ?_
        rw [h2]
        simp only
        refine Reports.bind (Q := SoundLayouts) ?_ fun simple h4 => ?_
        · unfold simplifyMix
          split
          · rfl
          · split
            · rfl
            · next sm hsm =>
              split
              · rfl
              · split
                · rfl
                · next l hlm =>
                  intro s' hs' l' hl'
                  simp only [List.mem_singleton] at hs'
                  subst hs'
                  simp only [List.mem_singleton] at hl'
                  subst hl'
                  exact h3 sm (List.mem_of_getElem? hsm) _ (List.mem_of_getElem? hlm)
        · have hall : ∀ p ∈ d.elements, SceneOk p.2.obu ∧ AllSound p.2.data.labels ∧ p.2.codec.isSome ∧ HasConfig p.2.obu := by
            intro p hp
            obtain ⟨r1, codecs, o, r2⟩ := hd.elements p hp
            have := C40_elements_of_descriptors _ _ _ r2
            exact ⟨(scene_read r1).1, this.2.1, this.2.2, (scene_read r1).2⟩
          have hcfg := configure_safe hE hC t (elements := d.elements)
            (fun id e he => have := hall _ (mem_of_lookup he); ⟨this.1, this.2.1, this.2.2.1⟩)
            (fun p hp => ⟨(hall p hp).2.2.1, (hall p hp).2.2.2⟩) h4
          exact Reports.bind (f := fun r => .ok (⟨x.1, x.2, r, m.id, sel.layout, sampleRateAndFrameSize d⟩ : Processor (standardBackend M E C t)))
            hcfg fun r hr => ⟨hx.1, hx.2, hr, h1⟩

end Iamf.Props
