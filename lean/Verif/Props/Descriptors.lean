import Verif.Cli.Descriptors
import Verif.Props.Parse
import Verif.Props.Labels
import Verif.Obu.Stream
import Mathlib.Data.List.Chain
/-
  C21: parsing the descriptor OBUs at the start of a sequence.
-/
namespace Iamf.Props
open Iamf

/-! ### Audio elements that were read -/

/-- What reading an audio element guarantees (C10), as needed to label its substreams. -/
structure UsableElement (a : AudioElement) : Prop where
  nodup : a.substreamIds.Nodup
  scalable : a.elementType = 0 → ∃ c, a.config = .scalable c ∧ UsableLayout a.substreamIds.length c
  ambisonics : a.elementType = 1 → ∃ c, a.config = .ambisonics c ∧ UsableAmbisonics a.substreamIds.length c

theorem sf_audioElement (n : Int) : Sf (AudioElement.read n) UsableElement := by
  refine (AudioElement.sf n).weaken fun a h => ?_
  obtain ⟨hn, hlt, -, -, -, -, c0, c1, -⟩ := h
  have hl : (UInt32.ofNat a.substreamIds.length).toNat = a.substreamIds.length := by
    rw [UInt32.toNat_ofNat']; omega
  refine ⟨hn, fun h => ?_, fun h => ?_⟩
  · obtain ⟨c, e, hv, hl8⟩ := c0 h
    have := layout_usable hv (by omega)
    rw [hl] at this
    exact ⟨c, e, this⟩
  · obtain ⟨c, e, hm, hs⟩ := c1 h
    have hs' := congrArg UInt32.toNat hs
    rw [hl, UInt8.toNat_toUInt32] at hs'
    refine ⟨c, e, ?_⟩
    rw [hs']
    cases c with
    | mono c => exact mono_usable hm
    | projection c => exact projection_usable hm

private theorem ambisonicsLabel_reports (n : Nat) : Reports (ambisonicsLabel n) (fun _ => True) := by
  unfold ambisonicsLabel; split <;> first | trivial | rfl

private theorem mapM_reports {α β : Type} {f : α → Except Err β} (h : ∀ a, Reports (f a) (fun _ => True)) (l : List α) :
    Reports (l.mapM f) (fun _ => True) := by
  induction l with
  | nil => trivial
  | cons a l ih =>
    rw [List.mapM_cons]
    exact (h a).bind fun _ _ => ih.bind fun _ _ => trivial

private theorem finalizeMono_reports (ids : List UInt32) (l : List UInt8) (n : Nat) (m : SubstreamLabels)
    (h : ∀ i ∈ l, i = 255 ∨ i.toNat < ids.length) : Reports (finalizeMono ids l n m) (fun _ => True) := by
  induction l generalizing n m with
  | nil => trivial
  | cons v l ih =>
    unfold finalizeMono
    split
    · exact ih _ _ fun i hi => h i (List.mem_cons_of_mem _ hi)
    next hv =>
      have := (h v List.mem_cons_self).resolve_left hv
      rw [List.getElem?_eq_getElem this]
      exact (ambisonicsLabel_reports n).bind fun _ _ => ih _ _ fun i hi => h i (List.mem_cons_of_mem _ hi)

private theorem finalizeProjection_reports (coupled : Nat) (ids : List UInt32) (i : Nat) (m : SubstreamLabels) :
    Reports (finalizeProjection coupled ids i m) (fun _ => True) := by
  induction ids generalizing i m with
  | nil => trivial
  | cons s l ih =>
    unfold finalizeProjection
    exact (mapM_reports ambisonicsLabel_reports _).bind fun _ _ => ih _ _

theorem generateElement_reports (codecs : List (UInt32 × CodecObu)) (a : AudioElement) (h : UsableElement a) :
    Reports (generateElement codecs a) (fun w => w.obu = a ∧ w.codec = codecs.lookup a.codecConfigId ∧ w.codec.isSome) := by
  unfold generateElement
  refine Reports.bind (Q := fun _ => True) ?_ fun d _ => ?_
  · split
    next h0 =>
      obtain ⟨c, hc, -⟩ := h.scalable h0
      rw [hc]
      exact finalizeScalable_reports _ _
    · split
      next h1 =>
        obtain ⟨c, hc, hu⟩ := h.ambisonics h1
        refine Reports.bind (Q := fun _ => True) ?_ fun m _ => trivial
        unfold finalizeAmbisonics
        rw [if_neg (by simpa using h1), hc]
        cases c with
        | mono c => exact finalizeMono_reports _ _ _ _ hu.2.2.2.1
        | projection c =>
          simp only
          split
          · rfl
          · exact finalizeProjection_reports _ _ _ _
      · trivial
  · split
    · rfl
    next c hc => exact ⟨rfl, hc.symm, rfl⟩

/-! ### Consistency of the collected descriptors -/

/-- Specification: what can be relied on for a set of descriptors.  Codec configs and audio elements are filed under their
own, distinct ids; the rates of a codec config are those of its decoder config; an audio element comes with the codec
config its id refers to; mix presentations only refer to audio elements that are there. -/
structure ConsistentDescriptors (d : Descriptors) : Prop where
  codecIds : (d.codecs.map Prod.fst).Nodup
  codecs : ∀ x ∈ d.codecs, x.1 = x.2.config.configId ∧ x.2.config.rates = .ok (x.2.outputRate, x.2.inputRate, x.2.bitDepth)
  elementIds : (d.elements.map Prod.fst).Nodup
  elements : ∀ x ∈ d.elements, x.1 = x.2.obu.elementId ∧ x.2.obu.substreamIds.Nodup ∧
    ∃ c, (x.2.obu.codecConfigId, c) ∈ d.codecs ∧ x.2.codec = some c
  references : ∀ m ∈ d.mixes, ∀ s ∈ m.subMixes, ∀ e ∈ s.elements, e.id ∈ d.elements.map Prod.fst

private theorem consistent_empty : ConsistentDescriptors .empty := by
  constructor <;> simp [Descriptors.empty]

private theorem lookup_none {α β : Type} [DecidableEq α] {l : List (α × β)} {a : α} (h : l.lookup a = none) :
    a ∉ l.map Prod.fst := by
  rw [List.lookup_eq_none_iff] at h
  intro hm
  obtain ⟨x, hx, rfl⟩ := List.mem_map.mp hm
  have := h x hx
  simp at this

private theorem lookup_some {α β : Type} [DecidableEq α] {l : List (α × β)} {a : α} {b : β} (h : l.lookup a = some b) :
    (a, b) ∈ l := by
  induction l with
  | nil => simp at h
  | cons x l ih =>
    rw [List.lookup_cons] at h
    split at h
    next he =>
      simp only [Option.some.injEq] at h
      subst h
      rw [beq_iff_eq] at he
      subst he
      exact List.mem_cons_self
    · exact List.mem_cons_of_mem _ (ih h)

private theorem nodup_snoc {α : Type} {l : List α} {a : α} (h : l.Nodup) (ha : a ∉ l) : (l ++ [a]).Nodup := by
  rw [List.nodup_append]
  exact ⟨h, by simp, fun x hx y hy => by simp only [List.mem_singleton] at hy; subst hy; rintro rfl; exact ha hx⟩

/-- What the cases of the switch do to the descriptors. -/
private def Keeps (d d' : Descriptors) : Prop :=
  d'.iaHeader = d.iaHeader ∧ (ConsistentDescriptors d → ConsistentDescriptors d')

private theorem Keeps.refl (d : Descriptors) : Keeps d d := ⟨rfl, _root_.id⟩

private theorem sf_storeCodecConfig (d : Descriptors) (n : Int) : Sf (storeCodecConfig d n) (Keeps d) := by
  unfold storeCodecConfig
  split
  · exact Sf.tell fun p => Sf.seek (Sf.ret (Keeps.refl d))
  · refine Sf.bind (Q := fun r => r.1.1.rates = .ok r.2) ?_ fun r hr => ?_
    · unfold CodecConfig.createFromBuffer
      refine (sf_obuPayload n (CodecConfig.sf n)).bind fun c hc => ?_
      obtain ⟨v, hv⟩ := hc.2.1
      rw [hv]
      exact Sf.ret hv
    · simp only
      split
      · exact Sf.ret (Keeps.refl d)
      next hl =>
        refine Sf.ret ⟨rfl, fun hd => ⟨?_, ?_, hd.elementIds, ?_, hd.references⟩⟩
        · rw [List.map_append]
          exact nodup_snoc hd.codecIds (lookup_none hl)
        · intro x hx
          rcases List.mem_append.mp hx with hx | hx
          · exact hd.codecs x hx
          · simp only [List.mem_singleton] at hx
            subst hx
            exact ⟨rfl, hr⟩
        · intro x hx
          obtain ⟨h1, h2, c, h3, h4⟩ := hd.elements x hx
          exact ⟨h1, h2, c, List.mem_append_left _ h3, h4⟩

private theorem sf_storeAudioElement (d : Descriptors) (n : Int) : Sf (storeAudioElement d n) (Keeps d) := by
  unfold storeAudioElement
  refine (sf_obuPayload n (sf_audioElement n)).bind fun r hr => ?_
  have hg := generateElement_reports d.codecs r.1 hr
  split
  next e he => rw [he] at hg; exact Sf.fail hg
  next w hw =>
    rw [hw] at hg
    obtain ⟨h1, h2, h3⟩ := hg
    split
    · exact Sf.fail rfl
    next hl =>
      refine Sf.ret ⟨rfl, fun hd => ⟨hd.codecIds, hd.codecs, ?_, ?_, ?_⟩⟩
      · rw [List.map_append]
        exact nodup_snoc hd.elementIds (lookup_none hl)
      · intro x hx
        rcases List.mem_append.mp hx with hx | hx
        · exact hd.elements x hx
        · simp only [List.mem_singleton] at hx
          subst hx
          obtain ⟨c, hc⟩ := Option.isSome_iff_exists.mp h3
          refine ⟨rfl, by rw [h1]; exact hr.nodup, c, ?_, hc⟩
          rw [h1]
          exact lookup_some (h2.symm.trans hc)
      · intro m hm s hs e he
        rw [List.map_append]
        exact List.mem_append_left _ (hd.references m hm s hs e he)

private theorem sf_storeMixPresentation (d : Descriptors) (h : ObuHeader) (n : Int) :
    Sf (storeMixPresentation d h n) (Keeps d) := by
  unfold storeMixPresentation
  refine (sf_obuPayload n (MixPresentation.sf _ n).any).bind fun r _ => ?_
  split
  next hall =>
    refine Sf.ret ⟨rfl, fun hd => ⟨hd.codecIds, hd.codecs, hd.elementIds, hd.elements, ?_⟩⟩
    intro m hm s hs e he
    rcases List.mem_append.mp hm with hm | hm
    · exact hd.references m hm s hs e he
    · simp only [List.mem_singleton] at hm
      subst hm
      have := List.all_eq_true.mp (List.all_eq_true.mp hall s hs) e he
      obtain ⟨w, hw⟩ := Option.isSome_iff_exists.mp this
      exact List.mem_map.mpr ⟨_, lookup_some hw, rfl⟩
  · exact Sf.fail rfl

private theorem sf_storeOther (d : Descriptors) (h : ObuHeader) (n : Int) : Sf (storeOther d h n) (Keeps d) := by
  unfold storeOther
  split
  · exact sf_storeCodecConfig d n
  · split
    · exact sf_storeAudioElement d n
    · split
      · exact sf_storeMixPresentation d h n
      · exact Sf.fail rfl

/-! ### One round of the loop -/

/-- How a round of the loop ends. -/
private inductive Round where
  | wait
  | temporalUnit
  | stop
  | refuse (e : Err)
  | go (d : Descriptors) (total : Int)

/-- A round of the loop on the bits `src`, from bit `p` on. -/
private def round (d : Descriptors) (src : Bits) (p : Nat) : Round :=
  match (ObuHeader.fillMetadata.runA ⟨src, p, true⟩).1 with
  | .error e => if e = .resourceExhausted then .wait else .refuse e
  | .ok m =>
    if isTemporalUnitObuType m.1 then .temporalUnit
    else if (((src.length - p) / 8 : Nat) : Int) < m.2 then .wait
    else match ObuHeader.read.runA ⟨src, p, true⟩ with
      | (.error e, _) => .refuse e
      | (.ok hs, s1) =>
        if hs.1.obuType = ObuType.sequenceHeader then
          if startsNewSequence d hs.1 then .stop
          else match ((rObuPayload IaSequenceHeader.read hs.2).runA s1).1 with
            | .ok r => .go { d with iaHeader := some (hs.1, r.1) } m.2
            | .error e => .refuse e
        else if isUnexpectedDescriptor hs.1.obuType then .stop
        else match ((storeOther d hs.1 hs.2).runA s1).1 with
          | .ok d' => .go d' m.2
          | .error _ => .go d m.2

/-- A header behind a successful peek. -/
theorem header_after_peek {src : Bits} {p : Nat} {m : ObuType × Int} {h : ObuHeader} {n : Int} {s1 : RS} (hp : p ≤ src.length)
    (hsmall : src.length < 8 * 4294967295)
    (hm : (ObuHeader.fillMetadata.runA ⟨src, p, true⟩).1 = .ok m) (hr : ObuHeader.read.runA ⟨src, p, true⟩ = (.ok (h, n), s1)) :
    h.obuType = m.1 ∧ 1 ≤ m.2 ∧ s1.src = src ∧ s1.valid = true ∧ 0 ≤ n ∧ (s1.pos : Int) + 8 * n = p + 8 * m.2 ∧
      s1.pos ≤ src.length := by
  obtain ⟨sz, l, h1, h2, h3, h4, h5, h6, -, -⟩ := header_read_ok hr hp hsmall
  rw [h2] at hm
  simp only [Except.ok.injEq] at hm
  subst hm
  have hin := Rd.runA_inside ObuHeader.read ⟨src, p, true⟩ hp
  have hv := Rd.runA_valid ObuHeader.read ⟨src, p, true⟩ rfl
  rw [hr] at hin hv
  have e : (sz + UInt32.ofNat l + 1).toNat = 1 + l + sz.toNat := by
    rw [UInt32.toNat_add, UInt32.toNat_add, UInt32.toNat_ofNat']
    simp only [kEntireObuSizeMaxTwoMegabytes] at h3
    have : (1 : UInt32).toNat = 1 := rfl
    omega
  refine ⟨rfl, ?_, h4, hv, h5, ?_, ?_⟩
  · simp only [e]; omega
  · simp only [e] at h6 ⊢; omega
  · have := hin.1; rw [h4] at this; exact this

private theorem seek_ok (s : RS) (p : Nat) (hv : s.valid = true) (hp : p ≤ s.src.length) :
    s.seek (p : Int) = (.ok (), ⟨s.src, p, true⟩) := by
  unfold RS.seek
  simp only [hv, Bool.not_true, Bool.false_eq_true, ↓reduceIte, Int.toNat_natCast]
  rw [if_neg (by omega), if_neg (by omega)]

/-- A case of the switch that succeeds leaves the cursor behind the OBU. -/
private theorem storeOther_pos {d d' : Descriptors} {h : ObuHeader} {n : Int} {s1 s2 : RS} (hn : 0 ≤ n) (hv : s1.valid = true)
    (hp : s1.pos ≤ s1.src.length) (hr : (storeOther d h n).runA s1 = (.ok d', s2)) :
    (s2.pos : Int) = s1.pos + 8 * n ∧ s2.src = s1.src ∧ s2.valid = true := by
  have hin := Rd.runA_inside (storeOther d h n) s1 hp
  have hv2 := Rd.runA_valid (storeOther d h n) s1 hv
  rw [hr] at hin hv2
  refine ⟨?_, hin.2, hv2⟩
  unfold storeOther at hr
  split at hr
  · unfold storeCodecConfig at hr
    split at hr
    · unfold rIgnoreBytes at hr
      simp only [Rd.runA, RS.seek] at hr
      simp only [Bool.not_true, Bool.false_eq_true, ↓reduceIte] at hr
      rw [if_neg (by omega)] at hr
      split at hr
      next he =>
        split at he
        · simp at he
        · simp only [Prod.mk.injEq] at he hr
          obtain ⟨-, rfl⟩ := he
          obtain ⟨-, rfl⟩ := hr
          simp only; omega
      · simp at hr
    · obtain ⟨r, s3, h1, hr⟩ := Rd.runA_bind_ok hr
      have e3 : (s3.pos : Int) = s1.pos + 8 * n := by
        unfold CodecConfig.createFromBuffer at h1
        obtain ⟨c, s4, h2, h1⟩ := Rd.runA_bind_ok h1
        have := (obuPayload_ok h2 hp).1
        split at h1
        · simp only [Rd.runA_ret, Prod.mk.injEq] at h1; rw [← h1.2]; exact this
        · simp at h1
      simp only at hr
      split at hr <;> simp only [Rd.runA_ret, Prod.mk.injEq] at hr <;> rw [← hr.2] <;> exact e3
  · split at hr
    · unfold storeAudioElement at hr
      obtain ⟨r, s3, h1, hr⟩ := Rd.runA_bind_ok hr
      have e3 := (obuPayload_ok h1 hp).1
      split at hr
      · simp at hr
      · split at hr
        · simp at hr
        · simp only [Rd.runA_ret, Prod.mk.injEq] at hr; rw [← hr.2]; exact e3
    · split at hr
      · unfold storeMixPresentation at hr
        obtain ⟨r, s3, h1, hr⟩ := Rd.runA_bind_ok hr
        have e3 := (obuPayload_ok h1 hp).1
        split at hr
        · simp only [Rd.runA_ret, Prod.mk.injEq] at hr; rw [← hr.2]; exact e3
        · simp at hr
      · simp at hr

/-- Continuing behind an OBU. -/
private def continueAt (exact : Bool) (start : Int) (fuel : Nat) (d : Descriptors) (src : Bits) (q : Nat) :
    Except Err (Option Descriptors) × RS :=
  if d.iaHeader.isNone then (.error .invalidArgument, ⟨src, q, true⟩)
  else if exact && decide ((src.length - q) / 8 = 0) then (.ok (some d), ⟨src, q, true⟩)
  else (descriptorLoop exact start fuel d).runA ⟨src, q, true⟩

/-- What a round means for the loop. -/
private def afterRound (exact : Bool) (start : Nat) (fuel : Nat) (d : Descriptors) (src : Bits) (p : Nat)
    (res : Except Err (Option Descriptors) × RS) : Round → Prop
  | .wait => res = (.ok none, ⟨src, start, true⟩)
  | .temporalUnit => if exact then res = (.error .invalidArgument, ⟨src, start, true⟩)
      else res = (if d.iaHeader.isNone then .error .invalidArgument else .ok (some d), ⟨src, p, true⟩)
  | .stop => res = (if d.iaHeader.isNone then .error .invalidArgument else .ok (some d), ⟨src, p, true⟩)
  | .refuse e => e.fatal = false ∧ res.1 = .error e
  | .go d' total => ∃ q : Nat, (q : Int) = p + 8 * total ∧ p + 8 ≤ q ∧ q ≤ src.length ∧
      res = continueAt exact start fuel d' src q

private theorem loop_round (exact : Bool) (start fuel : Nat) (d : Descriptors) (src : Bits) (p : Nat) (hp : p ≤ src.length)
    (hst : start ≤ src.length) (hsmall : src.length < 8 * 4294967295) :
    afterRound exact start fuel d src p ((descriptorLoop exact start (fuel + 1) d).runA ⟨src, p, true⟩) (round d src p) := by
  unfold descriptorLoop
  simp only [Rd.runA]
  rw [peek_runA _ hp]
  have hsf := sf_fillMetadata ⟨src, p, true⟩
  have hseek : ∀ s : RS, s.src = src → s.valid = true → ∀ q ≤ src.length, s.seek (q : Int) = (.ok (), ⟨src, q, true⟩) := by
    intro s e1 e2 q hq
    have := seek_ok s q e2 (by rw [e1]; exact hq)
    rw [e1] at this
    exact this
  unfold round
  match hx : (ObuHeader.fillMetadata.runA ⟨src, p, true⟩).1 with
  | .error e =>
    rw [hx] at hsf
    simp only
    rw [if_neg (by simp [hsf])]
    split
    · simp only [Rd.runA, hseek ⟨src, p, true⟩ rfl rfl _ hst]; rfl
    · exact ⟨hsf, rfl⟩
  | .ok m =>
    simp only
    split
    next htu =>
      cases exact
      · simp only [Bool.false_eq_true, ↓reduceIte]
        simp only [afterRound, Bool.false_eq_true, ↓reduceIte]
        split <;> rfl
      · simp only [↓reduceIte, Rd.runA, hseek ⟨src, p, true⟩ rfl rfl _ hst]
        simp only [afterRound, ↓reduceIte]
    next htu =>
      simp only [Rd.runA]
      split
      · simp only [Rd.runA, hseek ⟨src, p, true⟩ rfl rfl _ hst]; rfl
      next hav =>
        simp only [Rd.runA]
        rw [Rd.runA_bind]
        have hsf2 := sf_header ⟨src, p, true⟩
        match hy : ObuHeader.read.runA ⟨src, p, true⟩ with
        | (.error e, s1) =>
          rw [hy] at hsf2
          exact ⟨hsf2, rfl⟩
        | (.ok hs, s1) =>
          obtain ⟨h1, h2, h3, h4, h5, h6, h7⟩ := header_after_peek hp hsmall hx hy
          have hq : ∃ q : Nat, (q : Int) = p + 8 * m.2 ∧ p + 8 ≤ q ∧ q ≤ src.length := by
            refine ⟨(p + 8 * m.2).toNat, by omega, by omega, by omega⟩
          obtain ⟨q, hq1, hq2, hq3⟩ := hq
          have hstop : ((Rd.seek (p : Int) (if d.iaHeader.isNone = true then Rd.fail Err.invalidArgument
              else Rd.ret (some d))).runA s1) =
              (if d.iaHeader.isNone then .error .invalidArgument else .ok (some d), ⟨src, p, true⟩) := by
            simp only [Rd.runA, hseek _ h3 h4 _ hp]
            split <;> rfl
          have hnext : ∀ (d' : Descriptors), ((if d'.iaHeader.isNone = true then Rd.fail Err.invalidArgument
              else if exact = true then Rd.avail fun n => if n > 0 then descriptorLoop exact (start : Int) fuel d' else Rd.ret (some d')
              else descriptorLoop exact (start : Int) fuel d').runA ⟨src, q, true⟩) =
              continueAt exact start fuel d' src q := by
            intro d'
            unfold continueAt
            split
            · rfl
            · cases exact
              · simp
              · simp only [↓reduceIte, Rd.runA, Bool.true_and, decide_eq_true_eq]
                by_cases h0 : (src.length - q) / 8 = 0
                · rw [if_pos h0, if_neg (by omega)]; rfl
                · rw [if_neg h0, if_pos (by omega)]
          simp only
          split
          next h31 =>
            split
            · exact hstop
            · rw [Rd.runA_bind]
              have hsf3 := sf_obuPayload hs.2 (IaSequenceHeader.sf hs.2) s1
              match hz : (rObuPayload IaSequenceHeader.read hs.2).runA s1 with
              | (.error e, s2) =>
                rw [hz] at hsf3
                exact ⟨hsf3, rfl⟩
              | (.ok r, s2) =>
                obtain ⟨e1, e2⟩ := obuPayload_ok hz (by rw [h3]; exact h7)
                have e3 := Rd.runA_valid (rObuPayload IaSequenceHeader.read hs.2) s1 h4
                rw [hz] at e3
                have es : s2 = ⟨src, q, true⟩ := by
                  have : s2 = ⟨s2.src, s2.pos, s2.valid⟩ := rfl
                  rw [this, e2, h3, e3]
                  congr 1
                  omega
                simp only
                rw [es]
                exact ⟨q, hq1, hq2, hq3, hnext { d with iaHeader := some (hs.1, r.1) }⟩
          · split
            · exact hstop
            · simp only [Rd.runA]
              have hsf3 := sf_storeOther d hs.1 hs.2 s1
              match hz : (storeOther d hs.1 hs.2).runA s1 with
              | (.error e, s2) =>
                rw [hz] at hsf3
                have e2 := Rd.runA_inside (storeOther d hs.1 hs.2) s1 (by rw [h3]; exact h7)
                have e3 := Rd.runA_valid (storeOther d hs.1 hs.2) s1 h4
                rw [hz] at e2 e3
                have e2' : s2.src = src := e2.2.trans h3
                simp only
                have hef : e.fatal = false := hsf3
                rw [if_neg (by simp [hef])]
                simp only [Rd.runA, hseek _ e2' e3 _ hp, rIgnoreBytes]
                have : ((p : Int) + m.2 * 8) = (q : Int) := by omega
                rw [this, hseek ⟨src, p, true⟩ rfl rfl _ hq3]
                simp only
                rw [hnext]
                exact ⟨q, hq1, hq2, hq3, rfl⟩
              | (.ok d', s2) =>
                obtain ⟨e1, e2, e3⟩ := storeOther_pos h5 h4 (by rw [h3]; exact h7) hz
                have es : s2 = ⟨src, q, true⟩ := by
                  have : s2 = ⟨s2.src, s2.pos, s2.valid⟩ := rfl
                  rw [this, e2, h3, e3]
                  congr 1
                  omega
                simp only
                rw [es, hnext]
                exact ⟨q, hq1, hq2, hq3, rfl⟩

/-! ### Arbitrary data -/

/-- How the loop ends, started with `d` at bit `p`. -/
structure Ends (exact : Bool) (start : Nat) (src : Bits) (p : Nat) (d : Descriptors)
    (res : Except Err (Option Descriptors) × RS) : Prop where
  status : ∀ e, res.1 = .error e → e.fatal = false
  wait : res.1 = .ok none → res.2 = ⟨src, start, true⟩
  done : ∀ d', res.1 = .ok (some d') → (ConsistentDescriptors d → ConsistentDescriptors d') ∧ d'.iaHeader.isSome ∧
    res.2.src = src ∧ p ≤ res.2.pos ∧ res.2.pos ≤ src.length ∧ (res.2.pos - p) % 8 = 0 ∧
    ((exact = true ∧ (src.length - res.2.pos) / 8 = 0) ∨
      ∃ m, (ObuHeader.fillMetadata.runA ⟨src, res.2.pos, true⟩).1 = .ok m ∧
        (m.1 = ObuType.sequenceHeader ∨ (exact = false ∧ isTemporalUnitObuType m.1 = true)))

private theorem fill_type {src : Bits} {p : Nat} {m : ObuType × Int} (h : (ObuHeader.fillMetadata.runA ⟨src, p, true⟩).1 = .ok m) :
    m.1.toNat < 32 := by
  match hx : ObuHeader.fillMetadata.runA ⟨src, p, true⟩ with
  | (.error e, s') => rw [hx] at h; simp at h
  | (.ok m', s') =>
    rw [hx] at h
    simp only [Except.ok.injEq] at h
    subst h
    simp only [ObuHeader.fillMetadata, Rd.bind_eq, Rd.pure_eq] at hx
    obtain ⟨t, s1, h1, hr⟩ := Rd.runA_bind_ok hx
    obtain ⟨rc, s2, h2, hr⟩ := Rd.runA_bind_ok hr
    obtain ⟨ts, s3, h3, hr⟩ := Rd.runA_bind_ok hr
    obtain ⟨ef, s4, h4, hr⟩ := Rd.runA_bind_ok hr
    obtain ⟨sz, s5, h5, hr⟩ := Rd.runA_bind_ok hr
    simp only [Rd.runA_ret, Prod.mk.injEq, Except.ok.injEq] at hr
    obtain ⟨rfl, -⟩ := hr
    have := Sf.u64 5 ⟨src, p, true⟩
    have hc : ((5 : Nat) : Int) = 5 := rfl
    rw [hc, h1] at this
    simp only at this ⊢
    rw [UInt64.toNat_toUInt8]
    omega

private theorem unexpected_type {t : ObuType} (h32 : t.toNat < 32) (htu : ¬ isTemporalUnitObuType t = true)
    (h : isUnexpectedDescriptor t = true) : t = ObuType.sequenceHeader := by
  have h : ∀ n < 32, isTemporalUnitObuType (UInt8.ofNat n) = true ∨ isUnexpectedDescriptor (UInt8.ofNat n) = false := by decide
  have := h t.toNat h32
  rw [UInt8.ofNat_toNat] at this
  rcases this with h1 | h1
  · exact absurd h1 htu
  · simp_all

private theorem round_facts {d : Descriptors} {src : Bits} {p : Nat} (hp : p ≤ src.length) (hsmall : src.length < 8 * 4294967295) :
    (round d src p = .temporalUnit → ∃ m, (ObuHeader.fillMetadata.runA ⟨src, p, true⟩).1 = .ok m ∧
      isTemporalUnitObuType m.1 = true) ∧
    (round d src p = .stop → ∃ m, (ObuHeader.fillMetadata.runA ⟨src, p, true⟩).1 = .ok m ∧ m.1 = ObuType.sequenceHeader) ∧
    (∀ d' n, round d src p = .go d' n → (ConsistentDescriptors d → ConsistentDescriptors d')) := by
  unfold round
  match hx : (ObuHeader.fillMetadata.runA ⟨src, p, true⟩).1 with
  | .error e => simp only; split <;> simp
  | .ok m =>
    simp only
    split
    next htu => simp [htu]
    next htu =>
      split
      · simp
      · match hy : ObuHeader.read.runA ⟨src, p, true⟩ with
        | (.error e, s1) => simp
        | (.ok hs, s1) =>
          obtain ⟨h1, -⟩ := header_after_peek hp hsmall hx hy
          simp only
          split
          next h31 =>
            split
            · simp [← h1, h31]
            · match hz : ((rObuPayload IaSequenceHeader.read hs.2).runA s1).1 with
              | .error e => simp
              | .ok r =>
                simp only [reduceCtorEq, false_implies, true_and, Round.go.injEq, and_imp]
                rintro d' n rfl rfl hd
                exact ⟨hd.codecIds, hd.codecs, hd.elementIds, hd.elements, hd.references⟩
          next h31 =>
            split
            next hu =>
              exact absurd (unexpected_type (by rw [h1]; exact fill_type hx) (by rw [h1]; exact htu) hu) h31
            · have hsf := sf_storeOther d hs.1 hs.2 s1
              match hz : (storeOther d hs.1 hs.2).runA s1 with
              | (.error e, s2) =>
                simp only [reduceCtorEq, false_implies, true_and, Round.go.injEq, and_imp]
                rintro d' n rfl rfl hd
                exact hd
              | (.ok d1, s2) =>
                rw [hz] at hsf
                simp only [reduceCtorEq, false_implies, true_and, Round.go.injEq, and_imp]
                rintro d' n rfl rfl hd
                exact hsf.2 hd

private theorem loop_ends (exact : Bool) (start : Nat) (src : Bits) (hst : start ≤ src.length)
    (hsmall : src.length < 8 * 4294967295) (fuel : Nat) (d : Descriptors) (p : Nat) (hp : p ≤ src.length)
    (hf : (src.length - p) / 8 < fuel) :
    Ends exact start src p d ((descriptorLoop exact start fuel d).runA ⟨src, p, true⟩) := by
  induction fuel generalizing d p with
  | zero => omega
  | succ fuel ih =>
    have hr := loop_round exact start fuel d src p hp hst hsmall
    obtain ⟨f1, f2, f3⟩ := round_facts (d := d) hp hsmall
    match hx : round d src p with
    | .wait =>
      rw [hx] at hr
      simp only [afterRound] at hr
      rw [hr]
      exact ⟨by simp, by simp, by simp⟩
    | .refuse e =>
      rw [hx] at hr
      obtain ⟨h1, h2⟩ := hr
      exact ⟨by rw [h2]; simpa using h1, by rw [h2]; simp, by rw [h2]; simp⟩
    | .stop =>
      obtain ⟨m, hm1, hm2⟩ := f2 hx
      rw [hx] at hr
      simp only [afterRound] at hr
      rw [hr]
      split
      · exact ⟨by simp [Err.fatal], by simp, by simp⟩
      next hs =>
        refine ⟨by simp, by simp, ?_⟩
        simp only [Except.ok.injEq, Option.some.injEq]
        rintro d' rfl
        refine ⟨_root_.id, by simpa [Option.isSome_iff_ne_none] using hs, by first | rfl | trivial, Nat.le_refl _, hp, by omega, .inr ⟨m, hm1, .inl hm2⟩⟩
    | .temporalUnit =>
      obtain ⟨m, hm1, hm2⟩ := f1 hx
      rw [hx] at hr
      simp only [afterRound] at hr
      cases exact
      · simp only [Bool.false_eq_true, ↓reduceIte] at hr
        rw [hr]
        split
        · exact ⟨by simp [Err.fatal], by simp, by simp⟩
        next hs =>
          refine ⟨by simp, by simp, ?_⟩
          simp only [Except.ok.injEq, Option.some.injEq]
          rintro d' rfl
          exact ⟨_root_.id, by simpa [Option.isSome_iff_ne_none] using hs, by first | rfl | trivial, Nat.le_refl _, hp, by omega, .inr ⟨m, hm1, .inr ⟨by first | rfl | trivial, hm2⟩⟩⟩
      · simp only [↓reduceIte] at hr
        rw [hr]
        exact ⟨by simp [Err.fatal], by simp, by simp⟩
    | .go d1 n =>
      have hc := f3 d1 n hx
      rw [hx] at hr
      obtain ⟨q, q1, q2, q3, hr⟩ := hr
      rw [hr]
      unfold continueAt
      split
      · exact ⟨by simp [Err.fatal], by simp, by simp⟩
      next hs =>
        split
        next he =>
          simp only [Bool.and_eq_true, decide_eq_true_eq] at he
          refine ⟨by simp, by simp, ?_⟩
          simp only [Except.ok.injEq, Option.some.injEq]
          rintro d' rfl
          exact ⟨hc, by simpa [Option.isSome_iff_ne_none] using hs, by first | rfl | trivial, by omega, q3, by omega, .inl he⟩
        · have := ih d1 q q3 (by omega)
          refine ⟨this.status, this.wait, fun d' hd' => ?_⟩
          obtain ⟨a1, a2, a3, a4, a5, a6, a7⟩ := this.done d' hd'
          exact ⟨fun h => a1 (hc h), a2, a3, by omega, a5, by omega, a7⟩

theorem parse_ends (exact : Bool) (src : Bits) (p : Nat) (v : Bool) (hp : p ≤ src.length)
    (hsmall : src.length < 8 * 4294967295) :
    Ends exact p src p .empty ((parseDescriptors exact).runA ⟨src, p, v⟩) := by
  unfold parseDescriptors
  simp only [Rd.runA, Int.toNat_natCast]
  exact loop_ends exact p src hp hsmall _ _ p hp (by omega)


private theorem run_create (exact : Bool) (src : List UInt8) (cap : Nat) (pv : Bool) (hc : 0 < cap) :
    ((parseDescriptors exact).run (RBuf.create cap src pv)).1 = ((parseDescriptors exact).runA ⟨bytesBits src, 0, pv⟩).1 ∧
    ((parseDescriptors exact).run (RBuf.create cap src pv)).2.WF ∧
    ((parseDescriptors exact).run (RBuf.create cap src pv)).2.abs = ((parseDescriptors exact).runA ⟨bytesBits src, 0, pv⟩).2 ∧
    ((parseDescriptors exact).run (RBuf.create cap src pv)).2.src = src ∧
    ((parseDescriptors exact).run (RBuf.create cap src pv)).2.tell =
      ((parseDescriptors exact).runA ⟨bytesBits src, 0, pv⟩).2.pos := by
  obtain ⟨h1, h2, h3, h4⟩ := (parseDescriptors exact).run_refines _ (RBuf.wf_create cap src pv (.inl hc))
  rw [RBuf.abs_create] at h1 h3
  refine ⟨h1, h2, h3, h4, ?_⟩
  rw [← h3]
  have := h2.tell_nonneg
  simp only [RBuf.abs]
  omega

/-- **C21 (any data).** Whatever the data, parsing descriptors comes to an end with a result or a status, without undefined
behaviour or a failed assertion; when it asks for more data, the read position is where it was, so that the same bytes are
parsed again when more have arrived. -/
theorem C21_descriptors_of_any_data (exact : Bool) (src : List UInt8) (cap : Nat) (pv : Bool) (hc : 0 < cap)
    (hl : src.length < 4294967295) :
    ((∃ r, ((parseDescriptors exact).run (RBuf.create cap src pv)).1 = .ok r) ∨
      ∃ e, ((parseDescriptors exact).run (RBuf.create cap src pv)).1 = .error e ∧ e ≠ .abort ∧ e ≠ .ub ∧ e ≠ .diverge) ∧
    (((parseDescriptors exact).run (RBuf.create cap src pv)).1 = .ok none →
      ((parseDescriptors exact).run (RBuf.create cap src pv)).2.tell = 0) := by
  obtain ⟨h1, h2, h3, h4, h5⟩ := run_create exact src cap pv hc
  have he := parse_ends exact (bytesBits src) 0 pv (by simp) (by rw [bytesBits_length]; omega)
  rw [h1, h5]
  refine ⟨?_, fun h => by rw [he.wait h]; rfl⟩
  match hx : ((parseDescriptors exact).runA ⟨bytesBits src, 0, pv⟩).1 with
  | .ok r => exact .inl ⟨r, rfl⟩
  | .error e =>
    have := he.status e hx
    exact .inr ⟨e, rfl, by rintro rfl; simp [Err.fatal] at this, by rintro rfl; simp [Err.fatal] at this,
      by rintro rfl; simp [Err.fatal] at this⟩

/-- **C21 (what is returned).** Whatever the data, descriptors that are returned are consistent and include an IA sequence
header.  The read position is then the beginning of an OBU: either nothing is left (only when the data was announced to be
exactly the descriptors), or the next OBU starts a new sequence, or (if the data may go on behind the descriptors) it
belongs to a temporal unit. -/
theorem C21_returned_descriptors_are_consistent (exact : Bool) (src : List UInt8) (cap : Nat) (pv : Bool) (hc : 0 < cap)
    (hl : src.length < 4294967295) (d : Descriptors)
    (hr : ((parseDescriptors exact).run (RBuf.create cap src pv)).1 = .ok (some d)) :
    ConsistentDescriptors d ∧ d.iaHeader.isSome = true ∧
    ∃ n ≤ src.length, ((parseDescriptors exact).run (RBuf.create cap src pv)).2.tell = 8 * n ∧
      ((exact = true ∧ n = src.length) ∨
        ∃ type size, (ObuHeader.peek.run ((parseDescriptors exact).run (RBuf.create cap src pv)).2).1 = .ok (type, size) ∧
          (type = 31 ∨ (exact = false ∧ (type = 3 ∨ type = 4 ∨ (5 ≤ type ∧ type ≤ 23))))) := by
  obtain ⟨h1, h2, h3, h4, h5⟩ := run_create exact src cap pv hc
  have he := parse_ends exact (bytesBits src) 0 pv (by simp) (by rw [bytesBits_length]; omega)
  rw [h1] at hr
  obtain ⟨a1, a2, a3, -, a5, a6, a7⟩ := he.done d hr
  rw [bytesBits_length] at a5 a7
  refine ⟨a1 consistent_empty, a2, ((parseDescriptors exact).runA ⟨bytesBits src, 0, pv⟩).2.pos / 8, by omega, by omega, ?_⟩
  rcases a7 with ⟨e1, e2⟩ | ⟨m, e1, e2⟩
  · exact .inl ⟨e1, by omega⟩
  · refine .inr ⟨m.1, m.2, ?_, ?_⟩
    · obtain ⟨q1, -⟩ := ObuHeader.peek.run_refines _ h2
      rw [q1, h3, peek_runA _ (by rw [a3, bytesBits_length]; exact a5)]
      simp only [a3]
      exact e1
    · refine e2.imp _root_.id fun ⟨h, h'⟩ => ⟨h, ?_⟩
      have key : ∀ n < 32, isTemporalUnitObuType (UInt8.ofNat n) = true →
          UInt8.ofNat n = 3 ∨ UInt8.ofNat n = 4 ∨ (5 ≤ UInt8.ofNat n ∧ UInt8.ofNat n ≤ 23) := by decide
      have := key m.1.toNat (fill_type e1)
      rw [UInt8.ofNat_toNat] at this
      exact this h'

/-! ### Written descriptors -/

/-- Specification: what a descriptor OBU holds. -/
inductive DescriptorContent where
  | sequenceHeader (s : IaSequenceHeader)
  | codecConfig (c : CodecConfig)
  | audioElement (a : AudioElement)
  | mixPresentation (m : MixPresentation)
  | other (payload : Wr Unit)

/-- Specification: a descriptor OBU. -/
structure DescriptorObu where
  header : ObuHeader
  content : DescriptorContent
  footer : List UInt8

/-- Specification: writing a descriptor OBU. -/
def DescriptorObu.write (x : DescriptorObu) : Wr Unit :=
  wObu x.header (match x.content with
    | .sequenceHeader s => s.write
    | .codecConfig c => c.write
    | .audioElement a => a.write
    | .mixPresentation m => m.write x.header.optionalFieldsFlag
    | .other payload => payload) x.footer

/-- Specification: OBUs as the library builds them.  The type in the header says what the OBU holds; the other conditions
are those of the round trips C08 to C11. -/
def DescriptorObu.Proper (x : DescriptorObu) : Prop :=
  x.header.trimEnd = 0 ∧ x.header.trimStart = 0 ∧
  match x.content with
  | .sequenceHeader _ => x.header.obuType = 31
  | .codecConfig c => x.header.obuType = 0 ∧ c.Typed ∧ ∀ f, c.decoderConfig = .flac f → f.blocks.length ≤ 128
  | .audioElement a => x.header.obuType = 1 ∧ BuiltElement a
  | .mixPresentation m => x.header.obuType = 2 ∧ BuiltMix m ∧ m.countLabel ≤ 256 ∧ m.subMixes.length ≤ 28 ∧
      (m.tags = none → x.footer = [])
  | .other _ => 24 ≤ x.header.obuType ∧ x.header.obuType ≤ 30

/-- Specification: adding a descriptor OBU to a collection.  The last sequence header counts; a codec config or an audio
element counts if its id is new; an audio element also needs its codec config (and substreams that can be labelled, C27); a
mix presentation needs its audio elements. -/
def collect (d : Descriptors) (x : DescriptorObu) : Descriptors :=
  match x.content with
  | .sequenceHeader s => { d with iaHeader := some (x.header, s) }
  | .codecConfig c =>
    if c.configId ∈ d.codecs.map Prod.fst then d
    else match c.rates with
      | .ok (out, inp, depth) => { d with codecs := d.codecs ++ [(c.configId, ⟨c, out, inp, depth⟩)] }
      | .error _ => d
  | .audioElement a =>
    if a.elementId ∈ d.elements.map Prod.fst then d
    else match generateElement d.codecs (carriedElement a) with
      | .ok w => { d with elements := d.elements ++ [(a.elementId, w)] }
      | .error _ => d
  | .mixPresentation m =>
    if ∀ s ∈ m.subMixes, ∀ e ∈ s.elements, e.id ∈ d.elements.map Prod.fst then
      { d with mixes := d.mixes ++ [carriedMix x.header.optionalFieldsFlag m] }
    else d
  | .other _ => d

private theorem normalized_of_no_trim {h : ObuHeader} (hte : h.trimEnd = 0) (hts : h.trimStart = 0) : h.normalized = h := by
  obtain ⟨t, rc, ts, te, tst, x⟩ := h
  simp only at hte hts
  subst hte; subst hts
  unfold ObuHeader.normalized; split <;> rfl

private theorem codecConfig_len {g : LebGen} {c : CodecConfig} {pb : Bits} (h : c.write.eval g = (.ok (), pb)) : 64 ≤ pb.length := by
  unfold CodecConfig.write at h
  simp only [Wr.bind_eq] at h
  rw [Wr.eval_bind_ok] at h
  obtain ⟨_, b1, b2, e1, h, rfl⟩ := h
  rw [Wr.eval_bind_ok] at h
  obtain ⟨_, b3, b4, e2, h, rfl⟩ := h
  obtain ⟨-, h'⟩ := Wr.check_bind_ok h
  rw [Wr.eval_bind_ok] at h'
  obtain ⟨_, b5, b6, e3, h', rfl⟩ := h'
  rw [Wr.eval_bind_ok] at h'
  obtain ⟨_, b7, b8, e4, h', rfl⟩ := h'
  have l1 := wUleb_len e1
  have l3 := wUleb_len e3
  rw [eval_wS16] at e4
  simp only [Prod.mk.injEq, true_and] at e4
  have hw32 := eval_wU32 g c.codecId 32 (by omega) (by omega)
  rw [show ((32 : Nat) : Int) = 32 from rfl, e2] at hw32
  have e2 := hw32.symm
  have l2 : b3.length = 32 := by
    split at e2
    · simp only [Prod.mk.injEq, true_and] at e2; rw [← e2]; simp
    · simp at e2
  simp only [List.length_append, ← e4, natBits_length]
  omega

private theorem lookup_isSome {α β : Type} [DecidableEq α] (l : List (α × β)) (a : α) :
    (l.lookup a).isSome = true ↔ a ∈ l.map Prod.fst := by
  constructor
  · intro h
    obtain ⟨b, hb⟩ := Option.isSome_iff_exists.mp h
    exact List.mem_map.mpr ⟨_, lookup_some hb, rfl⟩
  · intro h
    by_contra hn
    exact lookup_none (Option.not_isSome_iff_eq_none.mp hn) h

private theorem subMixes_carried (d : Descriptors) (flag : Bool) (m : MixPresentation) :
    ((carriedMix flag m).subMixes.all fun s => s.elements.all fun e => (d.elements.lookup e.id).isSome) = true ↔
      ∀ s ∈ m.subMixes, ∀ e ∈ s.elements, e.id ∈ d.elements.map Prod.fst := by
  simp only [carriedMix, carriedSubMix, List.all_map, List.all_eq_true, Function.comp_apply, lookup_isSome]

/-- One written OBU, in the middle of the data. -/
private theorem item_round {g : LebGen} {x : DescriptorObu} {bs : Bits} {d : Descriptors} {src : Bits} {p : Nat} (hx : x.Proper)
    (hb : x.write.eval g = (.ok (), bs)) (hp : p ≤ src.length) (hs : bs <+: src.drop p)
    (hone : ∀ s, x.content = .sequenceHeader s → startsNewSequence d x.header = false) :
    round d src p = .go (collect d x) ((bs.length / 8 : Nat) : Int) := by
  obtain ⟨hte, hts, hx⟩ := hx
  have hnorm := normalized_of_no_trim hte hts
  unfold DescriptorObu.write at hb
  have hpk := wObu_peek hb ⟨src, p, true⟩ hp hs
  obtain ⟨c1, pb, hpay, hal, hle, hbs, hrd⟩ := wObu_parts hb
  rw [hnorm] at hrd
  have hlen : bs.length ≤ src.length - p := by simpa using hs.length_le
  obtain ⟨v, e1, m1⟩ := hrd ⟨src, p, true⟩ hp (by rw [hbs] at hs; exact (List.prefix_append _ _).trans hs)
  have hv := m1 rfl
  subst hv
  have hs1 : pb ++ bytesBits x.footer <+: (⟨src, p + c1.length, true⟩ : RS).rest := by
    have := rest_after ⟨src, p, true⟩ c1 (pb ++ bytesBits x.footer) (by rw [← hbs]; exact hs) hp true
    exact this.1
  have hp1 : (⟨src, p + c1.length, true⟩ : RS).pos ≤ src.length := by
    have := rest_after ⟨src, p, true⟩ c1 (pb ++ bytesBits x.footer) (by rw [← hbs]; exact hs) hp true
    exact this.2
  have hpl : ∀ {α : Type} {derived : Int → Rd α} {a : α},
      Reads (derived ((pb.length / 8 + x.footer.length : Nat) : Int)) pb a →
      (rObuPayload derived ((pb.length / 8 + x.footer.length : Nat) : Int)).runA ⟨src, p + c1.length, true⟩ =
        (.ok (a, x.footer), ⟨src, p + c1.length + (pb ++ bytesBits x.footer).length, true⟩) :=
    fun h => payload_read hal h ⟨src, p + c1.length, true⟩ rfl hp1 hs1
  unfold round
  rw [hpk]
  simp only
  have htu : isTemporalUnitObuType x.header.obuType = false ∧
      isUnexpectedDescriptor x.header.obuType = false := by
    have key : ∀ n < 32, (n ≤ 2 ∨ 24 ≤ n) → isTemporalUnitObuType (UInt8.ofNat n) = false ∧
      isUnexpectedDescriptor (UInt8.ofNat n) = false := by decide
    have hk := key x.header.obuType.toNat
    rw [UInt8.ofNat_toNat] at hk
    match hc : x.content with
    | .sequenceHeader s => rw [hc] at hx; simp only at hx; rw [hx]; decide
    | .codecConfig c => rw [hc] at hx; simp only at hx; rw [hx.1]; decide
    | .audioElement a => rw [hc] at hx; simp only at hx; rw [hx.1]; decide
    | .mixPresentation m => rw [hc] at hx; simp only at hx; rw [hx.1]; decide
    | .other b =>
      rw [hc] at hx
      simp only at hx
      have h1 := UInt8.le_iff_toNat_le.mp hx.1
      have h2 := UInt8.le_iff_toNat_le.mp hx.2
      simp only [UInt8.reduceToNat] at h1 h2
      exact hk (by omega) (.inr h1)
  rw [if_neg (by simp [htu.1]), if_neg (by omega), e1]
  simp only [htu.2, Bool.false_eq_true, ↓reduceIte]
  match hc : x.content with
  | .sequenceHeader s =>
    rw [hc] at hx hpay
    simp only at hx hpay
    have hr := hpl (IaSequenceHeader.rt g s x.footer pb hpay hal hle)
    rw [if_pos (show x.header.obuType = ObuType.sequenceHeader from hx), if_neg (by simp [hone s hc])]
    rw [hr]
    simp only [collect, hc]
  | .codecConfig c =>
    rw [hc] at hx hpay
    simp only at hx hpay
    have hr := hpl (CodecConfig.rt g c x.footer hx.2.1 hx.2.2 pb hpay hal hle)
    have hl8 := codecConfig_len hpay
    rw [if_neg (by rw [hx.1]; decide)]
    have hsf := sf_obuPayload ((pb.length / 8 + x.footer.length : Nat) : Int) (CodecConfig.sf _) ⟨src, p + c1.length, true⟩
    rw [hr] at hsf
    obtain ⟨r, hrates⟩ := hsf.2.1
    simp only at hrates
    have hst : (storeOther d x.header ((pb.length / 8 + x.footer.length : Nat) : Int)).runA ⟨src, p + c1.length, true⟩ =
        (.ok (collect d x), ⟨src, p + c1.length + (pb ++ bytesBits x.footer).length, true⟩) := by
      unfold storeOther storeCodecConfig
      rw [if_pos (show x.header.obuType = ObuType.codecConfig from hx.1), if_neg (by simp only [kSmallestAcceptedCodecConfigSize]; omega)]
      unfold CodecConfig.createFromBuffer
      rw [Rd.runA_bind, Rd.runA_bind, hr]
      simp only [hrates, Rd.runA_ret, collect, hc]
      match hlk : d.codecs.lookup c.configId with
      | some _ =>
        have : c.configId ∈ d.codecs.map Prod.fst := (lookup_isSome _ _).mp (by rw [hlk]; rfl)
        rw [if_pos this]
        rfl
      | none =>
        rw [if_neg (lookup_none hlk)]
        rfl
    rw [hst]
  | .audioElement a =>
    rw [hc] at hx hpay
    simp only at hx hpay
    have hr := hpl (AudioElement.rt g a x.footer (built_made hx.2) pb hpay hal hle)
    rw [normalized_carriedElement a (built_made hx.2)] at hr
    rw [if_neg (by rw [hx.1]; decide)]
    unfold storeOther storeAudioElement
    rw [if_neg (by rw [hx.1]; decide), if_pos (show x.header.obuType = ObuType.audioElement from hx.1), Rd.runA_bind, hr]
    have hsf := sf_obuPayload ((pb.length / 8 + x.footer.length : Nat) : Int) (sf_audioElement _) ⟨src, p + c1.length, true⟩
    rw [hr] at hsf
    have hg := generateElement_reports d.codecs (carriedElement a) hsf
    simp only [collect, hc]
    match hge : generateElement d.codecs (carriedElement a) with
    | .error e => simp
    | .ok w =>
      rw [hge] at hg
      have hid : w.obu.elementId = a.elementId := by rw [hg.1]; rfl
      simp only [hid]
      match hlk : d.elements.lookup a.elementId with
      | some _ =>
        have : a.elementId ∈ d.elements.map Prod.fst := (lookup_isSome _ _).mp (by rw [hlk]; rfl)
        rw [if_pos this]
        rfl
      | none =>
        rw [if_neg (lookup_none hlk)]
        rfl
  | .mixPresentation m =>
    rw [hc] at hx hpay
    simp only at hx hpay
    obtain ⟨ht, hm, hl1, hl2, hf⟩ := hx
    have hr := hpl (MixPresentation.rt g x.header.optionalFieldsFlag m x.footer ⟨hl1, hl2, subMix_made hm⟩ hf pb hpay hal hle)
    rw [normalized_carriedMix _ m hm] at hr
    rw [if_neg (by rw [ht]; decide)]
    unfold storeOther storeMixPresentation
    rw [if_neg (by rw [ht]; decide), if_neg (by rw [ht]; decide), if_pos (show x.header.obuType = ObuType.mixPresentation from ht), Rd.runA_bind, hr]
    simp only [collect, hc]
    have hiff := subMixes_carried d x.header.optionalFieldsFlag m
    by_cases hall : ∀ s ∈ m.subMixes, ∀ e ∈ s.elements, e.id ∈ d.elements.map Prod.fst
    · rw [if_pos (hiff.mpr hall), if_pos hall]; rfl
    · rw [if_neg (fun h => hall (hiff.mp h)), if_neg hall]; rfl
  | .other b =>
    rw [hc] at hx
    simp only at hx
    have h1 := UInt8.le_iff_toNat_le.mp hx.1
    have h2 := UInt8.le_iff_toNat_le.mp hx.2
    simp only [UInt8.reduceToNat] at h1 h2
    have hne : ∀ t : UInt8, t.toNat ≤ 2 ∨ t.toNat = 31 → x.header.obuType ≠ t := by
      rintro t ht rfl
      omega
    rw [if_neg (hne _ (.inr rfl))]
    unfold storeOther
    rw [if_neg (hne _ (.inl (by decide))), if_neg (hne _ (.inl (by decide))), if_neg (hne _ (.inl (by decide)))]
    simp only [Rd.runA, collect, hc]

private theorem item_step {g : LebGen} {x : DescriptorObu} {bs : Bits} {d : Descriptors} {src : Bits} {p : Nat} (exact : Bool)
    (start fuel : Nat) (hst : start ≤ src.length) (hsmall : src.length < 8 * 4294967295) (hx : x.Proper)
    (hb : x.write.eval g = (.ok (), bs)) (hp : p ≤ src.length) (hs : bs <+: src.drop p)
    (hone : ∀ s, x.content = .sequenceHeader s → startsNewSequence d x.header = false) :
    (descriptorLoop exact start (fuel + 1) d).runA ⟨src, p, true⟩ =
      continueAt exact start fuel (collect d x) src (p + bs.length) := by
  have hr := loop_round exact start fuel d src p hp hst hsmall
  rw [item_round hx hb hp hs hone] at hr
  obtain ⟨q, q1, -, -, hr⟩ := hr
  have hal := wObu_aligned hb
  have : q = p + bs.length := by omega
  rw [hr, this]

/-- The redundancy flags of the sequence headers among the OBUs. -/
private def flags (xs : List DescriptorObu) : List Bool :=
  xs.filterMap fun x => match x.content with
    | .sequenceHeader _ => some x.header.redundantCopy
    | _ => none

/-- Specification: of two successive sequence headers at least one is a redundant copy, so that the OBUs belong to one
sequence. -/
def OneSequence (xs : List DescriptorObu) : Prop :=
  (xs.filterMap fun x => match x.content with
    | .sequenceHeader _ => some x.header.redundantCopy
    | _ => none).IsChain fun a b => a = true ∨ b = true

private theorem collect_header (d : Descriptors) (x : DescriptorObu) :
    (∃ s, x.content = .sequenceHeader s ∧ (collect d x).iaHeader = some (x.header, s)) ∨
    ((∀ s, x.content ≠ .sequenceHeader s) ∧ (collect d x).iaHeader = d.iaHeader) := by
  unfold collect
  split
  next s hs => exact .inl ⟨s, hs, rfl⟩
  · refine .inr ⟨by simp_all, ?_⟩
    split
    · rfl
    · split <;> rfl
  · refine .inr ⟨by simp_all, ?_⟩
    split
    · rfl
    · split <;> rfl
  · refine .inr ⟨by simp_all, ?_⟩
    split <;> rfl
  · exact .inr ⟨by simp_all, rfl⟩

/-- The flag of the stored header. -/
private def stored (d : Descriptors) : List Bool := (d.iaHeader.map fun h => h.1.redundantCopy).toList

/-- What is carried along the list of OBUs. -/
private def Fits (d : Descriptors) (xs : List DescriptorObu) : Prop :=
  (stored d ++ flags xs).IsChain fun a b => a = true ∨ b = true

private theorem fits_cons {d : Descriptors} {x : DescriptorObu} {xs : List DescriptorObu} (h : Fits d (x :: xs)) :
    (∀ s, x.content = .sequenceHeader s → startsNewSequence d x.header = false) ∧ Fits (collect d x) xs := by
  rcases collect_header d x with ⟨s, hc, hi⟩ | ⟨hc, hi⟩
  · unfold Fits at h ⊢
    have hf : flags (x :: xs) = x.header.redundantCopy :: flags xs := by simp [flags, hc]
    rw [hf] at h
    constructor
    · intro _ _
      unfold startsNewSequence
      split
      · rfl
      next st o hd =>
        simp only [stored, hd, Option.map_some, Option.toList_some, List.singleton_append, List.isChain_cons_cons] at h
        rcases h.1 with h | h <;> simp [h]
    · simp only [stored, hi, Option.map_some, Option.toList_some, List.singleton_append]
      exact List.IsChain.right_of_append h
  · unfold Fits at h ⊢
    have hf : flags (x :: xs) = flags xs := by
      unfold flags
      rw [List.filterMap_cons]
      match hx : x.content with
      | .sequenceHeader s => exact absurd hx (hc s)
      | .codecConfig c => rfl
      | .audioElement a => rfl
      | .mixPresentation m => rfl
      | .other b => rfl
    rw [hf] at h
    refine ⟨fun s hs => absurd hs (hc s), ?_⟩
    have : stored (collect d x) = stored d := by unfold stored; rw [hi]
    rw [this]
    exact h

private theorem continueAt_loop {exact : Bool} {start : Int} {fuel : Nat} {d : Descriptors} {src : Bits} {q : Nat}
    (hd : d.iaHeader.isSome = true) (hn : exact = false ∨ 8 ≤ src.length - q) :
    continueAt exact start fuel d src q = (descriptorLoop exact start fuel d).runA ⟨src, q, true⟩ := by
  unfold continueAt
  have : d.iaHeader.isNone = false := by rw [Option.isNone_eq_false_iff]; exact hd
  rw [this]
  simp only [Bool.false_eq_true, ↓reduceIte, Bool.and_eq_true, decide_eq_true_eq]
  rw [if_neg]
  rintro ⟨h1, h2⟩
  rcases hn with hn | hn
  · simp [hn] at h1
  · omega

private theorem collect_some {d : Descriptors} {x : DescriptorObu}
    (h : d.iaHeader.isSome = true ∨ ∃ s, x.content = .sequenceHeader s) : (collect d x).iaHeader.isSome = true := by
  rcases collect_header d x with ⟨s, -, hi⟩ | ⟨hc, hi⟩
  · rw [hi]; rfl
  · rw [hi]
    exact h.resolve_right fun ⟨s, hs⟩ => hc s hs

/-- Specification: the OBUs are written, in this order, as these bytes. -/
def WrittenAs (xs : List DescriptorObu) (bytes : List UInt8) : Prop :=
  ∃ parts : List (List UInt8), bytes = parts.flatten ∧
    List.Forall₂ (fun x part => ∃ g, Writes g x.write part) xs parts

private def WrittenBits (xs : List DescriptorObu) (bss : List Bits) : Prop :=
  List.Forall₂ (fun x bs => ∃ g, x.write.eval g = (.ok (), bs)) xs bss

private theorem items (exact : Bool) (start : Nat) (src : Bits) (hst : start ≤ src.length) (hsmall : src.length < 8 * 4294967295)
    (xs : List DescriptorObu) (bss : List Bits) (hw : WrittenBits xs bss) (hx : ∀ x ∈ xs, x.Proper) (fuel : Nat) (d : Descriptors)
    (hd : d.iaHeader.isSome = true) (hf : Fits d xs) (p : Nat) (hp : p ≤ src.length) (hs : bss.flatten <+: src.drop p) :
    continueAt exact start (fuel + xs.length) d src p =
      continueAt exact start fuel (xs.foldl collect d) src (p + bss.flatten.length) := by
  induction hw generalizing d p with
  | nil => rfl
  | @cons x bs xs bss hb _ ih =>
    obtain ⟨g, hb⟩ := hb
    obtain ⟨h1, h2⟩ := fits_cons hf
    have h16 := wObu_pos hb
    rw [List.flatten_cons] at hs
    have hsb : bs <+: src.drop p := (List.prefix_append _ _).trans hs
    have hlen : bs.length ≤ src.length - p := by simpa using hsb.length_le
    rw [continueAt_loop hd (.inr (by omega)), List.length_cons, ← Nat.add_assoc]
    rw [item_step exact start (fuel + xs.length) hst hsmall (hx x List.mem_cons_self) hb hp hsb h1]
    rw [ih (fun y hy => hx y (List.mem_cons_of_mem _ hy)) _ (collect_some (.inl hd)) h2 (p + bs.length) (by omega)
      (rest_after ⟨src, p, true⟩ bs bss.flatten hs hp true).1]
    rw [List.foldl_cons, List.flatten_cons, List.length_append, Nat.add_assoc]

/-- A beginning of a written OBU. -/
private theorem cut_round {g : LebGen} {h : ObuHeader} {payload : Wr Unit} {footer : List UInt8} {bs : Bits} {d : Descriptors}
    {src : Bits} {p : Nat} (hb : (wObu h payload footer).eval g = (.ok (), bs)) (hp : p ≤ src.length) (hs : src.drop p <+: bs)
    (hlt : src.length - p < bs.length) (ht : isTemporalUnitObuType h.obuType = false) : round d src p = .wait := by
  have hal := wObu_aligned hb
  unfold round
  rcases wObu_peek_prefix hb ⟨src, p, true⟩ hp hs with h | h
  · rw [h]
    simp only [ht, Bool.false_eq_true, ↓reduceIte]
    rw [if_pos (by omega)]
  · rw [h]
    simp

private theorem proper_type {x : DescriptorObu} (hx : x.Proper) : isTemporalUnitObuType x.header.obuType = false := by
  obtain ⟨-, -, hx⟩ := hx
  have key : ∀ n < 32, (n ≤ 2 ∨ 24 ≤ n) → isTemporalUnitObuType (UInt8.ofNat n) = false := by decide
  have hk := key x.header.obuType.toNat
  rw [UInt8.ofNat_toNat] at hk
  match hc : x.content with
  | .sequenceHeader s => rw [hc] at hx; simp only at hx; rw [hx]; decide
  | .codecConfig c => rw [hc] at hx; simp only at hx; rw [hx.1]; decide
  | .audioElement a => rw [hc] at hx; simp only at hx; rw [hx.1]; decide
  | .mixPresentation m => rw [hc] at hx; simp only at hx; rw [hx.1]; decide
  | .other b =>
    rw [hc] at hx
    simp only at hx
    have h1 := UInt8.le_iff_toNat_le.mp hx.1
    have h2 := UInt8.le_iff_toNat_le.mp hx.2
    simp only [UInt8.reduceToNat] at h1 h2
    exact hk (by omega) (.inr h1)

/-- The loop on OBUs of which the last is not complete. -/
private theorem items_cut (start : Nat) (src : Bits) (hst : start ≤ src.length) (hsmall : src.length < 8 * 4294967295)
    (xs : List DescriptorObu) (bss : List Bits) (hw : WrittenBits xs bss) (hx : ∀ x ∈ xs, x.Proper) (fuel : Nat) (d : Descriptors)
    (hd : d.iaHeader.isSome = true ∨ ∃ x ys s, xs = x :: ys ∧ x.content = .sequenceHeader s) (hf : Fits d xs) (p : Nat)
    (hp : p ≤ src.length) (hs : src.drop p <+: bss.flatten) (hlt : src.length - p < bss.flatten.length)
    (hfuel : (src.length - p) / 8 < fuel) :
    (descriptorLoop false start fuel d).runA ⟨src, p, true⟩ = (.ok none, ⟨src, start, true⟩) := by
  induction hw generalizing d p fuel with
  | nil => simp at hlt
  | @cons x bs xs bss hb _ ih =>
    obtain ⟨g, hb⟩ := hb
    obtain ⟨h1, h2⟩ := fits_cons hf
    obtain ⟨fuel, rfl⟩ : ∃ k, fuel = k + 1 := ⟨fuel - 1, by omega⟩
    rw [List.flatten_cons] at hs hlt
    rw [List.length_append] at hlt
    rcases Nat.lt_or_ge (src.length - p) bs.length with hc | hc
    · have hr := loop_round false start fuel d src p hp hst hsmall
      rw [cut_round hb hp (List.prefix_of_prefix_length_le hs (List.prefix_append _ _) (by simp; omega)) hc
        (proper_type (hx x List.mem_cons_self))] at hr
      exact hr
    · have hsb : bs <+: src.drop p := List.prefix_of_prefix_length_le (List.prefix_append _ _) hs (by simpa using hc)
      rw [item_step false start fuel hst hsmall (hx x List.mem_cons_self) hb hp hsb h1]
      have hsome : (collect d x).iaHeader.isSome = true := by
        refine collect_some (hd.imp _root_.id ?_)
        rintro ⟨y, ys, s, e, hy⟩
        rw [List.cons.injEq] at e
        exact ⟨s, e.1 ▸ hy⟩
      rw [continueAt_loop hsome (.inl rfl)]
      refine ih (fun y hy => hx y (List.mem_cons_of_mem _ hy)) fuel _ (.inl hsome) h2 _ (by omega) ?_ (by omega)
        (by have := wObu_pos hb; omega)
      obtain ⟨t, ht⟩ := hsb
      rw [← ht, List.prefix_append_right_inj] at hs
      rw [← List.drop_drop, ← ht, List.drop_left]
      exact hs

private theorem written_bits {xs : List DescriptorObu} {bytes : List UInt8} (h : WrittenAs xs bytes) :
    ∃ bss, WrittenBits xs bss ∧ bytesBits bytes = bss.flatten := by
  obtain ⟨parts, rfl, h⟩ := h
  induction h with
  | nil => exact ⟨[], .nil, rfl⟩
  | @cons x part xs parts hw _ ih =>
    obtain ⟨bss, h1, h2⟩ := ih
    obtain ⟨g, hw⟩ := hw
    exact ⟨bytesBits part :: bss, .cons ⟨g, hw.eval⟩ h1, by rw [List.flatten_cons, bytesBits_append, h2, List.flatten_cons]⟩

private theorem written_length {xs : List DescriptorObu} {bss : List Bits} (h : WrittenBits xs bss) :
    16 * xs.length ≤ bss.flatten.length := by
  induction h with
  | nil => simp
  | @cons x bs xs bss hb _ ih =>
    obtain ⟨g, hb⟩ := hb
    have := wObu_pos hb
    simp only [List.length_cons, List.flatten_cons, List.length_append]
    omega

theorem parse_loop (exact : Bool) (src : Bits) (v : Bool) : (parseDescriptors exact).runA ⟨src, 0, v⟩ =
    (descriptorLoop exact (0 : Nat) (src.length / 8 + 1) .empty).runA ⟨src, 0, true⟩ := by
  unfold parseDescriptors
  simp only [Rd.runA, Int.toNat_natCast, Nat.sub_zero]

/-- All OBUs are there. -/
private theorem parse_items (exact : Bool) (src : Bits) (v : Bool) (hsmall : src.length < 8 * 4294967295)
    (x : DescriptorObu) (xs : List DescriptorObu) (s : IaSequenceHeader) (hfirst : x.content = .sequenceHeader s)
    (bss : List Bits) (hw : WrittenBits (x :: xs) bss) (hx : ∀ y ∈ x :: xs, y.Proper) (hone : OneSequence (x :: xs))
    (hs : bss.flatten <+: src) :
    ((x :: xs).foldl collect .empty).iaHeader.isSome = true ∧
    ∃ fuel, (src.length - bss.flatten.length) / 8 < fuel ∧ (parseDescriptors exact).runA ⟨src, 0, v⟩ =
      continueAt exact (0 : Nat) fuel ((x :: xs).foldl collect .empty) src bss.flatten.length := by
  have hl := written_length hw
  have hle := hs.length_le
  cases hw with
  | @cons _ bs _ bss hb hw =>
    obtain ⟨g, hb⟩ := hb
    have h16 := wObu_pos hb
    have hl2 := written_length hw
    rw [List.flatten_cons] at hs
    have hfit : Fits .empty (x :: xs) := hone
    obtain ⟨h1, h2⟩ := fits_cons hfit
    have hsome : (collect .empty x).iaHeader.isSome = true := collect_some (.inr ⟨s, hfirst⟩)
    constructor
    · rw [List.foldl_cons]
      have : ∀ (ys : List DescriptorObu) (d : Descriptors), d.iaHeader.isSome = true → (ys.foldl collect d).iaHeader.isSome = true := by
        intro ys
        induction ys with
        | nil => exact fun d h => h
        | cons y ys ih => exact fun d h => ih _ (collect_some (.inl h))
      exact this xs _ hsome
    · refine ⟨src.length / 8 - xs.length, ?_, ?_⟩
      · simp only [List.flatten_cons, List.length_append] at hle ⊢
        omega
      · rw [parse_loop, item_step exact 0 (src.length / 8) (Nat.zero_le _) hsmall (hx x List.mem_cons_self) hb (Nat.zero_le _)
          ((List.prefix_append _ _).trans hs) h1]
        simp only [List.flatten_cons, List.length_append, List.length_cons] at hle hl
        have := items exact 0 src (Nat.zero_le _) hsmall xs bss hw (fun y hy => hx y (List.mem_cons_of_mem _ hy))
          (src.length / 8 - xs.length) _ hsome h2 (0 + bs.length) (by omega)
          (rest_after ⟨src, 0, true⟩ bs bss.flatten hs (Nat.zero_le _) true).1
        rw [Nat.sub_add_cancel (by omega)] at this
        rw [this, List.foldl_cons, List.flatten_cons, List.length_append, Nat.zero_add]

/-- A stream that goes on with the OBUs of a temporal unit, or a beginning of it. -/
private theorem parse_prefix (src : Bits) (v : Bool) (hsmall : src.length < 8 * 4294967295)
    (x : DescriptorObu) (xs : List DescriptorObu) (s : IaSequenceHeader) (hfirst : x.content = .sequenceHeader s)
    (bss : List Bits) (hw : WrittenBits (x :: xs) bss) (hx : ∀ y ∈ x :: xs, y.Proper) (hone : OneSequence (x :: xs))
    {g : LebGen} {h : ObuHeader} {payload : Wr Unit} {footer : List UInt8} {tb : Bits}
    (ht : (wObu h payload footer).eval g = (.ok (), tb)) (htu : isTemporalUnitObuType h.obuType = true) (more : Bits)
    (hs : src <+: bss.flatten ++ (tb ++ more)) :
    ((parseDescriptors false).runA ⟨src, 0, v⟩ = (.ok none, ⟨src, 0, true⟩) ∧ src.length < (bss.flatten ++ tb).length) ∨
    (parseDescriptors false).runA ⟨src, 0, v⟩ = (.ok (some ((x :: xs).foldl collect .empty)), ⟨src, bss.flatten.length, true⟩) := by
  rcases Nat.lt_or_ge src.length bss.flatten.length with hc | hc
  · refine .inl ⟨?_, by rw [List.length_append]; omega⟩
    rw [parse_loop]
    have hfit : Fits .empty (x :: xs) := hone
    exact items_cut 0 src (Nat.zero_le _) hsmall (x :: xs) bss hw hx _ .empty (.inr ⟨x, xs, s, rfl, hfirst⟩) hfit 0 (Nat.zero_le _)
      (by rw [List.drop_zero]; exact List.prefix_of_prefix_length_le hs (List.prefix_append _ _) (by omega)) (by omega) (by omega)
  · have hb : bss.flatten <+: src := List.prefix_of_prefix_length_le (List.prefix_append _ _) hs hc
    obtain ⟨hsome, fuel, hfuel, he⟩ := parse_items false src v hsmall x xs s hfirst bss hw hx hone hb
    obtain ⟨fuel, rfl⟩ : ∃ k, fuel = k + 1 := ⟨fuel - 1, by omega⟩
    rw [he, continueAt_loop hsome (.inl rfl)]
    have hr := loop_round false 0 fuel ((x :: xs).foldl collect .empty) src bss.flatten.length hc (Nat.zero_le _) hsmall
    obtain ⟨t, rfl⟩ := hb
    rw [List.prefix_append_right_inj] at hs
    have hdrop : (bss.flatten ++ t).drop bss.flatten.length = t := by simp
    have hpk : (ObuHeader.fillMetadata.runA ⟨bss.flatten ++ t, bss.flatten.length, true⟩).1 =
          .ok (h.obuType, ((tb.length / 8 : Nat) : Int)) ∨
        ((ObuHeader.fillMetadata.runA ⟨bss.flatten ++ t, bss.flatten.length, true⟩).1 = .error .resourceExhausted ∧
          t.length < tb.length) := by
      rcases Nat.lt_or_ge t.length tb.length with hl | hl
      · rcases wObu_peek_prefix ht ⟨bss.flatten ++ t, bss.flatten.length, true⟩ hc (by
          simp only [RS.rest, hdrop]
          exact List.prefix_of_prefix_length_le hs (List.prefix_append _ _) (by omega)) with h | h
        · exact .inl h
        · exact .inr ⟨h, hl⟩
      · exact .inl (wObu_peek ht ⟨bss.flatten ++ t, bss.flatten.length, true⟩ hc (by
          simp only [RS.rest, hdrop]
          exact List.prefix_of_prefix_length_le (List.prefix_append _ _) hs hl))
    rcases hpk with hpk | ⟨hpk, hl⟩
    · right
      have : round ((x :: xs).foldl collect .empty) (bss.flatten ++ t) bss.flatten.length = .temporalUnit := by
        unfold round
        rw [hpk]
        simp [htu]
      rw [this] at hr
      simp only [afterRound, Bool.false_eq_true, ↓reduceIte] at hr
      rw [hr, if_neg (by rw [Option.isNone_iff_eq_none, ← Option.not_isSome_iff_eq_none, hsome]; simp)]
    · left
      have : round ((x :: xs).foldl collect .empty) (bss.flatten ++ t) bss.flatten.length = .wait := by
        unfold round
        rw [hpk]
        simp
      rw [this] at hr
      exact ⟨hr, by simp only [List.length_append]; omega⟩

private theorem new_sequence_round {g : LebGen} {h : ObuHeader} {payload : Wr Unit} {footer : List UInt8} {tb : Bits} {d : Descriptors}
    {src : Bits} {p : Nat} (hb : (wObu h payload footer).eval g = (.ok (), tb)) (hp : p ≤ src.length) (hs : tb <+: src.drop p)
    (ht : h.obuType = 31) (hnew : startsNewSequence d h = true) : round d src p = .stop := by
  have hpk := wObu_peek hb ⟨src, p, true⟩ hp hs
  obtain ⟨c1, pb, hpay, hal, hle, hbs, hrd⟩ := wObu_parts hb
  obtain ⟨v, e1, m1⟩ := hrd ⟨src, p, true⟩ hp (by rw [hbs] at hs; exact (List.prefix_append _ _).trans hs)
  have hlen : tb.length ≤ src.length - p := by simpa using hs.length_le
  have hn : h.normalized.obuType = 31 ∧ startsNewSequence d h.normalized = true := by
    unfold ObuHeader.normalized
    split
    · exact ⟨ht, hnew⟩
    · refine ⟨ht, ?_⟩
      unfold startsNewSequence at hnew ⊢
      exact hnew
  unfold round
  rw [hpk]
  simp only
  rw [if_neg (by rw [ht]; decide), if_neg (by omega), e1]
  simp only
  rw [if_pos (show h.normalized.obuType = ObuType.sequenceHeader from hn.1), if_pos hn.2]

/-- **C21 (round trip).** Descriptor OBUs, the first of which is an IA sequence header, that are written one after the other
and followed by an OBU of a temporal unit are parsed into the collection of their contents, and the read position is at the
end of the descriptors.  OBUs of unknown types, and OBUs that do not fit the ones before them, are skipped. -/
theorem C21_written_descriptors_are_collected (x : DescriptorObu) (xs : List DescriptorObu) (s : IaSequenceHeader)
    (hfirst : x.content = .sequenceHeader s) (hx : ∀ y ∈ x :: xs, y.Proper) (hone : OneSequence (x :: xs)) (bytes : List UInt8)
    (hw : WrittenAs (x :: xs) bytes) (g : LebGen) (h : ObuHeader) (payload : Wr Unit) (footer unit rest : List UInt8)
    (ht : Writes g (wObu h payload footer) unit) (htu : 3 ≤ h.obuType ∧ h.obuType ≤ 23)
    (hl : (bytes ++ unit ++ rest).length < 4294967295) (cap : Nat) (hc : 0 < cap) (pv : Bool) :
    ((parseDescriptors false).run (RBuf.create cap (bytes ++ unit ++ rest) pv)).1 =
      .ok (some ((x :: xs).foldl collect .empty)) ∧
    ((parseDescriptors false).run (RBuf.create cap (bytes ++ unit ++ rest) pv)).2.tell = 8 * bytes.length := by
  obtain ⟨bss, hw, hbits⟩ := written_bits hw
  obtain ⟨h1, -, -, -, h5⟩ := run_create false (bytes ++ unit ++ rest) cap pv hc
  rw [h1, h5]
  have htu' : isTemporalUnitObuType h.obuType = true := by
    have key : ∀ n < 24, 3 ≤ n → isTemporalUnitObuType (UInt8.ofNat n) = true := by decide
    have a := UInt8.le_iff_toNat_le.mp htu.1
    have b := UInt8.le_iff_toNat_le.mp htu.2
    simp only [UInt8.reduceToNat] at a b
    have := key h.obuType.toNat (by omega) a
    rwa [UInt8.ofNat_toNat] at this
  have hpre := parse_prefix (bytesBits (bytes ++ unit ++ rest)) pv (by rw [bytesBits_length]; omega) x xs s hfirst bss hw hx hone
    ht.eval htu' (bytesBits rest) (by rw [bytesBits_append, bytesBits_append, hbits, List.append_assoc])
  rcases hpre with ⟨-, hlt⟩ | hpre
  · rw [bytesBits_append, bytesBits_append, hbits] at hlt
    simp only [List.length_append] at hlt
    omega
  · rw [hpre]
    refine ⟨rfl, ?_⟩
    simp only
    rw [← hbits, bytesBits_length]
    omega

/-- **C21 (beginnings of a stream).** Of any beginning of such a stream either more is asked for, or its descriptors are
returned. -/
theorem C21_beginnings_of_a_stream (x : DescriptorObu) (xs : List DescriptorObu) (s : IaSequenceHeader)
    (hfirst : x.content = .sequenceHeader s) (hx : ∀ y ∈ x :: xs, y.Proper) (hone : OneSequence (x :: xs)) (bytes : List UInt8)
    (hw : WrittenAs (x :: xs) bytes) (g : LebGen) (h : ObuHeader) (payload : Wr Unit) (footer unit rest : List UInt8)
    (ht : Writes g (wObu h payload footer) unit) (htu : 3 ≤ h.obuType ∧ h.obuType ≤ 23)
    (hl : (bytes ++ unit ++ rest).length < 4294967295) (P : List UInt8) (hP : P <+: bytes ++ unit ++ rest)
    (cap : Nat) (hc : 0 < cap) (pv : Bool) :
    ((parseDescriptors false).run (RBuf.create cap P pv)).1 = .ok none ∨
    ((parseDescriptors false).run (RBuf.create cap P pv)).1 = .ok (some ((x :: xs).foldl collect .empty)) ∧
      ((parseDescriptors false).run (RBuf.create cap P pv)).2.tell = 8 * bytes.length := by
  obtain ⟨bss, hw, hbits⟩ := written_bits hw
  obtain ⟨h1, -, -, -, h5⟩ := run_create false P cap pv hc
  rw [h1, h5]
  have htu' : isTemporalUnitObuType h.obuType = true := by
    have key : ∀ n < 24, 3 ≤ n → isTemporalUnitObuType (UInt8.ofNat n) = true := by decide
    have a := UInt8.le_iff_toNat_le.mp htu.1
    have b := UInt8.le_iff_toNat_le.mp htu.2
    simp only [UInt8.reduceToNat] at a b
    have := key h.obuType.toNat (by omega) a
    rwa [UInt8.ofNat_toNat] at this
  have hlen := hP.length_le
  have hpre := parse_prefix (bytesBits P) pv (by rw [bytesBits_length]; omega) x xs s hfirst bss hw hx hone
    ht.eval htu' (bytesBits rest) (by
      rw [← hbits, ← bytesBits_append, ← bytesBits_append, ← List.append_assoc]
      obtain ⟨t, ht⟩ := hP
      rw [← ht, bytesBits_append]
      exact List.prefix_append _ _)
  rcases hpre with ⟨hpre, -⟩ | hpre
  · rw [hpre]; exact .inl rfl
  · rw [hpre]
    refine .inr ⟨rfl, ?_⟩
    simp only
    rw [← hbits, bytesBits_length]
    omega

/-- **C21 (descriptors only).** The same when the data is announced to be exactly the descriptors, and nothing follows. -/
theorem C21_exactly_the_descriptors (x : DescriptorObu) (xs : List DescriptorObu) (s : IaSequenceHeader)
    (hfirst : x.content = .sequenceHeader s) (hx : ∀ y ∈ x :: xs, y.Proper) (hone : OneSequence (x :: xs)) (bytes : List UInt8)
    (hw : WrittenAs (x :: xs) bytes) (hl : bytes.length < 4294967295) (cap : Nat) (hc : 0 < cap) (pv : Bool) :
    ((parseDescriptors true).run (RBuf.create cap bytes pv)).1 = .ok (some ((x :: xs).foldl collect .empty)) ∧
    ((parseDescriptors true).run (RBuf.create cap bytes pv)).2.tell = 8 * bytes.length := by
  obtain ⟨bss, hw, hbits⟩ := written_bits hw
  obtain ⟨h1, -, -, -, h5⟩ := run_create true bytes cap pv hc
  rw [h1, h5]
  obtain ⟨hsome, fuel, -, he⟩ := parse_items true (bytesBits bytes) pv (by rw [bytesBits_length]; omega) x xs s hfirst bss hw hx
    hone (by rw [hbits])
  rw [he]
  unfold continueAt
  rw [if_neg (by rw [Option.isNone_iff_eq_none, ← Option.not_isSome_iff_eq_none, hsome]; simp), if_pos (by simp [hbits])]
  refine ⟨rfl, ?_⟩
  simp only
  rw [← hbits, bytesBits_length]
  omega

/-- **C21 (next sequence).** Parsing also ends before the IA sequence header of another sequence: one that is not a redundant
copy, behind descriptors whose last sequence header is not a redundant copy. -/
theorem C21_next_sequence_is_left_alone (exact : Bool) (x : DescriptorObu) (xs : List DescriptorObu) (s : IaSequenceHeader)
    (hfirst : x.content = .sequenceHeader s) (hx : ∀ y ∈ x :: xs, y.Proper) (hone : OneSequence (x :: xs)) (bytes : List UInt8)
    (hw : WrittenAs (x :: xs) bytes) (g : LebGen) (h : ObuHeader) (payload : Wr Unit) (footer next rest : List UInt8)
    (ht : Writes g (wObu h payload footer) next) (hty : h.obuType = 31) (hr : h.redundantCopy = false)
    (hlast : ∃ st o, ((x :: xs).foldl collect .empty).iaHeader = some (st, o) ∧ st.redundantCopy = false)
    (hl : (bytes ++ next ++ rest).length < 4294967295) (cap : Nat) (hc : 0 < cap) (pv : Bool) :
    ((parseDescriptors exact).run (RBuf.create cap (bytes ++ next ++ rest) pv)).1 =
      .ok (some ((x :: xs).foldl collect .empty)) ∧
    ((parseDescriptors exact).run (RBuf.create cap (bytes ++ next ++ rest) pv)).2.tell = 8 * bytes.length := by
  obtain ⟨bss, hw, hbits⟩ := written_bits hw
  obtain ⟨h1, -, -, -, h5⟩ := run_create exact (bytes ++ next ++ rest) cap pv hc
  rw [h1, h5]
  have hb : bytesBits (bytes ++ next ++ rest) = bss.flatten ++ (bytesBits next ++ bytesBits rest) := by
    rw [bytesBits_append, bytesBits_append, hbits, List.append_assoc]
  have hsmall : (bytesBits (bytes ++ next ++ rest)).length < 8 * 4294967295 := by rw [bytesBits_length]; omega
  have h16 := wObu_pos ht.eval
  rw [hb] at hsmall ⊢
  obtain ⟨hsome, fuel, hf, he⟩ := parse_items exact (bss.flatten ++ (bytesBits next ++ bytesBits rest)) pv hsmall x xs s hfirst bss
    hw hx hone (List.prefix_append _ _)
  obtain ⟨fuel, rfl⟩ : ∃ k, fuel = k + 1 := ⟨fuel - 1, by omega⟩
  rw [he, continueAt_loop hsome (.inr (by simp only [List.length_append]; omega))]
  have hq := loop_round exact 0 fuel ((x :: xs).foldl collect .empty) (bss.flatten ++ (bytesBits next ++ bytesBits rest))
    bss.flatten.length (by simp) (Nat.zero_le _) hsmall
  rw [new_sequence_round ht.eval (by simp) (by simp) hty (by
    obtain ⟨st, o, h1, h2⟩ := hlast
    unfold startsNewSequence
    rw [h1]
    simp [hr, h2])] at hq
  simp only [afterRound] at hq
  rw [hq, if_neg (by rw [Option.isNone_iff_eq_none, ← Option.not_isSome_iff_eq_none, hsome]; simp)]
  refine ⟨rfl, ?_⟩
  simp only
  rw [← hbits, bytesBits_length]
  omega

/-! ### Data that arrives in pieces -/

/-- Specification: pieces of data are pushed into the buffer one after the other, and the descriptors are parsed after every
piece, until there is a result. -/
def feed : RBuf → List (List UInt8) → Except Err (Option Descriptors) × RBuf
  | r, [] => (.ok none, r)
  | r, c :: cs => match r.pushBytes c with
    | (.error e, r') => (.error e, r')
    | (.ok (), r') => match (parseDescriptors false).run r' with
      | (.ok none, r'') => feed r'' cs
      | res => res

private theorem feed_spec (pv : Bool) (chunks : List (List UInt8)) (data : List UInt8) (r : RBuf) (h : r.WF) (hc : 0 < r.buf.length)
    (v : Bool) (ha : r.abs = ⟨bytesBits data, 0, v⟩) (hsrc : r.src = data) (hl : (data ++ chunks.flatten).length ≤ 4194304)
    (hne : chunks ≠ []) :
    ∃ k, 1 ≤ k ∧ k ≤ chunks.length ∧
      (feed r chunks).1 = ((parseDescriptors false).runA ⟨bytesBits (data ++ (chunks.take k).flatten), 0, pv⟩).1 ∧
      (feed r chunks).2.tell = ((parseDescriptors false).runA ⟨bytesBits (data ++ (chunks.take k).flatten), 0, pv⟩).2.pos ∧
      (k = chunks.length ∨ (feed r chunks).1 ≠ .ok none) ∧
      (∀ j, 1 ≤ j → j < k → ((parseDescriptors false).runA ⟨bytesBits (data ++ (chunks.take j).flatten), 0, pv⟩).1 = .ok none) := by
  induction chunks generalizing data r v with
  | nil => exact absurd rfl hne
  | cons c cs ih =>
    simp only [List.flatten_cons, List.length_append] at hl
    obtain ⟨r1, hp, hwf1, hsrc1, hcap1, habs1⟩ := push_refines c r h hc (by
      rw [hsrc]; simp only [kEntireObuSizeMaxTwoMegabytes]; omega)
    rw [ha, hsrc] at *
    simp only [← bytesBits_append] at habs1
    obtain ⟨q1, q2, q3, q4⟩ := (parseDescriptors false).run_refines r1 hwf1
    have qc := (parseDescriptors false).run_cap r1
    have hpv : (parseDescriptors false).runA r1.abs = (parseDescriptors false).runA ⟨bytesBits (data ++ c), 0, pv⟩ := by
      rw [habs1, parse_loop, parse_loop]
    rw [hpv] at q1 q3
    have hstop : (feed r (c :: cs)).1 = ((parseDescriptors false).run r1).1 → (feed r (c :: cs)).2 = ((parseDescriptors false).run r1).2 →
        (1 = (c :: cs).length ∨ (feed r (c :: cs)).1 ≠ .ok none) →
        ∃ k, 1 ≤ k ∧ k ≤ (c :: cs).length ∧
        (feed r (c :: cs)).1 = ((parseDescriptors false).runA ⟨bytesBits (data ++ ((c :: cs).take k).flatten), 0, pv⟩).1 ∧
        (feed r (c :: cs)).2.tell = ((parseDescriptors false).runA ⟨bytesBits (data ++ ((c :: cs).take k).flatten), 0, pv⟩).2.pos ∧
        (k = (c :: cs).length ∨ (feed r (c :: cs)).1 ≠ .ok none) ∧
        (∀ j, 1 ≤ j → j < k → ((parseDescriptors false).runA ⟨bytesBits (data ++ ((c :: cs).take j).flatten), 0, pv⟩).1 = .ok none) := by
      intro e1 e2 e3
      refine ⟨1, Nat.le_refl _, by simp, ?_, ?_, e3, fun j h1 h2 => by omega⟩
      · rw [e1, q1]; simp
      · rw [e2]
        have := q2.tell_nonneg
        have e : data ++ ((c :: cs).take 1).flatten = data ++ c := by simp
        rw [e, ← q3]
        simp only [RBuf.abs]
        omega
    match hx : (parseDescriptors false).run r1 with
    | (.error e, r2) =>
      have hf : feed r (c :: cs) = (.error e, r2) := by simp only [feed, hp, hx]
      exact hstop (by rw [hf, hx]) (by rw [hf, hx]) (.inr (by rw [hf]; simp))
    | (.ok (some d), r2) =>
      have hf : feed r (c :: cs) = (.ok (some d), r2) := by simp only [feed, hp, hx]
      exact hstop (by rw [hf, hx]) (by rw [hf, hx]) (.inr (by rw [hf]; simp))
    | (.ok none, r2) =>
      rw [hx] at q1 q2 q3 q4 qc
      have he := parse_ends false (bytesBits (data ++ c)) 0 pv (by simp) (by rw [bytesBits_length, List.length_append]; omega)
      have hw := he.wait q1.symm
      rw [hw] at q3
      have hf : feed r (c :: cs) = feed r2 cs := by simp only [feed, hp, hx]
      cases hcs : cs with
      | nil =>
        rw [hcs] at hf hstop
        exact hstop (by rw [hf, hx]; rfl) (by rw [hf, hx]; rfl) (.inl rfl)
      | cons c2 cs2 =>
        obtain ⟨k, k1, k2, k3, k4, k5, k6⟩ := ih (data ++ c) r2 q2 (by rw [qc, hcap1]; exact hc) true q3 (by rw [q4, hsrc1])
          (by simp only [List.length_append]; omega) (by rw [hcs]; simp)
        rw [hcs] at hf k2 k3 k4 k5 k6
        rw [hf]
        simp only [List.append_assoc] at k3 k4 k6
        have hfl : ∀ j, (c :: c2 :: cs2).take (j + 1) = c :: (c2 :: cs2).take j := fun j => rfl
        refine ⟨k + 1, by omega, by simp only [List.length_cons] at k2 ⊢; omega, ?_, ?_, ?_, ?_⟩
        · rw [hfl, List.flatten_cons]; exact k3
        · rw [hfl, List.flatten_cons]; exact k4
        · exact k5.imp (fun h => by simp only [List.length_cons] at h ⊢; omega) _root_.id
        · intro j j1 j2
          obtain ⟨j, rfl⟩ : ∃ i, j = i + 1 := ⟨j - 1, by omega⟩
          rw [hfl, List.flatten_cons]
          rcases Nat.eq_zero_or_pos j with rfl | hj
          · simpa using q1.symm
          · exact k6 j hj (by omega)

/-- **C21 (pieces, any data).** Feeding pieces gives the result of parsing, at once, the first pieces that are enough: all
shorter sequences of pieces ask for more data. -/
theorem C21_pieces_as_one (chunks : List (List UInt8)) (hne : chunks ≠ []) (hl : chunks.flatten.length ≤ 4194304) (cap : Nat)
    (hc : 0 < cap) (pv : Bool) :
    ∃ k, 1 ≤ k ∧ k ≤ chunks.length ∧
      (feed (RBuf.create cap [] pv) chunks).1 =
        ((parseDescriptors false).run (RBuf.create cap (chunks.take k).flatten pv)).1 ∧
      (feed (RBuf.create cap [] pv) chunks).2.tell =
        ((parseDescriptors false).run (RBuf.create cap (chunks.take k).flatten pv)).2.tell ∧
      (k = chunks.length ∨ (feed (RBuf.create cap [] pv) chunks).1 ≠ .ok none) ∧
      (∀ j, 1 ≤ j → j < k → ((parseDescriptors false).run (RBuf.create cap (chunks.take j).flatten pv)).1 = .ok none) := by
  obtain ⟨k, k1, k2, k3, k4, k5, k6⟩ := feed_spec pv chunks [] (RBuf.create cap [] pv) (RBuf.wf_create cap [] pv (.inl hc))
    (by simpa [RBuf.create] using hc) pv (by rw [RBuf.abs_create]) rfl (by simpa using hl) hne
  refine ⟨k, k1, k2, ?_, ?_, k5, fun j j1 j2 => ?_⟩
  · rw [(run_create false (chunks.take k).flatten cap pv hc).1]; exact k3
  · rw [(run_create false (chunks.take k).flatten cap pv hc).2.2.2.2]; exact k4
  · rw [(run_create false (chunks.take j).flatten cap pv hc).1]; exact k6 j j1 j2

/-- **C21 (pieces of a stream).** However a stream is cut into pieces: once all of it has been fed, its descriptors have been
returned, and the read position is behind them. -/
theorem C21_stream_in_pieces (x : DescriptorObu) (xs : List DescriptorObu) (s : IaSequenceHeader)
    (hfirst : x.content = .sequenceHeader s) (hx : ∀ y ∈ x :: xs, y.Proper) (hone : OneSequence (x :: xs)) (bytes : List UInt8)
    (hw : WrittenAs (x :: xs) bytes) (g : LebGen) (h : ObuHeader) (payload : Wr Unit) (footer unit rest : List UInt8)
    (ht : Writes g (wObu h payload footer) unit) (htu : 3 ≤ h.obuType ∧ h.obuType ≤ 23)
    (chunks : List (List UInt8)) (hch : chunks.flatten = bytes ++ unit ++ rest) (hl : chunks.flatten.length ≤ 4194304)
    (cap : Nat) (hc : 0 < cap) (pv : Bool) :
    (feed (RBuf.create cap [] pv) chunks).1 = .ok (some ((x :: xs).foldl collect .empty)) ∧
    (feed (RBuf.create cap [] pv) chunks).2.tell = 8 * bytes.length := by
  have h16 := wObu_pos ht.eval
  rw [bytesBits_length] at h16
  have hne : chunks ≠ [] := by
    rintro rfl
    have := congrArg List.length hch
    simp only [List.flatten_nil, List.length_nil, List.length_append] at this
    omega
  obtain ⟨k, k1, k2, k3, k4, k5, -⟩ := C21_pieces_as_one chunks hne hl cap hc pv
  obtain ⟨bss, hw, hbits⟩ := written_bits hw
  have htu' : isTemporalUnitObuType h.obuType = true := by
    have key : ∀ n < 24, 3 ≤ n → isTemporalUnitObuType (UInt8.ofNat n) = true := by decide
    have a := UInt8.le_iff_toNat_le.mp htu.1
    have b := UInt8.le_iff_toNat_le.mp htu.2
    simp only [UInt8.reduceToNat] at a b
    have := key h.obuType.toNat (by omega) a
    rwa [UInt8.ofNat_toNat] at this
  obtain ⟨r1, -, -, -, r5⟩ := run_create false (chunks.take k).flatten cap pv hc
  rw [r1] at k3
  rw [r5] at k4
  have hsplit : (chunks.take k).flatten ++ (chunks.drop k).flatten = bytes ++ unit ++ rest := by
    rw [← List.flatten_append, List.take_append_drop, hch]
  have hlen := congrArg List.length hsplit
  rw [hch] at hl
  simp only [List.length_append] at hlen hl
  have hpre := parse_prefix (bytesBits (chunks.take k).flatten) pv (by rw [bytesBits_length]; omega) x xs s hfirst bss hw hx hone
    ht.eval htu' (bytesBits rest) (by
      rw [← hbits, ← bytesBits_append, ← bytesBits_append, ← List.append_assoc, ← hsplit, bytesBits_append]
      exact List.prefix_append _ _)
  rcases hpre with ⟨hnone, hlt⟩ | hpre
  · exfalso
    rw [hnone] at k3
    rcases k5 with rfl | k5
    · rw [List.take_length, hch, ← hbits] at hlt
      simp only [List.length_append, bytesBits_length] at hlt
      omega
    · exact k5 k3
  · rw [hpre] at k3 k4
    refine ⟨k3, ?_⟩
    rw [k4]
    simp only
    rw [← hbits, bytesBits_length]
    omega

/-- A sequence header, an LPCM codec config, a stereo element and a strange mix presentation (see C16). -/
def strangeStream : List UInt8 :=
  [0xf8, 6, 0x69, 0x61, 0x6d, 0x66, 0, 0, 0x00, 14, 7, 0x69, 0x70, 0x63, 0x6d, 8, 0, 0, 1, 24, 0, 0, 0xbb, 0x80,
    0x08, 10, 0, 0, 7, 1, 5, 0, 0x20, 0x10, 1, 1] ++ strangeMix

/-- How many mix presentations parsing returns. -/
def mixesReturned (r : Except Err (Option Descriptors)) : Option Nat :=
  match r with
  | .ok (some d) => some d.mixes.length
  | _ => none

/-- **C21 (finding).** For data that was not written by this library the restriction to written OBUs matters: the mix
presentations that are returned may depend on how much data behind the descriptors has arrived.  The same stream gives one
mix presentation when one temporal delimiter has arrived, and none when two have. -/
theorem C21_strange_stream_depends_on_arrival :
    mixesReturned ((parseDescriptors false).run (RBuf.create 64 (strangeStream ++ [0x20, 0]) true)).1 = some 1 ∧
    mixesReturned ((parseDescriptors false).run (RBuf.create 64 (strangeStream ++ [0x20, 0] ++ [0x20, 0]) true)).1 = some 0 := by
  decide +kernel

/-! ### The hypotheses can be met -/

/-- Descriptors of a stream: a sequence header, an LPCM codec config, an OBU of a reserved type, a scalable audio element, a
second codec config with the same id, an element without a codec config, a mix presentation and a redundant header. -/
def exampleStream : List DescriptorObu :=
  [⟨⟨31, false, false, 0, 0, none⟩, .sequenceHeader ⟨0, 0⟩, []⟩,
   ⟨⟨0, false, false, 0, 0, none⟩, .codecConfig ⟨7, kCodecIdLpcm, 8, 0, .lpcm ⟨1, 24, 48000⟩⟩, []⟩,
   ⟨⟨25, false, false, 0, 0, none⟩, .other (wBytes [1, 2, 3]), [4]⟩,
   ⟨⟨1, false, false, 0, 0, none⟩, .audioElement exampleScalable, [5]⟩,
   ⟨⟨0, false, false, 0, 0, none⟩, .codecConfig ⟨7, kCodecIdLpcm, 16, 0, .lpcm ⟨1, 16, 48000⟩⟩, []⟩,
   ⟨exampleMixHeader, .mixPresentation exampleMix, [5, 6]⟩,
   ⟨⟨31, true, false, 0, 0, none⟩, .sequenceHeader ⟨0, 0⟩, []⟩]

private theorem example_proper : ∀ y ∈ exampleStream, y.Proper := by
  intro y hy
  simp only [exampleStream, List.mem_cons, List.not_mem_nil, or_false] at hy
  rcases hy with rfl | rfl | rfl | rfl | rfl | rfl | rfl
  · exact ⟨rfl, rfl, rfl⟩
  · exact ⟨rfl, rfl, rfl, by simp [CodecConfig.Typed], by simp⟩
  · exact ⟨rfl, rfl, by decide, by decide⟩
  · exact ⟨rfl, rfl, rfl, exampleScalable_built⟩
  · exact ⟨rfl, rfl, rfl, by simp [CodecConfig.Typed], by simp⟩
  · exact ⟨rfl, rfl, rfl, exampleMix_built, by decide, by decide, by simp [exampleMix]⟩
  · exact ⟨rfl, rfl, rfl⟩

private theorem writtenAs_of (xs : List DescriptorObu)
    (h : (xs.all fun x => decide ((x.write.eval .minimum).1 = .ok ()) && decide ((x.write.eval .minimum).2.length % 8 = 0)) = true) :
    ∃ bytes, WrittenAs xs bytes := by
  have : ∃ parts : List (List UInt8), List.Forall₂ (fun x part => ∃ g, Writes g x.write part) xs parts := by
    induction xs with
    | nil => exact ⟨[], .nil⟩
    | cons x xs ih =>
      simp only [List.all_cons, Bool.and_eq_true, decide_eq_true_eq] at h
      obtain ⟨parts, hp⟩ := ih h.2
      obtain ⟨b, hb, -⟩ := Writes.exists h.1.1 h.1.2
      exact ⟨b :: parts, .cons ⟨_, hb⟩ hp⟩
  obtain ⟨parts, hp⟩ := this
  exact ⟨parts.flatten, parts, rfl, hp⟩

/-- The example meets the hypotheses. -/
example : (∃ x xs s, exampleStream = x :: xs ∧ x.content = .sequenceHeader s) ∧ (∀ y ∈ exampleStream, y.Proper) ∧
    OneSequence exampleStream ∧ (∃ bytes, WrittenAs exampleStream bytes) ∧
    ∃ unit, Writes .minimum (wObu ⟨4, false, false, 0, 0, none⟩ wTemporalDelimiter []) unit :=
  ⟨⟨_, _, _, rfl, rfl⟩, example_proper, by unfold OneSequence; decide, writtenAs_of _ (by decide +kernel),
    ⟨[0x20, 0], ⟨.minimum, [0x20, 0], 16⟩, by decide +kernel, rfl, rfl⟩⟩

/-- What is collected from the example: one codec config (the first), the element and the mix presentation. -/
example : ((exampleStream.foldl collect .empty).codecs.map fun c => (c.1, c.2.config.numSamplesPerFrame)) = [(7, 8)] ∧
    ((exampleStream.foldl collect .empty).elements.map Prod.fst) = [300] ∧
    ((exampleStream.foldl collect .empty).mixes.map fun m => m.id) = [42] ∧
    ((exampleStream.foldl collect .empty).iaHeader.map fun h => h.1.redundantCopy) = some true := by decide +kernel

/-- Another sequence behind the first six OBUs of the example is left alone. -/
example : ((exampleStream.take 6).foldl collect .empty).iaHeader.map (fun h => h.1.redundantCopy) = some false := by decide +kernel

/-- Data that asks for more, data that is refused. -/
example : ((parseDescriptors false).run (RBuf.create 4 [0xf8, 6, 0x69] true)).1 = .ok none ∧
    ((parseDescriptors false).run (RBuf.create 4 [0x20, 0] true)).1 = .error .invalidArgument := by decide +kernel

end Iamf.Props
