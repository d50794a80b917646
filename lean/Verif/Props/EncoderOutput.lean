import Verif.Props.EncoderRun
/-
  Every run of an encoder is a history as specified: `OutputTemporalUnit`.
-/
namespace Iamf.Props
open Iamf

variable {L : EncoderLib} {P : EncoderParts} {σ : Type} {K : Sink σ} {linear : Int16 → Rat}

/-! ### Calls of the frame generator -/

theorem calls_keep (cs : List GeneratorCall) : ∀ {g : FrameGenerator L.State} {y : List (List (GenFrame × List UInt8)) × FrameGenerator L.State},
    FrameGenerator.calls L linear cs g = .ok y →
    y.2.order = g.order ∧ (g.phase ≠ .taking → y.2.phase ≠ .taking) ∧ y.2.delay = g.delay ∧ (∀ i, g.encoders i = none → y.2.encoders i = none) ∧
    ((∀ i ∈ g.order, g.encoders i = none) → ∀ fs ∈ y.1, fs = []) ∧ ((∀ c ∈ cs, c ≠ .finalize) → g.phase = .taking → y.2.phase = .taking) := by
  induction cs with
  | nil =>
    intro g y h
    simp only [FrameGenerator.calls, Except.ok.injEq] at h
    subst h
    exact ⟨rfl, fun h => h, rfl, fun _ h => h, fun _ fs hfs => (by cases hfs), fun _ h => h⟩
  | cons c cs ih =>
    intro g y h
    simp only [FrameGenerator.calls, bind, except_ok, Except.ok.injEq] at h
    obtain ⟨⟨fs, g1⟩, h1, ⟨fss, g2⟩, h2, rfl⟩ := h
    obtain ⟨a1, a2, a3, a4, a5, a6⟩ := call_keeps h1
    obtain ⟨b1, b2, b3, b4, b5, b6⟩ := ih h2
    refine ⟨b1.trans a1, fun hp => b2 (a2 hp), b3.trans a3, fun i hi => b4 i (a4 i hi), fun hg x hx => ?_, fun hc hp => ?_⟩
    · rcases List.mem_cons.mp hx with e | hx'
      · rw [e]; exact a5 hg
      · exact b5 (fun i hi => a4 i (hg i (by rw [← a1]; exact hi))) x hx'
    · exact b6 (fun c' hc' => hc c' (List.mem_cons_of_mem _ hc')) (a6 (hc c List.mem_cons_self) hp)

/-! ### Making frames -/

theorem madeOf_inv {s : EncoderSetup L P σ} {definitions : List (UInt32 × ParamEntry)} {evs : List EncoderEvent} {heard : List (UnitParts × P.Frames)}
    {g : BlockGenerator} {t : TimingModule} {out : BlockKind → List BlockWithData} {k : BlockKind}
    (h : BlocksInv s.override definitions (fun _ => True) g t ((metadataGiven definitions evs).map Prod.fst) out) (hw : waitingIn g k = [])
    (hk : k ≠ .reconGain) : MadeOf s definitions heard k (givenFor definitions k evs) (out k) := by
  obtain ⟨done, h1, h2⟩ := h.made k
  rw [hw, List.append_nil, ← givenFor_metadata] at h1
  rw [← h1, List.forall₂_map_left_iff] at h2
  unfold MadeOf
  exact h2.imp fun x o ⟨source, _, hs⟩ => ⟨source, fun h => absurd h hk, hs⟩

/-- What is known when the frames are made. -/
structure Between (linear : Int16 → Rat) (s : EncoderSetup L P σ) (definitions : List (UInt32 × ParamEntry)) (generator : FrameGenerator L.State)
    (evs : List EncoderEvent) (heard : List (UnitParts × P.Frames)) (ev : EncoderEvent) (e e1 : IamfEncoder L P σ) (fs : List (GenFrame × List UInt8)) : Prop where
  handed : MadeOf s definitions heard .demixing (givenFor definitions .demixing evs) ((unitsIn evs).flatMap (·.demixing) ++ ev.handed)
  mixed : MadeOf s definitions heard .mixGain (givenFor definitions .mixGain evs) ((unitsIn evs).flatMap (·.mixGain) ++ e1.mixGain)
  waiting : e1.demixing = ev.handed
  blocks : BlocksInv s.override definitions (fun _ => True) e1.blocks e1.generator.timing ((metadataGiven definitions evs).map Prod.fst) (outOf evs (waitingBlocks e1))
  recon : e1.blocks.reconGain = e.blocks.reconGain
  frames : ∃ fss g, FrameGenerator.calls L linear (generatorCallsIn (evs ++ [ev])) generator = .ok (fss, g) ∧
    e1.generator = g.retimed e1.generator.timing.blocks ∧
    (fss.filter fun fs => !fs.isEmpty) = (((unitsIn evs).map (·.frames)) ++ [fs]).filter fun fs => !fs.isEmpty
  ended : ended e = true → ended e1 = true ∧ fs = []
  phase : e.finalizeCalled = false → e1.generator.phase = .taking ∨ (e1.generator.order = [] ∧ fs = [])

theorem between {s : EncoderSetup L P σ} {definitions : List (UInt32 × ParamEntry)} {generator : FrameGenerator L.State} {evs : List EncoderEvent}
    {heard : List (UnitParts × P.Frames)} {e e1 : IamfEncoder L P σ} (hk : Keyed definitions)
    (hp : s.override = false → ∀ id d, definitions.lookup id = some d → OnePerPlace d)
    (h : Inner K linear s definitions generator evs heard e) {rank : UInt32 × Label → Nat}
    {fs : List (GenFrame × List UInt8)} {d m : BlockGenerator × TimingModule × List BlockWithData} {g : FrameGenerator L.State}
    (hm : MadeFrames linear e e1 rank fs d m g) (buffer : List UInt8) (answer : IamfEncoderAnswer) (unit : Option UnitParts) :
    Between linear s definitions generator evs heard
      ⟨.output rank buffer, answer, unit, d.2.2, sortBy (fun a b => decide (rank a.1 ≤ rank b.1)) e.cached⟩ e e1 fs := by
  -- parameter blocks
  have hd := hm.demixed
  unfold BlockGenerator.generateDemixing at hd
  simp only [bind, except_ok, Except.ok.injEq] at hd
  obtain ⟨r1, d1, d2⟩ := hd
  obtain ⟨new1, a1, a2, -, a4⟩ := inv_generate hk hp h.proper h.blocks .demixing noSource trivial e.demixing d1
  have hx := hm.mixed
  unfold BlockGenerator.generateMixGain at hx
  simp only [bind, except_ok, Except.ok.injEq] at hx
  obtain ⟨r2, m1, m2⟩ := hx
  have hd1 : d.1 = emptied e.blocks .demixing := by rw [← d2]; rfl
  have hd2 : d.2.1 = r1.2 := by rw [← d2]
  have hd3 : d.2.2 = r1.1 := by rw [← d2]
  rw [hd1, hd2] at m1
  obtain ⟨new2, b1, b2, -, b4⟩ := inv_generate hk hp h.proper a4 .mixGain noSource trivial e.mixGain m1
  have hm1 : m.1 = emptied d.1 .mixGain := by rw [← m2]; rfl
  have hm2 : m.2.1 = r2.2 := by rw [← m2]
  have hm3 : m.2.2 = r2.1 := by rw [← m2]
  -- the frame generator
  obtain ⟨fss, g0, f1, f2, f3⟩ := h.frames
  obtain ⟨fss1, o1, o2⟩ := output_calls hm.fed hm.output
  have hret : withTiming e.generator m.2.1 = g0.retimed m.2.1.blocks := by
    rw [f2]
    refine withTiming_retimed g0 _ m.2.1 ?_
    rw [hm2, b2, a2]
    have := congrArg (fun (g : FrameGenerator L.State) => g.timing.frames) f2
    exact this
  obtain ⟨k1, k2, k3, k4, k5, k6⟩ := calls_keep _ o1
  replace k1 : e1.generator.order = e.generator.order := k1
  have hout : (∀ i ∈ e.generator.order, e.generator.encoders i = none) → fs = [] := by
    intro hg
    have := k5 hg
    have hnil : fss1.filter (fun x => !x.isEmpty) = [] := by
      rw [List.filter_eq_nil_iff]
      intro x hx
      simp [this x hx]
    rw [hnil] at o2
    cases fs with
    | nil => rfl
    | cons a b => simp at o2
  rw [hret] at o1
  obtain ⟨g1, c1, c2⟩ := calls_of_retimed o1
  obtain ⟨r1', r2', r3', r4', r5', r6', r7', r8', -⟩ := hm.rest
  have hblocks : e1.generator.timing.blocks = m.2.1.blocks := by rw [c2]; rfl
  have hw : outOf evs (waitingBlocks e1) = fun k => if k = .mixGain then (fun k' => if k' = .demixing then outOf evs (waitingBlocks e) .demixing ++ new1
      else outOf evs (waitingBlocks e) k') .mixGain ++ new2 else (fun k' => if k' = .demixing then outOf evs (waitingBlocks e) .demixing ++ new1
      else outOf evs (waitingBlocks e) k') k := by
    funext k
    cases k
    · simp only [outOf, waitingBlocks, hm.mixGain, hm3, b1, if_true, reduceCtorEq, if_false, List.append_assoc]
    · simp only [outOf, waitingBlocks, hm.demixing, hd3, a1, if_true, reduceCtorEq, if_false, List.append_assoc]
    · simp only [outOf, waitingBlocks, r3', reduceCtorEq, if_false]
  have hinv : BlocksInv s.override definitions (fun _ => True) e1.blocks e1.generator.timing ((metadataGiven definitions evs).map Prod.fst)
      (outOf evs (waitingBlocks e1)) := by
    rw [hm.blocks, hm1, hd1, hw]
    refine BlocksInv.retimed b4 ?_
    rw [hblocks, hm2]
  refine ⟨?_, ?_, hm.demixing, hinv, ?_, ?_, ?_, ?_⟩
  · have := madeOf_inv (heard := heard) hinv (k := .demixing) (by rw [hm.blocks, hm1, hd1]; rfl) (by decide)
    unfold outOf waitingBlocks at this
    rw [hm.demixing] at this
    exact this
  · exact madeOf_inv (heard := heard) hinv (k := .mixGain) (by rw [hm.blocks, hm1, hd1]; rfl) (by decide)
  · rw [hm.blocks, hm1, hd1]; rfl
  · refine ⟨fss ++ fss1, g1, ?_, by rw [hblocks]; exact c2, ?_⟩
    · rw [generatorCallsIn_snoc, calls_append, f1]
      simp only [Except.bind, EncoderEvent.generatorCalls]
      rw [← h.called, c1]
    · rw [List.filter_append, List.filter_append, f3, o2]
  · intro he
    unfold Props.ended IamfEncoder.generating FrameGenerator.takingSamples FrameGenerator.generatingFrames at he ⊢
    simp only [Bool.and_eq_true, Bool.not_eq_true', Bool.or_eq_false_iff, decide_eq_false_iff_not, List.any_eq_false, Option.not_isSome_iff_eq_none] at he ⊢
    obtain ⟨e1', ⟨e2', e3'⟩, e4'⟩ := he
    refine ⟨⟨by rw [r8']; exact e1', ⟨k2 e2', fun i hi => k4 i (e3' i (by rw [← k1]; exact hi))⟩, by rw [r2']; exact e4'⟩, hout e3'⟩
  · intro hc
    rcases h.phase hc with hp | ho
    · left
      refine k6 ?_ hp
      intro c hcm
      rw [hc] at hcm
      simp only [Bool.false_eq_true, if_false, List.append_nil, List.mem_append, List.mem_map, List.mem_singleton] at hcm
      rcases hcm with (⟨x, -, rfl⟩ | ⟨x, -, rfl⟩) | rfl <;> simp
    · right
      exact ⟨by rw [k1]; exact ho, hout (fun i hi => by rw [ho] at hi; cases hi)⟩

theorem rank_sorted (rank : UInt32 × Label → Nat) (l : List ((UInt32 × Label) × Samples)) :
    (sortBy (fun a b => decide (rank a.1 ≤ rank b.1)) l).Pairwise fun a b => rank a.1 ≤ rank b.1 := by
  have := sortBy_sorted (fun (a b : (UInt32 × Label) × Samples) => decide (rank a.1 ≤ rank b.1)) (fun a b h => by simp at h ⊢; omega)
    (fun a b c h1 h2 => by simp at h1 h2 ⊢; omega) l
  exact this.imp fun h => by simpa using h

/-! ### Without frames -/

theorem step_without {s : EncoderSetup L P σ} {definitions : List (UInt32 × ParamEntry)} {generator : FrameGenerator L.State} {evs : List EncoderEvent}
    {heard : List (UnitParts × P.Frames)} {e e1 e' : IamfEncoder L P σ} (h : Inner K linear s definitions generator evs heard e)
    {rank : UInt32 × Label → Nat} {d m : BlockGenerator × TimingModule × List BlockWithData} {g : FrameGenerator L.State}
    (hm : MadeFrames linear e e1 rank [] d m g) {buffer b : List UInt8}
    (hb : ∀ answer unit, Between linear s definitions generator evs heard
      ⟨.output rank buffer, answer, unit, d.2.2, sortBy (fun a b => decide (rank a.1 ≤ rank b.1)) e.cached⟩ e e1 [])
    (hn : NoFrames K e1 e' buffer b) :
    ∃ ev, ev.call = .output rank buffer ∧ ev.answer = .unit b ∧ Inner K linear s definitions generator (evs ++ [ev]) heard e' := by
  obtain ⟨i1, i2, i3, i4, i5, i6, i7, i8, i9⟩ := hn.inside
  obtain ⟨r1, r2, r3, r4, r5, r6, r7, r8, r9, r10⟩ := hm.rest
  -- the arbitrary OBUs
  have hone : ∃ unit v, (e'.finalizeCalled = e.finalizeCalled) ∧ TimedOk s (ticksIn evs ++ (unit.bind UnitParts.tick).toList) e'.timed ∧
      (∀ p, unit = some p → FramelessUnit s evs p ∧ e.finalizeCalled = true ∧ ∃ x, v = some x ∧ p.Gives s x) ∧
      (unit = none → v = none ∧ b = buffer ∧ (e.finalizeCalled = true → ∀ t ∈ s.ticks, t ∈ ticksIn evs)) ∧
      AllAccept K (v.toList.map .pushUnit ++ closing e1 e') e1 e' ∧
      (∀ x, v = some x → ∃ q, Accepts streamingSink [.pushUnit x] e1.streaming q ∧ b = q.sink.previousUnit) := by
    have ht := h.timed
    rw [← r2] at ht
    cases hc : e.finalizeCalled with
    | false =>
      have hc1 : e1.finalizeCalled = false := r8.trans hc
      obtain ⟨n1, n2⟩ := hn.nothing (.inl hc1)
      refine ⟨none, none, i9.trans hc1, ?_, fun p hp => (by cases hp), fun _ => ⟨rfl, n1, fun h => (by cases h)⟩, n2, fun x hx => (by cases hx)⟩
      rw [hn.timed, hc1]
      simpa using ht
    | true =>
      have hc1 : e1.finalizeCalled = true := r8.trans hc
      have htm := hn.timed
      rw [hc1] at htm
      simp only [if_true] at htm
      rcases ht.first with ⟨t1, t2, t3⟩ | ⟨t, t1, t2, t3, t4, t5, t6⟩
      · have hnil : e1.timed.takeFirst.1 = [] := by rw [t2]
        obtain ⟨n1, n2⟩ := hn.nothing (.inr hnil)
        refine ⟨none, none, i9.trans hc1, ?_, fun p hp => (by cases hp), fun _ => ⟨rfl, n1, fun _ => t3⟩, n2, fun x hx => (by cases hx)⟩
        rw [htm, t2]
        rw [t1] at ht
        simpa using ht
      · obtain ⟨v, v1, v2, v3⟩ := hn.wrote hc1 t2
        refine ⟨some ⟨[], [], [], [], some t⟩, some v, i9.trans hc1, ?_, fun p hp => ?_, fun hu => (by cases hu), v2, fun x hx => ?_⟩
        · rw [htm]; exact t6
        · cases hp
          refine ⟨⟨⟨rfl, rfl⟩, t, rfl, t3, t4, t5⟩, rfl, v, rfl, ?_⟩
          unfold UnitParts.Gives UnitParts.blocks UnitParts.arbitrary
          simp only [List.append_nil, List.map_nil, Option.map_some, Option.getD_some]
          rw [← t1]
          exact v1
        · cases hx; exact v3
  obtain ⟨unit, v, o1, o2, o3, o4, o5, o6⟩ := hone
  obtain ⟨ev, hev⟩ : ∃ ev : EncoderEvent, ev = ⟨.output rank buffer, .unit b, unit, d.2.2, sortBy (fun a b => decide (rank a.1 ≤ rank b.1)) e.cached⟩ := ⟨_, rfl⟩
  have B := hb (.unit b) unit
  rw [← hev] at B
  have u1 : ev.call = .output rank buffer := by rw [hev]
  have u2 : ev.answer = .unit b := by rw [hev]
  have u3 : ev.unit = unit := by rw [hev]
  have u4 : ev.fed = sortBy (fun a b => decide (rank a.1 ≤ rank b.1)) e.cached := by rw [hev]
  clear hev hb
  refine ⟨ev, u1, u2, ?_⟩
  have hunits : unitsIn (evs ++ [ev]) = unitsIn evs ++ unit.toList := by rw [unitsIn_snoc, u3]
  have hnoframes : ∀ p, unit = some p → p.blocks = [] ∧ p.frames = [] := fun p hp => (o3 p hp).1.alone
  have hkind : ∀ k, unit.toList.flatMap (·.ofKind k) = [] := by
    intro k
    cases hu : unit with
    | none => rfl
    | some p =>
      have := (hnoframes p hu).1
      unfold UnitParts.blocks at this
      simp only [List.append_eq_nil_iff] at this
      cases k <;> simp [UnitParts.ofKind, this]
  have hticks : ticksIn (evs ++ [ev]) = ticksIn evs ++ (unit.bind UnitParts.tick).toList := by
    rw [ticksIn_snoc, u3]
  have hframed : framed (evs ++ [ev]) = framed evs := by
    unfold framed
    rw [hunits, List.filter_append]
    cases hu : unit with
    | none => simp
    | some p => simp [(hnoframes p hu).2]
  have hframes : ((unitsIn (evs ++ [ev])).map UnitParts.frames).filter (fun fs => !fs.isEmpty) = (((unitsIn evs).map UnitParts.frames) ++ [[]]).filter fun fs => !fs.isEmpty := by
    rw [hunits, List.map_append, List.filter_append, List.filter_append]
    congr 1
    cases hu : unit with
    | none => simp
    | some p => simp [(hnoframes p hu).2]
  have hw : waitingBlocks e' = waitingBlocks e1 := by funext k; cases k <;> assumption
  have hout : outOf (evs ++ [ev]) (waitingBlocks e') = outOf evs (waitingBlocks e1) := by
    unfold outOf
    funext k
    rw [hunits, List.flatMap_append, hkind, List.append_nil, hw]
  have hgiven : metadataGiven definitions (evs ++ [ev]) = metadataGiven definitions evs := by
    rw [metadataGiven_snoc, u1]; simp [metadataTaken]
  have hfor : ∀ k, givenFor definitions k (evs ++ [ev]) = givenFor definitions k evs := by
    intro k; unfold givenFor; rw [hgiven]
  have hmono : ended e = true → ended e' = true ∧ e'.finalizer = e.finalizer ∧ v = none := by
    intro he
    have he1 := (B.ended he).1
    have ht1 : e1.timed = [] := by
      unfold ended IamfEncoder.generating at he1
      simp only [Bool.and_eq_true, Bool.not_eq_true', Bool.or_eq_false_iff] at he1
      have := he1.2.2
      simpa using this
    have ht' : e'.timed = [] := by
      rw [hn.timed, ht1]; cases e1.finalizeCalled <;> rfl
    refine ⟨?_, i8.trans r5, ?_⟩
    · have : ended e' = ended e1 := by unfold ended IamfEncoder.generating; rw [i9, i6, ht', ht1]
      rw [this]; exact he1
    · cases hu : unit with
      | none => exact (o4 hu).1
      | some p =>
        obtain ⟨t, -, t1, t2, -⟩ := (o3 p hu).1.tick
        have := (h.timed.keys t).mpr ⟨t1, t2⟩
        rw [← r2, ht1] at this
        cases this
  have hviews : List.Forall₂ (UnitParts.Gives s) ev.unit.toList v.toList := by
    rw [u3]
    cases hu : unit with
    | none => rw [(o4 hu).1]; exact .nil
    | some p =>
      obtain ⟨-, -, x, hx, hg⟩ := o3 p hu
      rw [hx]
      exact .cons hg .nil
  have hclosing : closing e1 e' = closing e e' := by unfold closing; rw [r10]
  obtain ⟨k1, k2, k3, k4, k5⟩ := end_fields h ev v (.of r1 r9 r10 hn.ends) hmono
    (by rw [← hclosing]; exact (AllAccept.same (K := K) r6 r7).append o5) hviews
  have hendede : ended e = true → v = none := fun he => (hmono he).2.2
  -- the call
  have hcall : EventOk s definitions heard evs ev := by
    unfold EventOk
    rw [u1]
    simp only
    refine ⟨B.handed, by rw [u4]; exact latest_sorted h.cached rank, ?_, fun p hp => ?_, fun hu => ?_⟩
    · rw [u4]
      exact rank_sorted rank e.cached
    · rw [u3] at hp
      obtain ⟨p1, p2, x, hx, hg⟩ := o3 p hp
      refine ⟨.inl ⟨p1, by rw [← h.called]; exact p2⟩, x, b, hg, ?_, u2⟩
      have hne : ended e = false := by
        cases he : ended e with
        | false => rfl
        | true => rw [hendede he] at hx; cases hx
      have hs := h.streams
      rw [hne] at hs
      simp only [Bool.false_eq_true, if_false] at hs
      obtain ⟨q, q1, rfl⟩ := o6 x hx
      rw [r7] at q1
      obtain ⟨q2, a1, a2⟩ := accepts_cons q1
      rw [accepts_nil a2]
      exact (hs.unit a1).2
    · rw [u3] at hu
      obtain ⟨-, h1, h2⟩ := o4 hu
      exact ⟨by rw [u2, h1], by rw [← h.called]; exact h2⟩
  refine ⟨?_, ?_, k1, k2, ?_, by rw [hticks]; exact o2, ?_, ?_, by rw [hgiven]; exact h.proper, ?_, ?_, ?_, ?_, by rw [hframed]; exact h.heards, k3, k4, k5⟩
  · have := events_snoc (l := []) h.events (by simpa using hcall)
    simpa using this
  · rw [o1, finalizedIn_snoc, h.called, u1]; simp [IamfEncoderCall.isFinal]
  · intro hc
    rw [o1] at hc
    rw [i6]
    exact (B.phase hc).imp (fun x => x) (fun x => x.1)
  · rw [hticks]
    rw [List.nodup_append]
    refine ⟨h.once, ?_, ?_⟩
    · cases unit.bind UnitParts.tick <;> simp
    · intro a ha b hb heq
      subst heq
      cases hu : unit with
      | none => rw [hu] at hb; simp at hb
      | some p =>
        obtain ⟨t, t1, -, t2, -⟩ := (o3 p hu).1.tick
        rw [hu] at hb
        simp only [Option.bind_some, t1, Option.toList_some, List.mem_singleton] at hb
        exact t2 (hb ▸ ha)
  · have hz : pendingSamples definitions (evs ++ [ev]) = [] := by
      rw [pendingSamples_snoc]; unfold pendingStep; rw [u1]
    rw [hz, i5, hm.cached]
    exact latest_nil
  · rw [hgiven, hout, i1, i6]; exact B.blocks
  · obtain ⟨done, waiting, w1, w2, w3, w4⟩ := h.recon
    refine ⟨done, waiting, by rw [hfor]; exact w1, by rw [i1, B.recon]; exact w2, w3, ?_⟩
    rw [hout]
    have : outOf evs (waitingBlocks e1) .reconGain = outOf evs (waitingBlocks e) .reconGain := by unfold outOf waitingBlocks; simp only; rw [r3]
    rw [this]; exact w4
  · obtain ⟨fss, g, c1, c2, c3⟩ := B.frames
    exact ⟨fss, g, c1, by rw [i6]; exact c2, by rw [hframes]; exact c3⟩
  · rw [i7, i8, r4, r5]; exact h.sounds

/-! ### With frames -/

theorem step_with {s : EncoderSetup L P σ} {definitions : List (UInt32 × ParamEntry)} {generator : FrameGenerator L.State} {evs : List EncoderEvent}
    {heard : List (UnitParts × P.Frames)} {e e1 e' : IamfEncoder L P σ} (hk : Keyed definitions)
    (hp : s.override = false → ∀ id d, definitions.lookup id = some d → OnePerPlace d)
    (h : Inner K linear s definitions generator evs heard e)
    {rank : UInt32 × Label → Nat} {f : GenFrame × List UInt8} {l : List (GenFrame × List UInt8)} {d m : BlockGenerator × TimingModule × List BlockWithData}
    {g : FrameGenerator L.State} (hm : MadeFrames linear e e1 rank (f :: l) d m g) {buffer b : List UInt8}
    (hb : ∀ answer unit, Between linear s definitions generator evs heard
      ⟨.output rank buffer, answer, unit, d.2.2, sortBy (fun a b => decide (rank a.1 ≤ rank b.1)) e.cached⟩ e e1 (f :: l))
    {a : P.Frames × P.Decoders} {r : BlockGenerator × TimingModule × List BlockWithData} (hn : SomeFrames K e1 e' b f l a r) :
    ∃ ev x, ev.call = .output rank buffer ∧ ev.answer = .unit b ∧ Inner K linear s definitions generator (evs ++ [ev]) (heard ++ [x]) e' := by
  obtain ⟨r1, r2, r3, r4, r5, r6, r7, r8, r9, r10⟩ := hm.rest
  obtain ⟨p, hp'⟩ : ∃ p : UnitParts, p = ⟨IamfEncoder.blocksUntil f.1.start e1.mixGain, IamfEncoder.blocksUntil f.1.start e1.demixing,
    IamfEncoder.blocksUntil f.1.start r.2.2, f :: l, if f.1.start ∈ s.ticks ∧ f.1.start ∉ ticksIn evs then some f.1.start else none⟩ := ⟨_, rfl⟩
  obtain ⟨ev, hev⟩ : ∃ ev : EncoderEvent, ev = ⟨.output rank buffer, .unit b, some p, d.2.2, sortBy (fun a b => decide (rank a.1 ≤ rank b.1)) e.cached⟩ := ⟨_, rfl⟩
  have B := hb (.unit b) (some p)
  rw [← hev] at B
  have u1 : ev.call = .output rank buffer := by rw [hev]
  have u2 : ev.answer = .unit b := by rw [hev]
  have u3 : ev.unit = some p := by rw [hev]
  have u4 : ev.fed = sortBy (fun a b => decide (rank a.1 ≤ rank b.1)) e.cached := by rw [hev]
  have p1 : p.mixGain = IamfEncoder.blocksUntil f.1.start e1.mixGain := by rw [hp']
  have p2 : p.demixing = IamfEncoder.blocksUntil f.1.start e1.demixing := by rw [hp']
  have p3 : p.reconGain = IamfEncoder.blocksUntil f.1.start r.2.2 := by rw [hp']
  have p4 : p.frames = f :: l := by rw [hp']
  have p5 : p.tick = if f.1.start ∈ s.ticks ∧ f.1.start ∉ ticksIn evs then some f.1.start else none := by rw [hp']
  clear hev hb hp'
  have p6 : p.start = some f.1.start := by unfold UnitParts.start; rw [p4]; rfl
  have hblocksp : p.blocks = unitBlocks f.1.start e1.mixGain e1.demixing r.2.2 := by unfold UnitParts.blocks unitBlocks; rw [p1, p2, p3]
  refine ⟨ev, (p, a.1), u1, u2, ?_⟩
  have hne : ended e = false := by
    cases he : ended e with
    | false => rfl
    | true => have := (B.ended he).2; cases this
  have hseq : e.sequence = s.descriptors := by
    have := h.sequence
    rw [hne] at this
    simpa using this
  -- recon gains
  have hx := hn.made
  unfold BlockGenerator.generateReconGain at hx
  simp only [bind, except_ok, Except.ok.injEq] at hx
  obtain ⟨rr, m1, m2⟩ := hx
  obtain ⟨new, n1, n2, -, n4⟩ := inv_generate hk hp h.proper B.blocks .reconGain (P.source a.1) trivial e1.reconGain m1
  have q1 : r.1 = emptied e1.blocks .reconGain := by rw [← m2]; rfl
  have q2 : r.2.1 = rr.2 := by rw [← m2]
  have q3 : r.2.2 = rr.1 := by rw [← m2]
  have hsays : List.Forall₂ (SaysBlock s.override (P.source a.1) definitions) e1.blocks.reconGain new := by
    obtain ⟨all, ht, -⟩ := B.blocks.order
    rw [B.blocks.sameOverride, B.blocks.sameDefinitions] at m1
    have hprop : ∀ x ∈ e1.blocks.reconGain, ProperMetadata x := by
      intro x hx
      obtain ⟨done, d1, -⟩ := B.blocks.made .reconGain
      refine h.proper x ?_
      have : x ∈ metadataOf definitions .reconGain ((metadataGiven definitions evs).map Prod.fst) := by
        rw [d1]; exact List.mem_append_right _ hx
      exact (List.mem_filter.mp this).1
    obtain ⟨new', c1, c2, -, -⟩ := blocks_spec s.override (P.source a.1) definitions hk hp e1.blocks.reconGain e1.generator.timing e1.reconGain rr all hprop m1 ht
    rw [n1] at c1
    rw [List.append_cancel_left c1]
    exact c2
  -- all blocks
  have hunits : unitsIn (evs ++ [ev]) = unitsIn evs ++ [p] := by rw [unitsIn_snoc, u3]; rfl
  have hsplit : ∀ (t : Int) (bs : List BlockWithData), IamfEncoder.blocksUntil t bs ++ IamfEncoder.blocksAfter t bs = bs := by
    intro t bs
    unfold IamfEncoder.blocksUntil IamfEncoder.blocksAfter
    exact List.takeWhile_append_dropWhile
  have hout : outOf (evs ++ [ev]) (waitingBlocks e') = fun k' => if k' = .reconGain then outOf evs (waitingBlocks e1) .reconGain ++ new
      else outOf evs (waitingBlocks e1) k' := by
    funext k
    unfold outOf
    rw [hunits, List.flatMap_append, List.flatMap_singleton, List.append_assoc]
    cases k
    · simp only [UnitParts.ofKind, waitingBlocks, p1, hn.mixGain, hsplit, reduceCtorEq, if_false]
    · simp only [UnitParts.ofKind, waitingBlocks, p2, hn.demixing, hsplit, reduceCtorEq, if_false]
    · simp only [UnitParts.ofKind, waitingBlocks, p3, hn.reconGain, hsplit, if_true, q3, n1, List.append_assoc]
  have hrecon : MadeOf s definitions (heard ++ [(p, a.1)]) .reconGain (givenFor definitions .reconGain evs) (outOf evs (waitingBlocks e1) .reconGain ++ new) := by
    obtain ⟨done, waiting, w1, w2, w3, w4⟩ := h.recon
    rw [w1]
    have : outOf evs (waitingBlocks e1) .reconGain = outOf evs (waitingBlocks e) .reconGain := by unfold outOf waitingBlocks; simp only; rw [r3]
    rw [this]
    refine List.rel_append (w4.mono _) ?_
    rw [B.recon, ← w2, List.forall₂_map_left_iff] at hsays
    have hy : (heard ++ [(p, a.1)])[heard.length]? = some (p, a.1) := by simp
    clear * - hsays w3 hy
    induction hsays with
    | nil => exact .nil
    | @cons x o xs os hxo _ ih =>
      refine .cons ⟨_, fun _ => ⟨(p, a.1), ?_, rfl⟩, hxo⟩ (ih fun y hy => w3 y (List.mem_cons_of_mem _ hy))
      rw [w3 x List.mem_cons_self]; exact hy
  have hgiven : metadataGiven definitions (evs ++ [ev]) = metadataGiven definitions evs := by
    rw [metadataGiven_snoc, u1]; simp [metadataTaken]
  have hfor : ∀ k, givenFor definitions k (evs ++ [ev]) = givenFor definitions k evs := by
    intro k; unfold givenFor; rw [hgiven]
  have hticks : ticksIn (evs ++ [ev]) = ticksIn evs ++ p.tick.toList := by rw [ticksIn_snoc, u3]; rfl
  have ht := h.timed
  rw [← r2] at ht
  obtain ⟨t1, t2⟩ := ht.at f.1.start
  have hframed : framed (evs ++ [ev]) = framed evs ++ [p] := by
    unfold framed
    rw [hunits, List.filter_append]
    simp [p4]
  -- what is written
  obtain ⟨v, v1, v2, v3⟩ := hn.wrote
  have hgives : p.Gives s v := by
    unfold UnitParts.Gives
    rw [hblocksp, p4]
    have ha : p.arbitrary s = (e1.timed.takeAt f.1.start).1 := by
      rw [t1]
      unfold UnitParts.arbitrary
      rw [p5]
      by_cases hc : f.1.start ∈ s.ticks ∧ f.1.start ∉ ticksIn evs
      · rw [if_pos hc, if_pos hc]; rfl
      · rw [if_neg hc, if_neg hc]; rfl
    rw [ha]
    have he : s.elements = e1.sequence.elements.map fun x => (x.1, x.2.body) := by rw [r1, hseq]; rfl
    rw [he]
    exact v1
  have hclosing : closing e1 e' = closing e e' := by unfold closing; rw [r10]
  obtain ⟨k1, k2, k3, k4, k5⟩ := end_fields h ev (some v) (.of r1 r9 r10 hn.ends) (fun he => (by rw [hne] at he; cases he))
    (by
      have := v2
      rw [hclosing] at this
      exact (AllAccept.same (K := K) r6 r7).append this) (by rw [u3]; exact .cons hgives .nil)
  -- the call
  have hcall : EventOk s definitions (heard ++ [(p, a.1)]) evs ev := by
    unfold EventOk
    rw [u1]
    simp only
    refine ⟨B.handed.mono _, by rw [u4]; exact latest_sorted h.cached rank, ?_, fun p' hp' => ?_, fun hu => ?_⟩
    · rw [u4]
      exact rank_sorted rank e.cached
    · rw [u3, Option.some.injEq] at hp'
      subst hp'
      refine ⟨.inr ⟨by rw [p4]; simp, ⟨?_, fun k => ?_, ?_⟩⟩, v, b, hgives, ?_, u2⟩
      · have hall : ∀ x ∈ p.frames, x.1.start = f.1.start ∧ x.1.stop = f.1.stop := by
          rw [p4]
          intro x hx
          rcases List.mem_cons.mp hx with e | hx'
          · rw [e]; exact ⟨rfl, rfl⟩
          · exact hn.together x hx'
        intro x hx y hy
        exact ⟨(hall x hx).1.trans (hall y hy).1.symm, (hall x hx).2.trans (hall y hy).2.symm⟩
      · cases k
        · refine ⟨e1.mixGain, B.mixed.mono _, fun t ht => ?_⟩
          rw [p6, Option.some.injEq] at ht
          subst ht
          exact p1
        · refine ⟨e1.demixing, by rw [B.waiting]; exact B.handed.mono _, fun t ht => ?_⟩
          rw [p6, Option.some.injEq] at ht
          subst ht
          exact p2
        · refine ⟨r.2.2, ?_, fun t ht => ?_⟩
          · rw [q3, n1, ← List.append_assoc]; exact hrecon
          · rw [p6, Option.some.injEq] at ht
            subst ht
            exact p3
      · intro t ht
        rw [p6, Option.some.injEq] at ht
        subst ht
        exact p5
      · have hs := h.streams
        rw [hne] at hs
        simp only [Bool.false_eq_true, if_false] at hs
        obtain ⟨q, q1, rfl⟩ := v3
        rw [r7] at q1
        obtain ⟨q2, a1, a2⟩ := accepts_cons q1
        rw [accepts_nil a2]
        exact (hs.unit a1).2
    · rw [u3] at hu; cases hu
  refine ⟨events_snoc h.events hcall, ?_, k1, k2, ?_, ?_, ?_, ?_, by rw [hgiven]; exact h.proper, ?_, ?_, ?_, ?_, ?_, k3, k4, k5⟩
  · rw [hn.finalizeCalled, r8, finalizedIn_snoc, h.called, u1]; simp [IamfEncoderCall.isFinal]
  · intro hc
    rw [hn.finalizeCalled, r8] at hc
    rw [hn.generator]
    exact (B.phase hc).imp (fun x => x) (fun x => x.1)
  · rw [hticks, p5, hn.timed]; exact t2
  · rw [hticks, p5, List.nodup_append]
    refine ⟨h.once, ?_, ?_⟩
    · by_cases hc : f.1.start ∈ s.ticks ∧ f.1.start ∉ ticksIn evs
      · rw [if_pos hc]; simp
      · rw [if_neg hc]; simp
    · intro x hx y hy heq
      subst heq
      by_cases hc : f.1.start ∈ s.ticks ∧ f.1.start ∉ ticksIn evs
      · rw [if_pos hc] at hy
        simp only [Option.toList_some, List.mem_singleton] at hy
        exact hc.2 (hy ▸ hx)
      · rw [if_neg hc] at hy; simp at hy
  · have hz : pendingSamples definitions (evs ++ [ev]) = [] := by
      rw [pendingSamples_snoc]; unfold pendingStep; rw [u1]
    rw [hz, hn.cached, hm.cached]
    exact latest_nil
  · rw [hgiven, hout, hn.blocks, q1, hn.generator]
    refine n4.retimed ?_
    rw [← q2]; rfl
  · refine ⟨givenFor definitions .reconGain evs, [], by rw [hfor, List.append_nil], ?_, fun x hx => (by cases hx), ?_⟩
    · rw [hn.blocks, q1]; rfl
    · rw [hout]; exact hrecon
  · obtain ⟨fss, g1, c1, c2, c3⟩ := B.frames
    refine ⟨fss, g1, c1, ?_, ?_⟩
    · rw [hn.generator]
      have hfr : r.2.1.frames = g1.timing.frames := by
        rw [q2, n2, c2]; rfl
      have := withTiming_retimed g1 e1.generator.timing.blocks r.2.1 hfr
      rw [← c2] at this
      exact this
    · rw [c3, hunits, List.map_append]
      simp [p4]
  · rw [hn.decoders]
    have hs := h.sounds
    rw [← r4, ← r5] at hs
    refine .snoc hs p4 ?_ (x := f) (l := l) (f' := e'.finalizer) ?_
    · rw [p4]; exact hn.analysed
    · rw [hblocksp]; exact hn.pushed
  · rw [hframed, List.map_append, h.heards]; rfl

theorem step_output {s : EncoderSetup L P σ} {definitions : List (UInt32 × ParamEntry)} {generator : FrameGenerator L.State} {evs : List EncoderEvent}
    {heard : List (UnitParts × P.Frames)} {e e' : IamfEncoder L P σ} (hk : Keyed definitions)
    (hp : s.override = false → ∀ id d, definitions.lookup id = some d → OnePerPlace d)
    (h : Inner K linear s definitions generator evs heard e) {rank : UInt32 × Label → Nat} {buffer b : List UInt8}
    (ho : e.outputUnit K linear rank buffer = .ok (b, e')) :
    ∃ ev l, ev.call = .output rank buffer ∧ ev.answer = .unit b ∧ Inner K linear s definitions generator (evs ++ [ev]) (heard ++ l) e' := by
  obtain ⟨e1, fs, d, m, g, hm, hr⟩ := outputUnit_parts ho
  have hb := fun answer unit => between hk hp h hm buffer answer unit
  obtain ⟨-, -, -, -, -, -, -, -, r9, r10⟩ := id hm.rest
  have hf : e1.mixesFinalized = e1.sequencersFinalized := by rw [r9, r10, h.mixes, h.closed]
  rcases hr with ⟨rfl, hw⟩ | ⟨f, l, rfl, hw⟩
  · obtain ⟨ev, c1, c2, c3⟩ := step_without h hm hb (withoutFrames_parts hw hf)
    exact ⟨ev, [], c1, c2, by rw [List.append_nil]; exact c3⟩
  · obtain ⟨a, r, hn⟩ := withFrames_parts hw hf (fun hc => by
      rcases (hb (.unit b) none).phase (by rw [← hm.rest.2.2.2.2.2.2.2.1]; exact hc) with h1 | h1
      · exact h1
      · cases h1.2)
    obtain ⟨ev, x, c1, c2, c3⟩ := step_with hk hp h hm hb hn
    exact ⟨ev, [x], c1, c2, c3⟩

end Iamf.Props
