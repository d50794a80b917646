import Verif.Cli.Timing
/-
  Properties of timestamps: C22.
-/
namespace Iamf.Props
open Iamf

/-! ## C22: timestamps never drift -/

/-- The total duration of the frames requested for a substream. -/
def framesElapsed (id : UInt32) (history : List TimingCall) : Nat :=
  (history.map fun c => match c with
    | .frame i d => if i = id then d.toNat else 0
    | .block _ _ _ => 0).sum

/-- The total duration of the parameter blocks requested for a parameter, including the refused requests. -/
def blocksElapsed (id : UInt32) (history : List TimingCall) : Nat :=
  (history.map fun c => match c with
    | .frame _ _ => 0
    | .block i _ d => if i = id then d.toNat else 0).sum

private theorem lookup_advance (id : UInt32) (d : Int) (m : List (UInt32 × TimingData)) (i : UInt32) :
    (advance id d m).lookup i = (m.lookup i).map fun t => if i = id then { t with timestamp := t.timestamp + d } else t := by
  induction m with
  | nil => rfl
  | cons x m ih =>
    obtain ⟨j, t⟩ := x
    simp only [advance]
    split
    next h =>
      subst h
      simp only [List.lookup]
      split
      next h => simp only [beq_iff_eq] at h; subst h; simp
      next h => simp only [beq_eq_false_iff_ne, ne_eq] at h; simp [h]
    next h =>
      simp only [List.lookup]
      split
      next h' => simp only [beq_iff_eq] at h'; subst h'; simp [h]
      · exact ih

private theorem advance_keys (id : UInt32) (d : Int) (m : List (UInt32 × TimingData)) :
    (advance id d m).map Prod.fst = m.map Prod.fst := by
  induction m with
  | nil => rfl
  | cons x m ih => simp only [advance]; split <;> simp [ih]

/-- The timestamps of a map after a total of `f id` for each id. -/
private def Shifted (m m' : List (UInt32 × TimingData)) (f : UInt32 → Nat) : Prop :=
  m'.map Prod.fst = m.map Prod.fst ∧ ∀ i, m'.lookup i = (m.lookup i).map fun t => { t with timestamp := t.timestamp + f i }

private theorem shifted_request {m m' : List (UInt32 × TimingData)} {f : UInt32 → Nat} (h : Shifted m m' f) (id d : UInt32) :
    Shifted m (timestampsForId id d m').2 fun i => f i + if id = i then d.toNat else 0 := by
  unfold timestampsForId
  split
  next hn =>
    refine ⟨h.1, fun i => ?_⟩
    rw [h.2 i]
    by_cases hi : id = i
    · subst hi
      rw [h.2 id] at hn
      cases hx : m.lookup id with
      | none => rfl
      | some t => rw [hx] at hn; simp at hn
    · simp [hi]
  next t ht =>
    refine ⟨(advance_keys _ _ _).trans h.1, fun i => ?_⟩
    simp only
    rw [lookup_advance, h.2 i, Option.map_map]
    congr 1
    funext t
    simp only [Function.comp]
    by_cases hi : id = i
    · subst hi; simp [Int.add_assoc]
    · rw [if_neg (fun h => hi h.symm), if_neg hi]; rfl

private theorem after_shifted (g : TimingModule) (history : List TimingCall) :
    Shifted g.frames (g.after history).frames (fun i => framesElapsed i history) ∧
    Shifted g.blocks (g.after history).blocks (fun i => blocksElapsed i history) := by
  have gen : ∀ (history : List TimingCall) (g' : TimingModule) (f b : UInt32 → Nat), Shifted g.frames g'.frames f →
      Shifted g.blocks g'.blocks b →
      Shifted g.frames (g'.after history).frames (fun i => f i + framesElapsed i history) ∧
      Shifted g.blocks (g'.after history).blocks (fun i => b i + blocksElapsed i history) := by
    intro history
    induction history with
    | nil => intro g' f b hf hb; exact ⟨by simpa [framesElapsed, TimingModule.after] using hf, by simpa [blocksElapsed, TimingModule.after] using hb⟩
    | cons c cs ih =>
      intro g' f b hf hb
      cases c with
      | frame i d =>
        have := ih (g'.nextFrame i d).2 _ _ (shifted_request hf i d) hb
        simpa [framesElapsed, blocksElapsed, Nat.add_assoc, TimingModule.after, TimingModule.call] using this
      | block i s d =>
        have := ih (g'.nextBlock i s d).2 _ _ hf (shifted_request hb i d)
        simpa [framesElapsed, blocksElapsed, Nat.add_assoc, TimingModule.after, TimingModule.call] using this
  have := gen history g (fun _ => 0) (fun _ => 0) ⟨rfl, fun i => by simp⟩ ⟨rfl, fun i => by simp⟩
  simpa using this

private theorem init_ok (l : List (UInt32 × UInt32)) (m : List (UInt32 × TimingData)) (r : List (UInt32 × TimingData))
    (hm : (m.map Prod.fst).Nodup) (h : initTiming l m = .ok r) :
    (m.map Prod.fst ++ l.map Prod.fst).Nodup ∧ (∀ x ∈ l, x.2 ≠ 0) ∧ r = m ++ l.map fun x => (x.1, ⟨x.2, 0⟩) := by
  induction l generalizing m with
  | nil => simp only [initTiming, Except.ok.injEq] at h; subst h; simpa using hm
  | cons x l ih =>
    obtain ⟨id, rate⟩ := x
    simp only [initTiming] at h
    split at h
    · simp at h
    next hr =>
      split at h
      · simp at h
      next hl =>
        have hnot : id ∉ m.map Prod.fst := by
          intro hx
          obtain ⟨y, hy, he⟩ := List.mem_map.mp hx
          rw [Option.not_isSome_iff_eq_none, List.lookup_eq_none_iff] at hl
          have := hl y hy
          simp [he] at this
        obtain ⟨h1, h2, h3⟩ := ih _ (by
          rw [List.map_append, List.nodup_append]
          refine ⟨hm, by simp, ?_⟩
          intro a ha b hb
          simp only [List.map_cons, List.map_nil, List.mem_singleton] at hb
          subst hb
          intro hab; subst hab
          exact hnot ha) h
        refine ⟨?_, ?_, ?_⟩
        · simpa using h1
        · intro y hy
          rcases List.mem_cons.mp hy with rfl | hy
          · exact hr
          · exact h2 y hy
        · rw [h3]; simp

private theorem init_complete (l : List (UInt32 × UInt32)) (m : List (UInt32 × TimingData))
    (h : (m.map Prod.fst ++ l.map Prod.fst).Nodup) (hr : ∀ x ∈ l, x.2 ≠ 0) :
    initTiming l m = .ok (m ++ l.map fun x => (x.1, ⟨x.2, 0⟩)) := by
  induction l generalizing m with
  | nil => simp [initTiming]
  | cons x l ih =>
    obtain ⟨id, rate⟩ := x
    simp only [initTiming]
    rw [if_neg (hr _ List.mem_cons_self), if_neg, ih]
    · simp
    · simpa using h
    · exact fun y hy => hr y (List.mem_cons_of_mem _ hy)
    · rw [Option.not_isSome_iff_eq_none, List.lookup_eq_none_iff]
      intro y hy
      simp only [beq_eq_false_iff_ne, ne_eq, bne_iff_ne]
      intro he
      rw [List.nodup_append] at h
      exact h.2.2 y.1 (List.mem_map.mpr ⟨y, hy, rfl⟩) id (by simp) (by simpa using he.symm)

private theorem lookup_zero {l : List (UInt32 × UInt32)} {i : UInt32} (hi : i ∈ l.map Prod.fst) :
    ∃ r, (l.map fun x => (x.1, (⟨x.2, 0⟩ : TimingData))).lookup i = some ⟨r, 0⟩ := by
  induction l with
  | nil => simp at hi
  | cons x l ih =>
    simp only [List.map_cons, List.lookup]
    split
    · exact ⟨_, rfl⟩
    next h =>
      simp only [beq_eq_false_iff_ne, ne_eq] at h
      simp only [List.map_cons, List.mem_cons] at hi
      exact ih (hi.resolve_left h)

private theorem lookup_zero_none {l : List (UInt32 × UInt32)} {i : UInt32} (hi : i ∉ l.map Prod.fst) :
    (l.map fun x => (x.1, (⟨x.2, 0⟩ : TimingData))).lookup i = none := by
  rw [List.lookup_eq_none_iff]
  intro y hy
  simp only [beq_eq_false_iff_ne, ne_eq, bne_iff_ne]
  rintro rfl
  apply hi
  obtain ⟨x, hx, rfl⟩ := List.mem_map.mp hy
  exact List.mem_map.mpr ⟨x, hx, rfl⟩

private theorem create_eq {elements : List TimedElement} {params : List (UInt32 × UInt32)} {g : TimingModule}
    (h : TimingModule.create elements params = some g) :
    (∀ i, i ∈ elements.flatMap TimedElement.substreams ↔ i ∈ g.frames.map Prod.fst) ∧
    g.frames = (elements.flatMap fun e => e.substreams.map fun s => (s, e.sampleRate)).map (fun x => (x.1, ⟨x.2, 0⟩)) ∧
    g.blocks = params.map (fun x => (x.1, ⟨x.2, 0⟩)) ∧ (g.frames.map Prod.fst).Nodup := by
  unfold TimingModule.create at h
  split at h
  · simp at h
  next fs hf =>
    split at h
    · simp at h
    next bs hb =>
      simp only [Option.some.injEq] at h
      subst h
      obtain ⟨a1, -, a3⟩ := init_ok _ _ _ (by simp) hf
      obtain ⟨-, -, b3⟩ := init_ok _ _ _ (by simp) hb
      simp only [List.nil_append, List.map_nil] at a1 a3 b3
      refine ⟨fun i => ?_, a3, b3, ?_⟩
      · simp only [a3, List.map_map]
        simp only [List.mem_flatMap, List.mem_map]
        constructor
        · rintro ⟨e, he, hi⟩
          exact ⟨(i, e.sampleRate), ⟨e, he, i, hi, rfl⟩, rfl⟩
        · rintro ⟨x, ⟨e, he, s, hs, rfl⟩, rfl⟩
          exact ⟨e, he, hs⟩
      · simp only [a3, List.map_map]
        exact a1

/-- A new module knows every substream once, at time 0. -/
theorem timing_stamps {elements : List TimedElement} {params : List (UInt32 × UInt32)} {g : TimingModule}
    (h : TimingModule.create elements params = some g) :
    (elements.flatMap TimedElement.substreams).Nodup ∧
    ∀ i ∈ elements.flatMap TimedElement.substreams, ∃ r, g.frames.lookup i = some ⟨r, 0⟩ := by
  obtain ⟨h1, h2, -, h4⟩ := create_eq h
  have hmap : (elements.flatMap fun e => e.substreams.map fun s => (s, e.sampleRate)).map Prod.fst =
      elements.flatMap TimedElement.substreams := by
    clear h h1 h2
    induction elements with
    | nil => rfl
    | cons e es ih => simp [List.flatMap_cons, ih, Function.comp_def]
  refine ⟨?_, fun i hi => ?_⟩
  · rw [h2, List.map_map] at h4
    rw [← hmap]
    exact h4
  · rw [h2]
    exact lookup_zero (by rw [hmap]; exact hi)

/-- **C22 (creation).** A module is created exactly if no substream id occurs twice and no rate is zero (each parameter
id occurs once, being a key of a map). -/
theorem C22_created_iff (elements : List TimedElement) (params : List (UInt32 × UInt32)) (hp : (params.map Prod.fst).Nodup) :
    (∃ g, TimingModule.create elements params = some g) ↔
      (elements.flatMap TimedElement.substreams).Nodup ∧ (∀ e ∈ elements, e.substreams ≠ [] → e.sampleRate ≠ 0) ∧
      ∀ p ∈ params, p.2 ≠ 0 := by
  have hmap : (elements.flatMap fun e => e.substreams.map fun s => (s, e.sampleRate)).map Prod.fst =
      elements.flatMap TimedElement.substreams := by
    induction elements with
    | nil => rfl
    | cons e es ih => simp [List.flatMap_cons, ih, Function.comp_def]
  constructor
  · rintro ⟨g, h⟩
    unfold TimingModule.create at h
    split at h
    · simp at h
    next fs hf =>
      split at h
      · simp at h
      next bs hb =>
        obtain ⟨a1, a2, -⟩ := init_ok _ _ _ (by simp) hf
        obtain ⟨-, b2, -⟩ := init_ok _ _ _ (by simp) hb
        refine ⟨by rw [← hmap]; simpa using a1, fun e he hne => ?_, b2⟩
        obtain ⟨s, hs⟩ := List.exists_mem_of_ne_nil _ hne
        exact a2 (s, e.sampleRate) (List.mem_flatMap.mpr ⟨e, he, List.mem_map.mpr ⟨s, hs, rfl⟩⟩)
  · rintro ⟨h1, h2, h3⟩
    unfold TimingModule.create
    rw [init_complete _ _ (by rw [hmap]; simpa using h1), init_complete _ _ (by simpa using hp) h3]
    · exact ⟨_, rfl⟩
    · intro x hx
      obtain ⟨e, he, hx⟩ := List.mem_flatMap.mp hx
      obtain ⟨s, hs, rfl⟩ := List.mem_map.mp hx
      exact h2 e he (List.ne_nil_of_mem hs)

/-- **C22 (frames).** After any history of requests, the next frame of a known substream starts exactly at the total
duration of the frames requested for it before, and ends `duration` later; requests for other substreams and for
parameters do not matter.  An unknown substream is refused. -/
theorem C22_frames_are_contiguous (elements : List TimedElement) (params : List (UInt32 × UInt32)) (g : TimingModule)
    (hc : TimingModule.create elements params = some g) (history : List TimingCall) (id duration : UInt32) :
    (id ∈ elements.flatMap TimedElement.substreams →
      ((g.after history).nextFrame id duration).1 =
        (.ok (), (framesElapsed id history : Int), (framesElapsed id history : Int) + duration.toNat)) ∧
    (id ∉ elements.flatMap TimedElement.substreams →
      ((g.after history).nextFrame id duration).1.1 = .error .invalidArgument ∧
      ((g.after history).nextFrame id duration).2 = g.after history) := by
  obtain ⟨h0, h1, -, -⟩ := create_eq hc
  have hs := (after_shifted g history).1.2 id
  refine ⟨fun hi => ?_, fun hi => ?_⟩
  · have hm : id ∈ (elements.flatMap fun e => e.substreams.map fun s => (s, e.sampleRate)).map Prod.fst := by
      have := (h0 id).mp hi
      rw [h1] at this
      simpa [List.map_map, Function.comp_def] using this
    obtain ⟨r, hr⟩ := lookup_zero hm
    rw [← h1] at hr
    rw [hr] at hs
    simp only [TimingModule.nextFrame, timestampsForId, hs, Option.map_some, Int.zero_add]
  · have hm : id ∉ (elements.flatMap fun e => e.substreams.map fun s => (s, e.sampleRate)).map Prod.fst := by
      intro hx
      apply hi
      rw [h0, h1]
      simpa [List.map_map, Function.comp_def] using hx
    have hr := lookup_zero_none hm
    rw [← h1] at hr
    rw [hr] at hs
    simp [TimingModule.nextFrame, timestampsForId, hs]

/-- **C22 (parameter blocks).** Likewise for parameter blocks: the given times are contiguous; the request succeeds
exactly if the start the caller expects is the total duration requested so far. -/
theorem C22_blocks_are_contiguous (elements : List TimedElement) (params : List (UInt32 × UInt32)) (g : TimingModule)
    (hc : TimingModule.create elements params = some g) (history : List TimingCall) (id duration : UInt32) (start : Int)
    (hi : id ∈ params.map Prod.fst) :
    ((g.after history).nextBlock id start duration).1 =
      (if start = blocksElapsed id history then .ok () else .error .invalidArgument,
        (blocksElapsed id history : Int), (blocksElapsed id history : Int) + duration.toNat) := by
  obtain ⟨-, -, h1, -⟩ := create_eq hc
  have hs := (after_shifted g history).2.2 id
  obtain ⟨r, hr⟩ := lookup_zero hi
  rw [← h1] at hr
  rw [hr] at hs
  simp only [TimingModule.nextBlock, timestampsForId, hs, Option.map_some, Int.zero_add]

private theorem lookup_of_mem {m : List (UInt32 × TimingData)} (hn : (m.map Prod.fst).Nodup) {x : UInt32 × TimingData} (hx : x ∈ m) :
    m.lookup x.1 = some x.2 := by
  induction m with
  | nil => simp at hx
  | cons y m ih =>
    rw [List.map_cons, List.nodup_cons] at hn
    simp only [List.lookup]
    rcases List.mem_cons.mp hx with rfl | hx'
    · simp
    · have : (x.1 == y.1) = false := by
        simp only [beq_eq_false_iff_ne, ne_eq]
        intro he
        exact hn.1 (List.mem_map.mpr ⟨x, hx', he⟩)
      rw [this]
      exact ih hn.2 hx'

/-- **C22 (global time).** After any history: the global timestamp is `t` exactly if frames of total duration `t` have
been requested for every substream; it is absent exactly if two substreams differ; and asking is an error exactly if there
are no substreams. -/
theorem C22_global_timestamp (elements : List TimedElement) (params : List (UInt32 × UInt32)) (g : TimingModule)
    (hc : TimingModule.create elements params = some g) (history : List TimingCall) :
    (elements.flatMap TimedElement.substreams = [] → (g.after history).globalTimestamp = .error .invalidArgument) ∧
    (elements.flatMap TimedElement.substreams ≠ [] →
      (∀ t : Int, (g.after history).globalTimestamp = .ok (some t) ↔
        ∀ i ∈ elements.flatMap TimedElement.substreams, (framesElapsed i history : Int) = t) ∧
      ((g.after history).globalTimestamp = .ok none ↔
        ∃ i ∈ elements.flatMap TimedElement.substreams, ∃ j ∈ elements.flatMap TimedElement.substreams,
          framesElapsed i history ≠ framesElapsed j history)) := by
  obtain ⟨h0, h1, -, hn⟩ := create_eq hc
  obtain ⟨hk, hl⟩ := (after_shifted g history).1
  have hzero : ∀ i ∈ elements.flatMap TimedElement.substreams, ∃ r, g.frames.lookup i = some ⟨r, 0⟩ := by
    intro i hi
    have hm : i ∈ (elements.flatMap fun e => e.substreams.map fun s => (s, e.sampleRate)).map Prod.fst := by
      have := (h0 i).mp hi
      rw [h1] at this
      simpa [List.map_map, Function.comp_def] using this
    obtain ⟨r, hr⟩ := lookup_zero hm
    rw [← h1] at hr
    exact ⟨r, hr⟩
  have hval : ∀ x ∈ (g.after history).frames, x.1 ∈ elements.flatMap TimedElement.substreams ∧
      x.2.timestamp = framesElapsed x.1 history := by
    intro x hx
    have hx1 : x.1 ∈ elements.flatMap TimedElement.substreams := by
      rw [h0, ← hk]; exact List.mem_map.mpr ⟨x, hx, rfl⟩
    obtain ⟨r, hr⟩ := hzero _ hx1
    have h2 := lookup_of_mem (by rw [hk]; exact hn) hx
    rw [hl, hr] at h2
    simp only [Option.map_some, Int.zero_add, Option.some.injEq] at h2
    exact ⟨hx1, by rw [← h2]⟩
  have hmem : ∀ i ∈ elements.flatMap TimedElement.substreams, ∃ x ∈ (g.after history).frames, x.1 = i := by
    intro i hi
    rw [h0, ← hk] at hi
    exact List.mem_map.mp hi
  revert hval hmem
  generalize (g.after history) = g'
  intro hval hmem
  constructor
  · intro he
    unfold TimingModule.globalTimestamp
    split
    · rfl
    next x t l heq =>
      have := (hval (x, t) (by rw [heq]; exact List.mem_cons_self)).1
      rw [he] at this
      simp at this
  · intro hne
    unfold TimingModule.globalTimestamp
    split
    next heq =>
      obtain ⟨i, hi⟩ := List.exists_mem_of_ne_nil _ hne
      obtain ⟨x, hx, -⟩ := hmem i hi
      rw [heq] at hx
      simp at hx
    next x t l heq =>
      obtain ⟨hx1, hx2⟩ := hval (x, t) (by rw [heq]; exact List.mem_cons_self)
      simp only at hx1 hx2
      have hall : (g'.frames.all fun y => t.timestamp == y.2.timestamp) = true ↔
          ∀ i ∈ elements.flatMap TimedElement.substreams, framesElapsed i history = framesElapsed x history := by
        rw [List.all_eq_true]
        constructor
        · intro h i hi
          obtain ⟨y, hy, rfl⟩ := hmem i hi
          have := h y hy
          rw [beq_iff_eq, hx2, (hval y hy).2] at this
          exact (Int.ofNat_inj.mp this).symm
        · intro h y hy
          rw [beq_iff_eq, hx2, (hval y hy).2, h _ (hval y hy).1]
      constructor
      · intro t'
        constructor
        · intro h i hi
          simp only [Except.ok.injEq] at h
          split at h
          next ha =>
            simp only [Option.some.injEq] at h
            rw [hall.mp ha i hi, ← h, hx2]
          · simp at h
        · intro h
          have ha : (g'.frames.all fun y => t.timestamp == y.2.timestamp) = true := hall.mpr fun i hi => by
            have h3 := h i hi
            have h4 := h x hx1
            omega
          rw [if_pos ha, hx2, h x hx1]
      · constructor
        · intro h
          simp only [Except.ok.injEq] at h
          split at h
          · simp at h
          next ha =>
            rw [hall] at ha
            simp only [Classical.not_forall] at ha
            obtain ⟨i, hi, hi2⟩ := ha
            exact ⟨i, hi, x, hx1, hi2⟩
        · rintro ⟨i, hi, j, hj, hij⟩
          rw [if_neg]
          intro ha
          have := hall.mp ha
          exact hij ((this i hi).trans (this j hj).symm)

/-- Two elements with three substreams; the module exists and the times are as expected. -/
example : ∃ g, TimingModule.create [⟨[1, 2], 48000⟩, ⟨[9], 48000⟩] [(5, 48000)] = some g ∧
    (g.after [.frame 1 960, .frame 2 960]).globalTimestamp = .ok none ∧
    (g.after [.frame 1 960, .frame 9 960, .frame 2 960, .block 5 0 960]).globalTimestamp = .ok (some 960) ∧
    ((g.after [.frame 1 960, .frame 9 960, .frame 1 20]).nextFrame 1 30).1 = (.ok (), 980, 1010) :=
  ⟨_, rfl, by decide +kernel, by decide +kernel, by decide +kernel⟩

/-- **C22 (finding).** A parameter block request that is refused because of its start time still advances the time of
the parameter: repeating the same request is answered differently. -/
theorem C22_refused_block_still_advances :
    ∃ g, TimingModule.create [] [(5, 48000)] = some g ∧
      (g.nextBlock 5 960 960).1.1 = .error .invalidArgument ∧
      ((g.nextBlock 5 960 960).2.nextBlock 5 960 960).1 = (.ok (), 960, 1920) :=
  ⟨_, rfl, by decide +kernel, by decide +kernel⟩

end Iamf.Props
