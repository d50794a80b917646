import Verif.Cli.SubstreamFrames
/-
  C43: the frames that wait for an encoder are a queue of samples for each channel.
-/
namespace Iamf.Props
open Iamf

variable {S : Type}

/-! ### Specification -/

/-- What can be done with the object. -/
inductive FramesOp (S : Type) where
  | push (channel : Nat) (s : S)
  | pad (k : Nat)
  | pop
  | front
  | isEmpty

/-- What an operation returns. -/
inductive FramesSaw (S : Type) where
  | nothing
  | frame (channels : List (List S))
  | flag (b : Bool)

/-- All channels have the same number of samples. -/
def Balanced (qs : List (List S)) : Prop := ∃ c, ∀ q ∈ qs, q.length = c

/-- A queue of samples for each channel: operations add at the end and take away whole frames, of `n` samples, from the front. -/
def FramesOp.spec (n : Nat) (zero : S) (qs : List (List S)) : FramesOp S → List (List S) × FramesSaw S
  | .push channel s => (qs.modify channel (· ++ [s]), .nothing)
  | .pad k => (qs.map (· ++ List.replicate k zero), .nothing)
  | .pop => (qs.map (List.drop n), .nothing)
  | .front => (qs, .frame (qs.map (List.take n)))
  | .isEmpty => (qs, .flag (qs.all List.isEmpty))

/-- Samples go to channels that exist, and padding and taking away are only done while all channels have the same number of samples. -/
def FramesOp.Allowed (qs : List (List S)) : FramesOp S → Prop
  | .push channel _ => channel < qs.length
  | .pad _ | .pop => Balanced qs
  | _ => True

/-- The operation on the object. -/
def FramesOp.run (zero : S) (f : SubstreamFrames S) : FramesOp S → Except Err (SubstreamFrames S × FramesSaw S)
  | .push channel s => do let g ← f.push channel s; .ok (g, .nothing)
  | .pad k => do let g ← f.padZeros zero k; .ok (g, .nothing)
  | .pop => .ok (f.popFront, .nothing)
  | .front => do let (frame, g) ← f.front; .ok (g, .frame frame)
  | .isEmpty => .ok (f, .flag f.empty)

/-- A sequence of operations on queues, if all are allowed: what they return. -/
inductive QueueRun (n : Nat) (zero : S) : List (List S) → List (FramesOp S) → List (FramesSaw S) → Prop
  | done (qs) : QueueRun n zero qs [] []
  | next {qs op ops saws} : op.Allowed qs → QueueRun n zero (op.spec n zero qs).1 ops saws →
      QueueRun n zero qs (op :: ops) ((op.spec n zero qs).2 :: saws)

/-- A sequence of operations on the object: what they return. -/
def framesRun (zero : S) : List (FramesOp S) → SubstreamFrames S → Except Err (List (FramesSaw S))
  | [], _ => .ok []
  | op :: ops, f => do
    let (g, saw) ← op.run zero f
    let saws ← framesRun zero ops g
    .ok (saw :: saws)

/-! ### Proof: the invariant -/

/-- The samples of a channel in a frame. -/
private def chunkAt (f : SubstreamFrames S) (i ch : Nat) : Option (List S) := f.nodes[i]?.bind fun frame => frame[ch]?

private structure Base (f : SubstreamFrames S) (qs : List (List S)) : Prop where
  len : qs.length = f.channels
  cur : f.current.length = f.channels
  pos : 0 < f.perFrame
  shape : ∀ x ∈ f.nodes, x.length = f.channels
  nodup : (f.frames ++ f.recycled).Nodup
  bound : ∀ i ∈ f.frames ++ f.recycled, i < f.nodes.length
  chunk : ∀ (j i ch : Nat) (q : List S), f.frames[j]? = some i → qs[ch]? = some q →
    chunkAt f i ch = some ((q.drop (j * f.perFrame)).take f.perFrame)

private structure Cur (f : SubstreamFrames S) (ch : Nat) (q : List S) (p : Nat) : Prop where
  inside : p < f.frames.length
  iter : f.current[ch]? = some f.frames[p]?
  lower : p * f.perFrame ≤ q.length
  upper : q.length ≤ (p + 1) * f.perFrame

/-- The object holds these samples. -/
structure Holds (f : SubstreamFrames S) (qs : List (List S)) : Prop where
  private base : Base f qs
  private none : f.frames = [] → ∀ q ∈ qs, q = []
  private chan : f.frames ≠ [] → ∀ (ch : Nat) (q : List S), qs[ch]? = some q →
    ∃ p, Cur f ch q p ∧ (p = 0 ∨ p * f.perFrame < q.length)
  private used : f.frames.length ≤ 1 ∨ ∃ q ∈ qs, (f.frames.length - 1) * f.perFrame < q.length

private theorem modify_self {α : Type} (l : List α) (f : α → α) (i : Nat) : (l.modify i f)[i]? = l[i]?.map f := by
  rw [List.getElem?_modify]; simp

private theorem modify_ne {α : Type} (l : List α) (f : α → α) {i j : Nat} (h : i ≠ j) : (l.modify i f)[j]? = l[j]? := by
  rw [List.getElem?_modify]; simp [h]

private theorem append_base {f : SubstreamFrames S} {qs : List (List S)} (h : Base f qs)
    (hl : ∀ q ∈ qs, q.length ≤ f.frames.length * f.perFrame) :
    ∃ r, Base f.appendEmptyFrame qs ∧ f.appendEmptyFrame.frames = f.frames ++ [r] ∧ f.appendEmptyFrame.current = f.current ∧
      f.appendEmptyFrame.channels = f.channels ∧ f.appendEmptyFrame.perFrame = f.perFrame := by
  obtain ⟨channels, n, nodes, frames, recycled, current⟩ := f
  obtain ⟨h1, h2, h3, h4, h5, h6, h7⟩ := h
  simp only at h1 h2 h3 h4 h5 h6 hl
  have hq : ∀ (ch : Nat) (q : List S), qs[ch]? = some q → List.take n (List.drop (frames.length * n) q) = [] := by
    intro ch q hq
    rw [List.drop_eq_nil_of_le (hl q (List.mem_of_getElem? hq))]
    exact List.take_nil
  unfold SubstreamFrames.appendEmptyFrame
  cases recycled with
  | nil =>
    simp only [List.append_nil] at h5 h6
    refine ⟨nodes.length, ⟨h1, h2, h3, ?_, ?_, ?_, ?_⟩, rfl, rfl, rfl, rfl⟩
    · intro x hx
      rcases List.mem_append.mp hx with hx | hx
      · exact h4 x hx
      · rw [List.mem_singleton.mp hx]; simp
    · simp only [List.append_nil]
      rw [List.nodup_append]
      refine ⟨h5, by simp, ?_⟩
      intro a ha b hb
      rw [List.mem_singleton.mp hb]
      have := h6 a ha
      omega
    · intro i hi
      simp only [List.append_nil, List.mem_append, List.mem_singleton, List.length_append, List.length_cons, List.length_nil] at hi ⊢
      rcases hi with hi | hi
      · have := h6 i hi; omega
      · omega
    · intro j i ch q hj hq'
      simp only at hj ⊢
      rw [List.getElem?_append] at hj
      split at hj
      · have hb := h6 i (List.mem_of_getElem? hj)
        have := h7 j i ch q hj hq'
        simp only [chunkAt] at this ⊢
        rw [List.getElem?_append_left hb]
        exact this
      · rename_i hlt
        have hji : j = frames.length ∧ i = nodes.length := by
          rw [List.getElem?_singleton] at hj
          split at hj
          · simp only [Option.some.injEq] at hj; exact ⟨by omega, hj.symm⟩
          · cases hj
        obtain ⟨rfl, rfl⟩ := hji
        rw [hq ch q hq']
        have hch : ch < channels := by rw [← h1]; exact (List.getElem?_eq_some_iff.mp hq').1
        simp only [chunkAt, List.getElem?_concat_length, Option.bind_some]
        rw [List.getElem?_replicate, if_pos hch]
  | cons r rs =>
    have hr : r < nodes.length := h6 r (by simp)
    refine ⟨r, ⟨h1, h2, h3, ?_, ?_, ?_, ?_⟩, rfl, rfl, rfl, rfl⟩
    · intro x hx
      obtain ⟨k, hk, rfl⟩ := List.getElem_of_mem hx
      simp only [List.length_modify] at hk
      simp only [List.getElem_modify]
      have := h4 nodes[k] (List.getElem_mem _)
      split
      · rw [List.length_map]; exact this
      · exact this
    · simpa using h5
    · intro i hi
      simp only [List.length_modify]
      exact h6 i (by simpa using hi)
    · intro j i ch q hj hq'
      simp only at hj ⊢
      rw [List.getElem?_append] at hj
      split at hj
      · have hne : r ≠ i := by
          rw [List.nodup_append] at h5
          exact fun he => h5.2.2 i (List.mem_of_getElem? hj) r (by simp) he.symm
        have := h7 j i ch q hj hq'
        simp only [chunkAt] at this ⊢
        rw [modify_ne _ _ hne]
        exact this
      · have hji : j = frames.length ∧ i = r := by
          rw [List.getElem?_singleton] at hj
          split at hj
          · simp only [Option.some.injEq] at hj; exact ⟨by omega, hj.symm⟩
          · cases hj
        obtain ⟨rfl, rfl⟩ := hji
        rw [hq ch q hq']
        have hch : ch < channels := by rw [← h1]; exact (List.getElem?_eq_some_iff.mp hq').1
        simp only [chunkAt]
        have hlen := h4 nodes[i] (List.getElem_mem _)
        rw [modify_self, List.getElem?_eq_getElem hr]
        simp only [Option.map_some, Option.bind_some, List.getElem?_map]
        rw [List.getElem?_eq_getElem (by omega)]
        rfl

private theorem ensure_holds {f : SubstreamFrames S} {qs : List (List S)} (h : Holds f qs) :
    Holds f.ensureNonEmpty qs ∧ f.ensureNonEmpty.frames ≠ [] ∧ f.ensureNonEmpty.channels = f.channels ∧
      f.ensureNonEmpty.perFrame = f.perFrame := by
  unfold SubstreamFrames.ensureNonEmpty
  by_cases he : f.frames = []
  · rw [if_pos (by rw [he]; rfl)]
    have hnil := h.none he
    obtain ⟨r, hb, hf, hc, h1, h2⟩ := append_base h.base (by intro q hq; rw [hnil q hq]; simp)
    rw [he, List.nil_append] at hf
    simp only
    refine ⟨⟨⟨by rw [hb.len], ?_, hb.pos, hb.shape, hb.nodup, hb.bound, hb.chunk⟩, ?_, ?_, ?_⟩, by rw [hf]; simp, h1, h2⟩
    · simp only [List.length_replicate]; rw [hb.cur]
    · intro h; simp only [hf] at h; cases h
    · intro _ ch q hq
      have hq0 := hnil q (List.mem_of_getElem? hq)
      refine ⟨0, ⟨by simp only [hf]; simp, ?_, by simp, by rw [hq0]; simp⟩, .inl rfl⟩
      have hch : ch < f.appendEmptyFrame.current.length := by
        rw [hb.cur, ← hb.len]
        exact (List.getElem?_eq_some_iff.mp hq).1
      simp only [List.getElem?_replicate, if_pos hch, hf, List.head?_cons, List.getElem?_cons_zero]
    · left
      simp [hf]
  · rw [if_neg (by simpa using he)]
    exact ⟨h, he, rfl, rfl⟩

private theorem following_at : ∀ (l : List Nat) (p : Nat) (i j : Nat), l.Nodup → l[p]? = some i → l[p + 1]? = some j →
    SubstreamFrames.following i l = some j := by
  intro l
  induction l with
  | nil => intro p i j _ h; simp at h
  | cons a l ih =>
    intro p i j hn h1 h2
    cases l with
    | nil => simp at h2
    | cons b l =>
      unfold SubstreamFrames.following
      cases p with
      | zero =>
        simp only [List.getElem?_cons_zero, Option.some.injEq] at h1
        simp only [Nat.zero_add, List.getElem?_cons_succ, List.getElem?_cons_zero, Option.some.injEq] at h2
        rw [if_pos h1, h2]
      | succ p =>
        rw [List.getElem?_cons_succ] at h1 h2
        have : a ≠ i := by
          rintro rfl
          exact (List.nodup_cons.mp hn).1 (List.mem_of_getElem? h1)
        rw [if_neg this]
        exact ih p i j (List.nodup_cons.mp hn).2 h1 h2

private theorem index_unique {l : List Nat} (hn : l.Nodup) {j k i : Nat} (h1 : l[j]? = some i) (h2 : l[k]? = some i) : j = k := by
  exact (List.getElem?_inj (List.getElem?_eq_some_iff.mp h1).1 hn).mp (h1.trans h2.symm)

/-- Adding samples at the end of a frame that is not full. -/
private theorem add_holds {f : SubstreamFrames S} {qs : List (List S)} {ch p i : Nat} {q s : List S} (hb : Base f qs)
    (hchan : ∀ (c : Nat) (x : List S), c ≠ ch → qs[c]? = some x → ∃ p, Cur f c x p ∧ (p = 0 ∨ p * f.perFrame < x.length))
    (hq : qs[ch]? = some q) (hp : Cur f ch q p) (hi : f.frames[p]? = some i) (hs : s ≠ []) (hlt : q.length + s.length ≤ (p + 1) * f.perFrame)
    (hused : f.frames.length ≤ p + 1 ∨ ∃ x ∈ qs, (f.frames.length - 1) * f.perFrame < x.length) :
    Holds (f.add i ch s) (qs.set ch (q ++ s)) := by
  obtain ⟨channels, n, nodes, frames, recycled, current⟩ := f
  obtain ⟨h1, h2, h3, h4, h5, h6, h7⟩ := hb
  simp only at h1 h2 h3 h4 h5 h6 hchan hi hlt hused h7
  obtain ⟨p1, p2, p3, p4⟩ := hp
  simp only at p1 p2 p3 p4
  have hsl : 0 < s.length := List.length_pos_iff.mpr hs
  have hcl : ch < qs.length := (List.getElem?_eq_some_iff.mp hq).1
  have hnf : frames.Nodup := (List.nodup_append.mp h5).1
  unfold SubstreamFrames.add
  refine ⟨⟨by simpa using h1, h2, h3, ?_, h5, by simpa using h6, ?_⟩, ?_, ?_, ?_⟩
  · intro x hx
    obtain ⟨k, hk, rfl⟩ := List.getElem_of_mem hx
    simp only [List.length_modify] at hk
    simp only [List.getElem_modify]
    have := h4 nodes[k] (List.getElem_mem _)
    split
    · rw [List.length_modify]; exact this
    · exact this
  · intro j i' c x hj hx
    simp only at hj ⊢
    simp only [chunkAt]
    by_cases hc : c = ch
    · subst hc
      rw [List.getElem?_set_self hcl, Option.some.injEq] at hx
      subst hx
      have hold := h7 j i' c q hj hq
      simp only [chunkAt] at hold
      by_cases hii : i = i'
      · subst hii
        obtain rfl := index_unique hnf hi hj
        rw [modify_self]
        cases hn : nodes[i]? with
        | none => rw [hn] at hold; cases hold
        | some frame =>
          rw [hn] at hold
          simp only [Option.bind_some] at hold
          simp only [Option.map_some, Option.bind_some, modify_self, hold, Option.some.injEq]
          rw [List.drop_append_of_le_length p3, List.take_of_length_le (by rw [List.length_drop]; rw [Nat.succ_mul] at p4; omega),
            List.take_of_length_le (by rw [List.length_append, List.length_drop]; rw [Nat.succ_mul] at hlt; omega)]
      · rw [modify_ne _ _ hii]
        have hjp : j ≠ p := by
          rintro rfl
          rw [hi] at hj
          exact hii (Option.some.inj hj)
        rw [hold]
        congr 1
        by_cases hlt' : j < p
        · have : (j + 1) * n ≤ p * n := Nat.mul_le_mul_right _ hlt'
          rw [Nat.succ_mul] at this
          rw [List.drop_append_of_le_length (by omega), List.take_append_of_le_length (by rw [List.length_drop]; omega)]
        · have : (p + 1) * n ≤ j * n := Nat.mul_le_mul_right _ (by omega)
          rw [List.drop_eq_nil_of_le (by omega), List.drop_eq_nil_of_le (by rw [List.length_append]; omega)]
    · rw [List.getElem?_set_ne (fun h => hc h.symm)] at hx
      have hold := h7 j i' c x hj hx
      simp only [chunkAt] at hold
      rw [← hold]
      by_cases hii : i = i'
      · subst hii
        rw [modify_self]
        cases hn : nodes[i]? with
        | none => rfl
        | some frame =>
          simp only [Option.map_some, Option.bind_some]
          rw [modify_ne _ _ (fun h => hc (Eq.symm h))]
      · rw [modify_ne _ _ hii]
  · intro he
    simp only at he
    rw [he] at p1
    simp at p1
  · intro _ c x hx
    by_cases hc : c = ch
    · subst hc
      rw [List.getElem?_set_self hcl, Option.some.injEq] at hx
      subst hx
      refine ⟨p, ⟨p1, p2, by simp only [List.length_append]; omega, by simp only [List.length_append]; omega⟩, .inr ?_⟩
      simp only [List.length_append]
      omega
    · rw [List.getElem?_set_ne (fun h => hc h.symm)] at hx
      obtain ⟨p', c', hp'⟩ := hchan c x hc hx
      exact ⟨p', ⟨c'.1, c'.2, c'.3, c'.4⟩, hp'⟩
  · simp only
    rcases hused with hu | ⟨x, hx, hu⟩
    · right
      refine ⟨q ++ s, List.mem_iff_getElem?.mpr ⟨ch, List.getElem?_set_self hcl⟩, ?_⟩
      have : (frames.length - 1) * n ≤ p * n := Nat.mul_le_mul_right _ (by omega)
      rw [List.length_append]
      omega
    · right
      obtain ⟨k, hk⟩ := List.mem_iff_getElem?.mp hx
      by_cases hkc : k = ch
      · subst hkc
        rw [hq] at hk
        cases hk
        exact ⟨q ++ s, List.mem_iff_getElem?.mpr ⟨k, List.getElem?_set_self hcl⟩, by rw [List.length_append]; omega⟩
      · exact ⟨x, List.mem_iff_getElem?.mpr ⟨k, by rw [List.getElem?_set_ne (fun h => hkc h.symm)]; exact hk⟩, hu⟩

private theorem nonFull_spec {f : SubstreamFrames S} {qs : List (List S)} (h : Holds f qs) {ch : Nat} {q : List S} (hq : qs[ch]? = some q) :
    ∃ i g, f.nonFullFrame ch = .ok (i, g) ∧ g.perFrame = f.perFrame ∧ g.channels = f.channels ∧
      ((g.nodes.getD i []).getD ch []).length = q.length % f.perFrame ∧
      ∀ s, s ≠ [] → s.length + q.length % f.perFrame ≤ f.perFrame → Holds (g.add i ch s) (qs.set ch (q ++ s)) := by
  obtain ⟨he, hne, ec, en⟩ := ensure_holds h
  unfold SubstreamFrames.nonFullFrame
  simp only
  rw [← en, ← ec]
  generalize f.ensureNonEmpty = f at he hne
  clear h ec en
  obtain ⟨p, hp, hp0⟩ := he.chan hne ch q hq
  have hi : ∃ i, f.frames[p]? = some i := ⟨_, List.getElem?_eq_getElem hp.inside⟩
  obtain ⟨i, hi⟩ := hi
  have hn := he.base.pos
  have hnf : f.frames.Nodup := (List.nodup_append.mp he.base.nodup).1
  have hchunk := he.base.chunk p i ch q hi hq
  have hiter := hp.iter
  rw [hi] at hiter
  rw [hiter]
  simp only
  have hck : f.nodes[i]?.bind (fun frame => frame[ch]?) = some ((q.drop (p * f.perFrame)).take f.perFrame) := hchunk
  rw [hck]
  simp only
  have hupper := hp.upper
  have hlower := hp.lower
  rw [Nat.succ_mul] at hupper
  have hlen : ((q.drop (p * f.perFrame)).take f.perFrame).length = q.length - p * f.perFrame := by
    rw [List.length_take, List.length_drop]; omega
  rw [hlen]
  have getD_of : ∀ {g : SubstreamFrames S} {k : Nat} {x : List S}, chunkAt g k ch = some x → (g.nodes.getD k []).getD ch [] = x := by
    intro g k x hx
    simp only [chunkAt, Option.bind_eq_some_iff] at hx
    obtain ⟨frame, h1, h2⟩ := hx
    simp [List.getD_eq_getElem?_getD, h1, h2]
  have mod_of : ∀ k : Nat, q.length - k * f.perFrame < f.perFrame → k * f.perFrame ≤ q.length → q.length % f.perFrame = q.length - k * f.perFrame := by
    intro k hlt hle
    have e : q.length = (q.length - k * f.perFrame) + k * f.perFrame := by omega
    rw [e, Nat.add_mul_mod_self_right, Nat.mod_eq_of_lt (by omega)]
    omega
  by_cases hfull : q.length - p * f.perFrame = f.perFrame
  · rw [if_pos hfull]
    have hql : q.length = (p + 1) * f.perFrame := by rw [Nat.succ_mul]; omega
    have hmod : q.length % f.perFrame = 0 := by rw [hql]; exact Nat.mul_mod_left _ _
    by_cases hlast : f.frames.getLast? = some i
    · rw [if_pos hlast]
      have hpl : p + 1 = f.frames.length := by
        rw [List.getLast?_eq_getElem?] at hlast
        have := index_unique hnf hi hlast
        have := hp.inside
        omega
      have hall : ∀ x ∈ qs, x.length ≤ f.frames.length * f.perFrame := by
        intro x hx
        obtain ⟨c, hc⟩ := List.mem_iff_getElem?.mp hx
        obtain ⟨p', cp, -⟩ := he.chan hne c x hc
        exact Nat.le_trans cp.upper (Nat.mul_le_mul_right _ cp.inside)
      obtain ⟨r, hb, hf, hc, h1, h2⟩ := append_base he.base hall
      generalize hg : f.appendEmptyFrame = g at hb hf hc h1 h2
      have hgn : g.frames.Nodup := (List.nodup_append.mp hb.nodup).1
      have hgi : g.frames[p]? = some i := by rw [hf, List.getElem?_append_left hp.inside]; exact hi
      have hgr : g.frames[p + 1]? = some r := by rw [hf, hpl, List.getElem?_concat_length]
      have hnext : g.next i = some r := by
        unfold SubstreamFrames.next
        rw [if_pos (List.mem_of_getElem? hgi)]
        exact following_at _ p i r hgn hgi hgr
      rw [hnext]
      have hcl : ch < f.current.length := by rw [he.base.cur, ← he.base.len]; exact (List.getElem?_eq_some_iff.mp hq).1
      refine ⟨r, _, rfl, h2, h1, ?_, ?_⟩
      · have hx : chunkAt g r ch = some [] := by
          rw [hb.chunk (p + 1) r ch q hgr hq, h2, List.drop_eq_nil_of_le (by omega)]
          simp
        rw [hmod]
        have := getD_of hx
        simp only
        rw [this]
        rfl
      · intro s hs hsl
        refine add_holds (p := p + 1) ⟨hb.len, ?_, hb.pos, hb.shape, hb.nodup, hb.bound, hb.chunk⟩ ?_ hq ⟨?_, ?_, ?_, ?_⟩ hgr hs ?_ ?_
        · simp only [List.length_set]; exact hb.cur
        · intro c x hc' hx
          obtain ⟨p', cp, hp'⟩ := he.chan hne c x hx
          refine ⟨p', ⟨?_, ?_, by simp only [h2]; exact cp.lower, by simp only [h2]; exact cp.upper⟩, by simp only [h2]; exact hp'⟩
          · simp only [hf, List.length_append]; have := cp.inside; omega
          · simp only
            rw [List.getElem?_set_ne (fun h => hc' h.symm), hc, hf, List.getElem?_append_left cp.inside]
            exact cp.iter
        · simp only [hf, List.length_append, List.length_cons, List.length_nil]; omega
        · simp only
          rw [List.getElem?_set_self (by rw [hc]; exact hcl), hgr]
        · simp only [h2]; omega
        · simp only [h2]; rw [hql]; exact Nat.mul_le_mul_right _ (by omega)
        · simp only [h2]; rw [Nat.succ_mul (p + 1)]; omega
        · left; simp only [hf, List.length_append, List.length_cons, List.length_nil]; omega
    · rw [if_neg hlast]
      have hpl : p + 1 < f.frames.length := by
        rw [List.getLast?_eq_getElem?] at hlast
        have := hp.inside
        refine Decidable.byContradiction fun hcon => ?_
        have : p = f.frames.length - 1 := by omega
        rw [← this] at hlast
        exact hlast hi
      obtain ⟨r, hr⟩ : ∃ r, f.frames[p + 1]? = some r := ⟨_, List.getElem?_eq_getElem hpl⟩
      have hnext : f.next i = some r := by
        unfold SubstreamFrames.next
        rw [if_pos (List.mem_of_getElem? hi)]
        exact following_at _ p i r hnf hi hr
      rw [hnext]
      have hcl : ch < f.current.length := by rw [he.base.cur, ← he.base.len]; exact (List.getElem?_eq_some_iff.mp hq).1
      refine ⟨r, _, rfl, rfl, rfl, ?_, ?_⟩
      · have hx : chunkAt f r ch = some [] := by
          rw [he.base.chunk (p + 1) r ch q hr hq, List.drop_eq_nil_of_le (by omega)]
          simp
        rw [hmod]
        have := getD_of hx
        simp only
        rw [this]
        rfl
      · intro s hs hsl
        have hb := he.base
        refine add_holds (p := p + 1) ⟨hb.len, ?_, hb.pos, hb.shape, hb.nodup, hb.bound, hb.chunk⟩ ?_ hq ⟨hpl, ?_, by simp only; omega, ?_⟩ hr hs ?_ ?_
        · simp only [List.length_set]; exact hb.cur
        · intro c x hc' hx
          obtain ⟨p', cp, hp'⟩ := he.chan hne c x hx
          refine ⟨p', ⟨cp.inside, ?_, cp.lower, cp.upper⟩, hp'⟩
          simp only
          rw [List.getElem?_set_ne (fun h => hc' h.symm)]
          exact cp.iter
        · simp only
          rw [List.getElem?_set_self hcl, hr]
        · simp only; rw [hql]; exact Nat.mul_le_mul_right _ (by omega)
        · simp only; rw [Nat.succ_mul (p + 1)]; omega
        · simp only
          rcases he.used with hu | hu
          · omega
          · exact .inr hu
  · rw [if_neg hfull]
    have hmod := mod_of p (by omega) hlower
    refine ⟨i, f, rfl, rfl, rfl, ?_, ?_⟩
    · rw [getD_of hchunk, hlen, hmod]
    · intro s hs hsl
      refine add_holds he.base (fun c x _ hx => he.chan hne c x hx) hq hp hi hs (by rw [Nat.succ_mul]; omega) ?_
      rcases he.used with hu | hu
      · left; omega
      · exact .inr hu

/-! ### The operations -/

/-- A new object holds nothing. -/
theorem holds_create (channels n : Nat) (hn : 0 < n) : Holds (SubstreamFrames.create channels n) (List.replicate channels ([] : List S)) := by
  unfold SubstreamFrames.create
  refine (ensure_holds ⟨⟨by simp, by simp, hn, by simp, by simp, by simp, by simp⟩, ?_, by simp, .inl (by simp)⟩).1
  intro _ q hq
  exact (List.mem_replicate.mp hq).2

theorem Holds.len {f : SubstreamFrames S} {qs : List (List S)} (h : Holds f qs) : qs.length = f.channels := h.base.len

theorem Holds.pos {f : SubstreamFrames S} {qs : List (List S)} (h : Holds f qs) : 0 < f.perFrame := h.base.pos

/-- `PushSample` adds at the end. -/
theorem holds_push {f : SubstreamFrames S} {qs : List (List S)} (h : Holds f qs) {ch : Nat} (hch : ch < qs.length) (s : S) :
    ∃ g, f.push ch s = .ok g ∧ Holds g (qs.modify ch (· ++ [s])) ∧ g.perFrame = f.perFrame ∧ g.channels = f.channels := by
  unfold SubstreamFrames.push
  rw [if_neg (by rw [← h.len]; omega)]
  have hq : qs[ch]? = some qs[ch] := List.getElem?_eq_getElem hch
  obtain ⟨i, g, h1, h2, h3, h4, h5⟩ := nonFull_spec h hq
  rw [h1]
  refine ⟨_, rfl, ?_, h2, h3⟩
  have hm := Nat.mod_lt qs[ch].length h.pos
  have := h5 [s] (by simp) (by simp only [List.length_cons, List.length_nil]; omega)
  rwa [show qs.set ch (qs[ch] ++ [s]) = qs.modify ch (· ++ [s]) by
    apply List.ext_getElem?
    intro c
    by_cases hc : ch = c
    · subst hc; rw [List.getElem?_set_self hch, modify_self, hq]; rfl
    · rw [List.getElem?_set_ne hc, modify_ne _ _ hc]] at this

private theorem pad_channels (zero : S) (left n c : Nat) (hl : 0 < left) : ∀ (cs : List Nat) (f : SubstreamFrames S) (qs : List (List S)) (added : Nat),
    Holds f qs → f.perFrame = n → cs.Nodup → (∀ ch ∈ cs, ∃ q, qs[ch]? = some q ∧ q.length = c) →
    ∃ g qs', SubstreamFrames.padChannels zero left cs added f = .ok (if cs = [] then added else min (n - c % n) left, g) ∧ Holds g qs' ∧
      g.perFrame = n ∧ g.channels = f.channels ∧
      ∀ ch, qs'[ch]? = if ch ∈ cs then qs[ch]?.map (· ++ List.replicate (min (n - c % n) left) zero) else qs[ch]? := by
  intro cs
  induction cs with
  | nil => intro f qs added h hf _ _; exact ⟨f, qs, rfl, h, hf, rfl, by simp⟩
  | cons ch cs ih =>
    intro f qs added h hf hnd hcs
    obtain ⟨q, hq, hqc⟩ := hcs ch (List.mem_cons_self ..)
    obtain ⟨i, g, h1, h2, h3, h4, h5⟩ := nonFull_spec h hq
    have hpos := h.pos
    have hm := Nat.mod_lt c (hf ▸ hpos)
    unfold SubstreamFrames.padChannels
    simp only [h1, Bind.bind, Except.bind]
    rw [h2, h4, hf, hqc, if_neg (by omega)]
    obtain ⟨hnd1, hnd2⟩ := List.nodup_cons.mp hnd
    have hH := h5 (List.replicate (min (n - c % n) left) zero) (by
      intro he
      have := congrArg List.length he
      simp only [List.length_replicate, List.length_nil] at this
      omega) (by rw [List.length_replicate, hf, hqc]; omega)
    obtain ⟨g', qs', k1, k2, k3, k4, k5⟩ := ih _ _ (min (n - c % n) left) hH (by show g.perFrame = n; rw [h2, hf]) hnd2 (by
      intro c' hc'
      have hne : c' ≠ ch := fun he => hnd1 (he ▸ hc')
      obtain ⟨q', hq', hl'⟩ := hcs c' (List.mem_cons_of_mem _ hc')
      exact ⟨q', by rw [List.getElem?_set_ne (fun h => hne h.symm)]; exact hq', hl'⟩)
    refine ⟨g', qs', ?_, k2, k3, k4.trans h3, ?_⟩
    · rw [k1]
      simp
    · intro c'
      rw [k5 c']
      by_cases hc' : c' = ch
      · subst hc'
        rw [if_neg hnd1, if_pos (List.mem_cons_self ..), List.getElem?_set_self (List.getElem?_eq_some_iff.mp hq).1, hq]
        rfl
      · rw [List.getElem?_set_ne (fun h => hc' h.symm)]
        simp [hc']

private theorem pad_loop (zero : S) : ∀ (fuel left : Nat) (f : SubstreamFrames S) (qs : List (List S)) (c : Nat), left ≤ fuel → Holds f qs → 0 < f.channels →
    (∀ q ∈ qs, q.length = c) → ∃ g, SubstreamFrames.padLoop zero fuel left f = .ok g ∧ Holds g (qs.map (· ++ List.replicate left zero)) ∧
      g.perFrame = f.perFrame ∧ g.channels = f.channels := by
  intro fuel
  induction fuel with
  | zero =>
    intro left f qs c hl h _ _
    obtain rfl : left = 0 := by omega
    refine ⟨f, rfl, by simpa using h, rfl, rfl⟩
  | succ fuel ih =>
    intro left f qs c hl h hc hq
    cases left with
    | zero => exact ⟨f, rfl, by simpa using h, rfl, rfl⟩
    | succ left =>
      unfold SubstreamFrames.padLoop
      obtain ⟨g, qs', k1, k2, k3, k4, k5⟩ := pad_channels zero (left + 1) f.perFrame c (by omega) (List.range f.channels) f qs 0 h rfl
        List.nodup_range (by
          intro ch hch
          have : ch < qs.length := by rw [h.len]; exact List.mem_range.mp hch
          exact ⟨qs[ch], List.getElem?_eq_getElem this, hq _ (List.getElem_mem _)⟩)
      have hne : List.range f.channels ≠ [] := by simp; omega
      rw [if_neg hne] at k1
      have hm := Nat.mod_lt c h.pos
      obtain ⟨k, hk⟩ : ∃ k, k = min (f.perFrame - c % f.perFrame) (left + 1) := ⟨_, rfl⟩
      rw [← hk] at k1 k5
      have hqs' : qs' = qs.map (· ++ List.replicate k zero) := by
        apply List.ext_getElem?
        intro ch
        rw [k5 ch, List.getElem?_map]
        by_cases hch : ch ∈ List.range f.channels
        · rw [if_pos hch]
        · rw [if_neg hch]
          have : qs[ch]? = none := List.getElem?_eq_none (by rw [h.len]; simpa using hch)
          rw [this]
          rfl
      subst hqs'
      obtain ⟨g', j1, j2, j3, j4⟩ := ih (left + 1 - k) g _ (c + k) (by omega) k2 (by rw [k4]; exact hc) (by
        intro q hq'
        obtain ⟨q0, hq0, rfl⟩ := List.mem_map.mp hq'
        rw [List.length_append, List.length_replicate, hq q0 hq0])
      refine ⟨g', ?_, ?_, j3.trans k3, j4.trans k4⟩
      · simp only [k1, Bind.bind, Except.bind, j1]
      · rw [List.map_map] at j2
        have : ((fun x => x ++ List.replicate (left + 1 - k) zero) ∘ fun x => x ++ List.replicate k zero) =
            fun x : List S => x ++ List.replicate (left + 1) zero := by
          funext x
          simp only [Function.comp, List.append_assoc, List.replicate_append_replicate]
          rw [show k + (left + 1 - k) = left + 1 by omega]
        rwa [this] at j2

/-- `PadZeros` adds zeros at the end of every channel. -/
theorem holds_pad {f : SubstreamFrames S} {qs : List (List S)} (h : Holds f qs) (hc : 0 < f.channels) (zero : S) (k : Nat)
    (hb : Balanced qs) : ∃ g, f.padZeros zero k = .ok g ∧ Holds g (qs.map (· ++ List.replicate k zero)) ∧ g.perFrame = f.perFrame ∧
      g.channels = f.channels := by
  obtain ⟨c, hb⟩ := hb
  exact pad_loop zero k k f qs c (Nat.le_refl _) h hc hb

/-- `Front` is the first frame. -/
theorem holds_front {f : SubstreamFrames S} {qs : List (List S)} (h : Holds f qs) :
    ∃ g, f.front = .ok (qs.map (List.take f.perFrame), g) ∧ Holds g qs ∧ g.perFrame = f.perFrame ∧ g.channels = f.channels := by
  obtain ⟨he, hne, ec, en⟩ := ensure_holds h
  unfold SubstreamFrames.front
  rw [← en, ← ec]
  generalize f.ensureNonEmpty = g at he hne
  simp only
  cases hf : g.frames with
  | nil => exact absurd hf hne
  | cons i is =>
    have hi : i < g.nodes.length := he.base.bound i (by rw [hf]; simp)
    simp only
    rw [List.getElem?_eq_getElem hi]
    have hframe : g.nodes[i] = qs.map (List.take g.perFrame) := by
      have hsh := he.base.shape g.nodes[i] (List.getElem_mem _)
      apply List.ext_getElem?
      intro ch
      rw [List.getElem?_map]
      by_cases hch : ch < qs.length
      · have hq : qs[ch]? = some qs[ch] := List.getElem?_eq_getElem hch
        have := he.base.chunk 0 i ch qs[ch] (by rw [hf]; rfl) hq
        simp only [chunkAt, List.getElem?_eq_getElem hi, Option.bind_some, Nat.zero_mul, List.drop_zero] at this
        rw [this, hq]
        rfl
      · rw [List.getElem?_eq_none (by rw [hsh, ← he.len]; omega), List.getElem?_eq_none (by omega)]
        rfl
    rw [hframe]
    exact ⟨g, rfl, he, rfl, rfl⟩

/-- `Empty` tells whether there are samples. -/
theorem holds_empty {f : SubstreamFrames S} {qs : List (List S)} (h : Holds f qs) : f.empty = qs.all List.isEmpty := by
  unfold SubstreamFrames.empty
  rw [Bool.eq_iff_iff]
  simp only [List.all_eq_true, List.isEmpty_iff]
  constructor
  · intro ha q hq
    by_cases hf : f.frames = []
    · exact h.none hf q hq
    · obtain ⟨ch, hch⟩ := List.mem_iff_getElem?.mp hq
      cases hfr : f.frames with
      | nil => exact absurd hfr hf
      | cons i is =>
        have hi : i < f.nodes.length := h.base.bound i (by rw [hfr]; simp)
        have hc := h.base.chunk 0 i ch q (by rw [hfr]; rfl) hch
        have := ha i (by rw [hfr]; simp)
        simp only [chunkAt, List.getElem?_eq_getElem hi, Option.bind_some, Nat.zero_mul, List.drop_zero] at hc
        rw [List.getD_eq_getElem?_getD, List.getElem?_eq_getElem hi] at this
        have := this _ (List.mem_of_getElem? hc)
        have hp := h.pos
        cases q with
        | nil => rfl
        | cons a q =>
          cases hn : f.perFrame with
          | zero => omega
          | succ n => rw [hn] at this; cases this
  · intro ha i hi x hx
    have hb : i < f.nodes.length := h.base.bound i (List.mem_append_left _ hi)
    rw [List.getD_eq_getElem?_getD, List.getElem?_eq_getElem hb] at hx
    simp only [Option.getD_some] at hx
    obtain ⟨ch, hch⟩ := List.mem_iff_getElem?.mp hx
    obtain ⟨j, hj⟩ := List.mem_iff_getElem?.mp hi
    have hlt : ch < qs.length := by
      rw [h.len, ← h.base.shape _ (List.getElem_mem hb)]
      exact (List.getElem?_eq_some_iff.mp hch).1
    have := h.base.chunk j i ch qs[ch] hj (List.getElem?_eq_getElem hlt)
    simp only [chunkAt, List.getElem?_eq_getElem hb, Option.bind_some, hch] at this
    rw [ha _ (List.getElem_mem hlt)] at this
    simpa using this

/-- `PopFront` takes the first frame away. -/
theorem holds_pop {f : SubstreamFrames S} {qs : List (List S)} (h : Holds f qs) (hb : Balanced qs) :
    Holds f.popFront (qs.map (List.drop f.perFrame)) ∧ f.popFront.perFrame = f.perFrame ∧ f.popFront.channels = f.channels := by
  obtain ⟨c, hc⟩ := hb
  obtain ⟨channels, n, nodes, frames, recycled, current⟩ := f
  obtain ⟨⟨h1, h2, h3, h4, h5, h6, h7⟩, hnone, hchan, hused⟩ := h
  simp only at h1 h2 h3 h4 h5 h6 h7 hnone hchan hused
  unfold SubstreamFrames.popFront
  cases frames with
  | nil =>
    simp only [and_self, and_true]
    have : qs.map (List.drop n) = qs := by
      rw [show qs.map (List.drop n) = qs.map _root_.id from List.map_congr_left fun q hq => by rw [hnone rfl q hq]; simp]
      simp
    rw [this]
    exact ⟨⟨h1, h2, h3, h4, h5, h6, h7⟩, hnone, hchan, hused⟩
  | cons i is =>
    simp only [and_self, and_true]
    have hmap : ∀ (ch : Nat) (x : List S), (qs.map (List.drop n))[ch]? = some x → ∃ q, qs[ch]? = some q ∧ x = q.drop n := by
      intro ch x hx
      rw [List.getElem?_map] at hx
      obtain ⟨q, hq, rfl⟩ := Option.map_eq_some_iff.mp hx
      exact ⟨q, hq, rfl⟩
    have hperm : (is ++ (recycled ++ [i])).Perm (i :: is ++ recycled) := by
      rw [← List.append_assoc]
      exact List.perm_append_singleton i (is ++ recycled)
    refine ⟨⟨by simpa using h1, h2, h3, h4, hperm.nodup_iff.mpr h5, fun k hk => h6 k (hperm.mem_iff.mp hk), ?_⟩, ?_, ?_, ?_⟩
    · intro j k ch x hj hx
      obtain ⟨q, hq, rfl⟩ := hmap ch x hx
      have := h7 (j + 1) k ch q (by rw [List.getElem?_cons_succ]; exact hj) hq
      simp only at this ⊢
      rw [List.drop_drop]
      rw [Nat.succ_mul, Nat.add_comm] at this
      exact this
    · intro he x hx
      simp only at he
      subst he
      obtain ⟨ch, hch⟩ := List.mem_iff_getElem?.mp hx
      obtain ⟨q, hq, rfl⟩ := hmap ch x hch
      obtain ⟨p, cp, -⟩ := hchan (by simp) ch q hq
      have h8 := cp.inside
      have h9 := cp.upper
      simp only [List.length_cons, List.length_nil] at h8 h9
      obtain rfl : p = 0 := by omega
      exact List.drop_eq_nil_of_le (by omega)
    · intro hne ch x hx
      simp only at hne
      obtain ⟨q, hq, rfl⟩ := hmap ch x hx
      obtain ⟨p, cp, hp⟩ := hchan (by simp) ch q hq
      have hcq := hc q (List.mem_of_getElem? hq)
      have hlen : 0 < is.length := List.length_pos_iff.mpr hne
      have hbig : n < q.length := by
        rcases hused with hu | ⟨x, hx', hu⟩
        · simp only [List.length_cons] at hu; omega
        · rw [hc x hx'] at hu
          simp only [List.length_cons, Nat.add_sub_cancel] at hu
          have : 1 * n ≤ is.length * n := Nat.mul_le_mul_right _ hlen
          omega
      have hup := cp.upper
      have hlo := cp.lower
      simp only at hup hlo
      cases p with
      | zero => simp only [Nat.zero_add, Nat.one_mul] at hup; omega
      | succ p =>
        have e : (p + 1) * n = p * n + n := Nat.succ_mul ..
        have e2 : (p + 1 + 1) * n = p * n + n + n := by rw [Nat.succ_mul, e]
        have hin := cp.inside
        have hit := cp.iter
        simp only [List.length_cons, List.getElem?_cons_succ] at hin hit
        refine ⟨p, ⟨by simp only; omega, hit, by simp only [List.length_drop]; omega, by simp only [List.length_drop, Nat.succ_mul]; omega⟩, ?_⟩
        simp only [List.length_drop]
        rcases hp with hp | hp
        · cases hp
        · right; omega
    · simp only
      rcases hused with hu | ⟨x, hx, hu⟩
      · simp only [List.length_cons] at hu; left; omega
      · simp only [List.length_cons, Nat.add_sub_cancel] at hu
        cases is with
        | nil => left; simp
        | cons k ks =>
          right
          refine ⟨x.drop n, List.mem_map_of_mem hx, ?_⟩
          simp only [List.length_cons, Nat.add_sub_cancel] at hu ⊢
          rw [Nat.succ_mul] at hu
          rw [List.length_drop]
          omega

/-! ### C43 -/

private theorem run_queue (n : Nat) (zero : S) {qs : List (List S)} {ops : List (FramesOp S)} {saws : List (FramesSaw S)}
    (h : QueueRun n zero qs ops saws) : ∀ f : SubstreamFrames S, Holds f qs → f.perFrame = n → 0 < f.channels → framesRun zero ops f = .ok saws := by
  induction h with
  | done => intro f _ _ _; rfl
  | @next qs op ops saws ha _ ih =>
    intro f hf hn hc
    unfold framesRun
    have step : ∀ g, op.run zero f = .ok (g, (op.spec n zero qs).2) → Holds g (op.spec n zero qs).1 → g.perFrame = f.perFrame →
        g.channels = f.channels → (do
          let (g, saw) ← op.run zero f
          let saws ← framesRun zero ops g
          .ok (saw :: saws)) = Except.ok ((op.spec n zero qs).2 :: saws) := by
      intro g h1 h2 h3 h4
      rw [h1]
      simp only [Bind.bind, Except.bind]
      rw [ih g h2 (h3.trans hn) (h4 ▸ hc)]
    cases op with
    | push ch s =>
      obtain ⟨g, h1, h2, h3, h4⟩ := holds_push hf ha s
      exact step g (by simp only [FramesOp.run, h1, Bind.bind, Except.bind, FramesOp.spec]) h2 h3 h4
    | pad k =>
      obtain ⟨g, h1, h2, h3, h4⟩ := holds_pad hf hc zero k ha
      exact step g (by simp only [FramesOp.run, h1, Bind.bind, Except.bind, FramesOp.spec]) h2 h3 h4
    | pop =>
      obtain ⟨h2, h3, h4⟩ := holds_pop hf ha
      rw [hn] at h2
      exact step _ rfl h2 h3 h4
    | front =>
      obtain ⟨g, h1, h2, h3, h4⟩ := holds_front hf
      rw [hn] at h1
      exact step g (by simp only [FramesOp.run, h1, Bind.bind, Except.bind, FramesOp.spec]) h2 h3 h4
    | isEmpty =>
      have := holds_empty hf
      exact step f (by simp only [FramesOp.run, FramesOp.spec, this]) hf rfl rfl

/-- C43: whatever is done with the object that holds the samples waiting for an encoder, it behaves like a queue of samples for each channel:
what is returned is what the queues say, nothing is read or written outside of valid memory, and padding ends.  Padding and removing frames is
only done while all channels have the same number of samples. -/
theorem C43_frames_are_a_queue (channels n : Nat) (hc : 0 < channels) (hn : 0 < n) (zero : S) (ops : List (FramesOp S)) (saws : List (FramesSaw S))
    (h : QueueRun n zero (List.replicate channels []) ops saws) : framesRun zero ops (SubstreamFrames.create channels n) = .ok saws := by
  refine run_queue n zero h _ (holds_create channels n hn) ?_ ?_
  · rfl
  · exact hc

/-- C43, finding F29: if a frame is removed while a channel is ahead of another one, the next sample is written through an iterator past the
end of the list of frames that are to be used again. -/
theorem C43_unequal_channels_break_the_queue (a b c d zero : S) :
    framesRun zero [.push 0 a, .push 0 b, .push 1 c, .pop, .push 1 d] (SubstreamFrames.create 2 1) = .error .ub := rfl

/-- C43: with no channels, padding never ends. -/
theorem C43_no_channels_never_end (n k : Nat) (zero : S) (hk : 0 < k) : (SubstreamFrames.create 0 n).padZeros zero k = .error .diverge := by
  unfold SubstreamFrames.padZeros
  have : ∀ fuel (f : SubstreamFrames S), f.channels = 0 → SubstreamFrames.padLoop zero fuel k f = .error .diverge := by
    intro fuel
    induction fuel with
    | zero => intro f _; cases k with
      | zero => omega
      | succ k => rfl
    | succ fuel ih =>
      intro f hf
      cases k with
      | zero => omega
      | succ k =>
        show (do
          let (j, g) ← SubstreamFrames.padChannels zero (k + 1) (List.range f.channels) 0 f
          SubstreamFrames.padLoop zero fuel (k + 1 - j) g) = _
        rw [hf]
        exact ih f hf
  exact this k _ rfl

/-! ### Examples -/

/-- Two channels, frames of two samples: pushed ahead, filled up, padded and removed. -/
example : QueueRun 2 0 (List.replicate 2 []) [.push 0 1, .push 0 2, .push 0 3, .push 1 4, .push 1 5, .push 1 6, .front, .pop, .pad 1, .front, .pop, .isEmpty]
    [.nothing, .nothing, .nothing, .nothing, .nothing, .nothing, .frame [[1, 2], [4, 5]], .nothing, .nothing, .frame [[3, 0], [6, 0]], .nothing, .flag true] :=
  .next (show 0 < 2 by decide) <| .next (show 0 < 2 by decide) <| .next (show 0 < 2 by decide) <| .next (show 1 < 2 by decide) <|
    .next (show 1 < 2 by decide) <| .next (show 1 < 2 by decide) <| .next trivial <|
    .next ⟨3, by decide⟩ <| .next ⟨1, by decide⟩ <| .next trivial <| .next ⟨2, by decide⟩ <| .next trivial <| .done _

end Iamf.Props
