import Verif.Cli.Partition
import Verif.Props.MixGain
import Verif.Props.Output
/-
  C42: partitioning parameter blocks into blocks of one frame each does not change the parameters over time.
-/
namespace Iamf.Props
open Iamf

/-! ### Specification -/

/-- The one of consecutive stretches of time, with these durations, that the tick `t` is in: its duration, the tick counted from its
beginning, and what is given for it. -/
def stretchAt {α : Type} : List (Nat × α) → Nat → Option (Nat × Nat × α)
  | [], _ => none
  | (d, a) :: l, t => if t < d then some (d, t, a) else stretchAt l (t - d)

/-- How long these stretches last together. -/
def total (l : List (Nat × SubblockContent)) : Nat := (l.map Prod.fst).sum

/-- What the subblocks of a block contain and how long each lasts: together as long as the block.  Either every subblock says how long it
lasts, or the block says it for all of them, and then only the last one may be shorter. -/
def Timeline {H : Type} (b : BlockMetadata H) (l : List (Nat × SubblockContent)) : Prop :=
  l.map Prod.snd = b.subblocks.map SubblockMetadata.content ∧ total l = b.duration.toNat ∧ (∀ x ∈ l, 0 < x.1) ∧
  1 ≤ l.length ∧ l.length ≤ 192000 ∧
  (b.constantSubblockDuration = 0 → l.map Prod.fst = b.subblocks.map fun x => x.duration.toNat) ∧
  (b.constantSubblockDuration ≠ 0 → b.constantSubblockDuration.toNat ≤ b.duration.toNat ∧
    (∀ x ∈ l.dropLast, x.1 = b.constantSubblockDuration.toNat) ∧ ∀ x ∈ l.getLast?, x.1 ≤ b.constantSubblockDuration.toNat)

/-- The content of a subblock can be cut in this way: a subblock from `lo` to `hi` for a part of the block from `start` to `stop`.  Bezier
curves cannot be cut at all; parameters that are not animated can, but only one of them fits into a part. -/
def CanBeCut (start stop lo hi : Int) : SubblockContent → Prop
  | .unset | .mixGain .unset => False
  | .mixGain (.step _) | .mixGain (.linear ..) => True
  | .mixGain (.bezier ..) => start ≤ lo ∧ hi ≤ stop
  | .demixing .. | .reconGain .. => lo ≤ start

/-- What a content `c` at the tick `n` of `d` and a content `c'` at the tick `n'` of `d'` have in common: gains differ by less than 1/256 dB,
and if they are not animated, they are the same; the other contents are the same. -/
def SameAt (d n : Nat) (c : SubblockContent) (d' n' : Nat) (c' : SubblockContent) : Prop :=
  match c, c' with
  | .mixGain g, .mixGain g' => ∃ x x', g.narrowed = some x ∧ g'.narrowed = some x' ∧
      (∀ y y' : Rat, OnCurve x d n y → OnCurve x' d' n' y' → |y' - y| < 1 / 256) ∧
      (∀ s, x = .step s → x' = .step s) ∧ (x.isBezier = true → g' = g ∧ d' = d ∧ n' = n)
  | c, c' => c' = c

/-- The part of a block from `start` to `stop` can be made: the block covers it, and the content of every subblock that reaches into it can
be cut. -/
def Possible {H : Type} (b : BlockMetadata H) (start stop : Int) : Prop :=
  start < stop ∧ b.start ≤ start ∧ stop ≤ b.start + b.duration.toNat ∧ ∃ l, Timeline b l ∧
    ∀ (pre : List (Nat × SubblockContent)) (d : Nat) (c : SubblockContent) (post : List (Nat × SubblockContent)), l = pre ++ (d, c) :: post → start < b.start + total pre + d → b.start + total pre < stop →
      CanBeCut start stop (b.start + total pre) (b.start + total pre + d) c

/-! ### Proof: cutting -/

/-- A subblock from `lo` to `hi`, of which the part from `a` to `b` is used. -/
private structure Cut where
  lo : Int
  hi : Int
  a : Int
  b : Int
  content : SubblockContent

private def cuts (start stop : Int) : Int → List (Nat × SubblockContent) → List Cut
  | _, [] => []
  | now, (d, c) :: l =>
    if now + d ≤ start ∨ stop ≤ now then cuts start stop (now + d) l
    else ⟨now, now + d, max start now, min stop (now + d), c⟩ :: cuts start stop (now + d) l

private theorem cuts_after (start stop : Int) (l : List (Nat × SubblockContent)) : ∀ now, stop ≤ now → cuts start stop now l = [] := by
  induction l with
  | nil => intros; rfl
  | cons x l ih =>
    intro now h
    obtain ⟨d, c⟩ := x
    unfold cuts
    rw [if_pos (.inr h)]
    exact ih _ (by omega)

private theorem cuts_sum (start stop : Int) (h : start < stop) (l : List (Nat × SubblockContent)) : ∀ now,
    ((cuts start stop now l).map fun c => c.b - c.a).sum = max 0 (min stop (now + total l) - max start now) := by
  induction l with
  | nil => intro now; simp only [cuts, List.map_nil, List.sum_nil, total]; omega
  | cons x l ih =>
    intro now
    obtain ⟨d, c⟩ := x
    have ht : (total ((d, c) :: l) : Int) = d + total l := by simp [total]
    unfold cuts
    split
    · rw [ih, ht]; omega
    · rw [List.map_cons, List.sum_cons, ih, ht]
      simp only
      omega

private theorem cuts_split (start stop : Int) (l : List (Nat × SubblockContent)) : ∀ now, ∀ x ∈ cuts start stop now l,
    ∃ (pre : List (Nat × SubblockContent)) (d : Nat) (post : List (Nat × SubblockContent)), l = pre ++ (d, x.content) :: post ∧ x.lo = now + total pre ∧ x.hi = x.lo + d ∧ start < x.hi ∧ x.lo < stop ∧
      x.a = max start x.lo ∧ x.b = min stop x.hi := by
  induction l with
  | nil => intro now x hx; cases hx
  | cons y l ih =>
    intro now x hx
    obtain ⟨d, c⟩ := y
    unfold cuts at hx
    have later : x ∈ cuts start stop (now + d) l →
        ∃ (pre : List (Nat × SubblockContent)) (d' : Nat) (post : List (Nat × SubblockContent)), (d, c) :: l = pre ++ (d', x.content) :: post ∧ x.lo = now + total pre ∧
        x.hi = x.lo + d' ∧ start < x.hi ∧ x.lo < stop ∧ x.a = max start x.lo ∧ x.b = min stop x.hi := by
      intro hx
      obtain ⟨pre, d', post, h1, h2, h3⟩ := ih _ x hx
      refine ⟨(d, c) :: pre, d', post, by rw [h1]; rfl, ?_, h3⟩
      rw [h2]
      simp only [total, List.map_cons, List.sum_cons]
      omega
    split at hx
    · exact later hx
    · rcases List.mem_cons.mp hx with rfl | hx
      · exact ⟨[], d, l, rfl, by simp [total], rfl, by simp only; omega, by simp only; omega, rfl, rfl⟩
      · exact later hx

private theorem split_cuts (start stop : Int) (pre : List (Nat × SubblockContent)) (d : Nat) (c : SubblockContent)
    (post : List (Nat × SubblockContent)) : ∀ now : Int, ¬ (now + total pre + d ≤ start ∨ stop ≤ now + total pre) →
    (⟨now + total pre, now + total pre + d, max start (now + total pre), min stop (now + total pre + d), c⟩ : Cut) ∈
      cuts start stop now (pre ++ (d, c) :: post) := by
  induction pre with
  | nil =>
    intro now h
    simp only [total, List.map_nil, List.sum_nil, List.nil_append, Int.natCast_zero, Int.add_zero] at h ⊢
    unfold cuts
    rw [if_neg h]
    exact List.mem_cons_self ..
  | cons x pre ih =>
    intro now h
    obtain ⟨d', c'⟩ := x
    have ht : now + (total ((d', c') :: pre) : Int) = now + d' + total pre := by simp [total]; omega
    rw [ht] at h ⊢
    rw [List.cons_append]
    unfold cuts
    split
    · exact ih _ h
    · exact List.mem_cons_of_mem _ (ih _ h)

private theorem stretch_cuts (start stop : Int) (l : List (Nat × SubblockContent)) : ∀ now τ : Int, start ≤ τ → τ < stop → now ≤ τ →
    τ < now + total l → ∃ d n c x, stretchAt l (τ - now).toNat = some (d, n, c) ∧ x ∈ cuts start stop now l ∧ x.lo = τ - n ∧
      x.hi = x.lo + d ∧ x.content = c ∧ x.a = max start x.lo ∧ x.b = min stop x.hi ∧ n < d ∧
      stretchAt ((cuts start stop now l).map fun x => ((x.b - x.a).toNat, x)) (τ - max start now).toNat =
        some ((x.b - x.a).toNat, (τ - x.a).toNat, x) := by
  induction l with
  | nil => intro now τ h1 h2 h3 h4; simp only [total, List.map_nil, List.sum_nil] at h4; omega
  | cons y l ih =>
    intro now τ h1 h2 h3 h4
    obtain ⟨d, c⟩ := y
    have ht : (total ((d, c) :: l) : Int) = d + total l := by simp [total]
    by_cases hτ : τ < now + d
    · refine ⟨d, (τ - now).toNat, c, ⟨now, now + d, max start now, min stop (now + d), c⟩, ?_, ?_, ?_, rfl, rfl, rfl, rfl, by omega, ?_⟩
      · unfold stretchAt; rw [if_pos (by omega)]
      · unfold cuts; rw [if_neg (by omega)]; exact List.mem_cons_self ..
      · simp only; omega
      · unfold cuts
        rw [if_neg (by omega), List.map_cons]
        unfold stretchAt
        rw [if_pos (by simp only; omega)]
    · obtain ⟨d', n, c', x, k1, k2, k3, k4, k5, k6, k7, k8, k9⟩ := ih (now + d) τ h1 h2 (by omega) (by omega)
      refine ⟨d', n, c', x, ?_, ?_, k3, k4, k5, k6, k7, k8, ?_⟩
      · unfold stretchAt
        rw [if_neg (by omega), ← k1]
        congr 1
        omega
      · unfold cuts
        split
        · exact k2
        · exact List.mem_cons_of_mem _ k2
      · unfold cuts
        split
        · rw [← k9]
          congr 1
          omega
        · rw [List.map_cons]
          unfold stretchAt
          rw [if_neg (by simp only; omega), ← k9]
          congr 1
          simp only
          omega

/-! ### Proof: contents -/

private theorem except_bind_ok {α β : Type} {x : Except Err α} {f : α → Except Err β} {b : β} (h : (x >>= f) = .ok b) :
    ∃ a, x = .ok a ∧ f a = .ok b := by
  cases x with
  | error e => simp [Bind.bind, Except.bind] at h
  | ok a => exact ⟨a, rfl, h⟩

private theorem trunc_close (x : Rat) : |(truncRat x : Rat) - x| < 1 ∧ (∀ z : Int, x = z → truncRat x = z) := by
  refine ⟨?_, ?_⟩
  · rcases le_total 0 x with h | h
    · obtain ⟨h1, h2, -⟩ := trunc_nonneg h
      rw [abs_lt]; constructor <;> linarith
    · obtain ⟨h1, h2, -⟩ := trunc_nonpos h
      rw [abs_lt]; constructor <;> linarith
  · rintro z rfl
    unfold truncRat
    simp

private theorem trunc_range {x : Rat} {lo hi : Int} (h1 : (lo : Rat) ≤ x) (h2 : x ≤ hi) (h0 : lo ≤ 0) (h3 : 0 ≤ hi) :
    lo ≤ truncRat x ∧ truncRat x ≤ hi := by
  rcases le_total 0 x with h | h
  · obtain ⟨k1, k2, k3⟩ := trunc_nonneg h
    have : (truncRat x : Rat) ≤ hi := by linarith
    exact ⟨by omega, by exact_mod_cast this⟩
  · obtain ⟨k1, k2, k3⟩ := trunc_nonpos h
    have : (lo : Rat) ≤ truncRat x := by linarith
    exact ⟨by exact_mod_cast this, by omega⟩

theorem q78_of (v : Rat) (h1 : -32768 ≤ v) (h2 : v ≤ 32767) :
    ∃ r, floatToQ78 (v / 256) = .ok r ∧ |(r.toInt : Rat) - v| < 1 ∧ ∀ z : Int16, v = z.toInt → r = z := by
  have hv : v / 256 * 256 = v := by field_simp
  refine ⟨Int16.ofInt (truncRat v), ?_, ?_, ?_⟩
  · unfold floatToQ78
    rw [if_neg, hv]
    rintro (h | h) <;> linarith
  · obtain ⟨k1, k2⟩ := trunc_range (x := v) (lo := -32768) (hi := 32767) (by push_cast; exact h1) (by push_cast; exact h2) (by decide) (by decide)
    rw [Int16.toInt_ofInt_of_le (by simpa using k1) (by simp; omega)]
    exact (trunc_close v).1
  · intro z hz
    rw [(trunc_close v).2 z.toInt hz]
    exact Int16.ofInt_toInt z

private theorem step_at (M : GainMath Rat) (s : Int32) (lo hi a : Int) (h1 : lo ≤ a) (h2 : a ≤ hi) :
    (GainMetadata.step s).interpolate M lo hi a = .ok s.toInt16 := by
  have hs := s.toInt16.le_toInt
  have hs' := s.toInt16.toInt_lt
  simp only [Int.reducePow, Int.reduceNeg, Int.reduceSub] at hs hs'
  have k1 : (-32768 : Rat) ≤ s.toInt16.toInt := by exact_mod_cast hs
  have k2 : (s.toInt16.toInt : Rat) ≤ 32767 := by exact_mod_cast (by omega : s.toInt16.toInt ≤ 32767)
  obtain ⟨r, h3, -, h4⟩ := q78_of s.toInt16.toInt k1 k2
  unfold GainMetadata.interpolate interpolateMixGain GainMetadata.narrowed
  simp only
  rw [if_neg (by omega)]
  simp only [Bind.bind, Except.bind, q78, h3, h4 _ rfl]

private theorem linear_at (M : GainMath Rat) (s e : Int32) (lo hi a : Int) (h1 : lo ≤ a) (h2 : a ≤ hi) (h : lo < hi) :
    ∃ r, (GainMetadata.linear s e).interpolate M lo hi a = .ok r ∧
      |(r.toInt : Rat) - (s.toInt16.toInt + (e.toInt16.toInt - s.toInt16.toInt) * ((a - lo : Int) : Rat) / ((hi - lo : Int) : Rat))| < 1 := by
  obtain ⟨x, hx⟩ : ∃ x : Rat, x = s.toInt16.toInt := ⟨_, rfl⟩
  obtain ⟨y, hy⟩ : ∃ y : Rat, y = e.toInt16.toInt := ⟨_, rfl⟩
  have rng : ∀ v : Int16, (-32768 : Rat) ≤ v.toInt ∧ (v.toInt : Rat) ≤ 32767 := by
    intro v
    have hs := v.le_toInt
    have hs' := v.toInt_lt
    simp only [Int.reducePow, Int.reduceNeg, Int.reduceSub] at hs hs'
    exact ⟨by exact_mod_cast hs, by exact_mod_cast (by omega : v.toInt ≤ 32767)⟩
  have hxr := rng s.toInt16
  have hyr := rng e.toInt16
  rw [← hx] at hxr
  rw [← hy] at hyr
  have hD : (0 : Rat) < ((hi - lo : Int) : Rat) := by exact_mod_cast (by omega : 0 < hi - lo)
  have ha : (0 : Rat) ≤ ((a - lo : Int) : Rat) := by exact_mod_cast (by omega : 0 ≤ a - lo)
  have hb : ((a - lo : Int) : Rat) ≤ ((hi - lo : Int) : Rat) := by exact_mod_cast (by omega : a - lo ≤ hi - lo)
  obtain ⟨w, hw⟩ : ∃ w : Rat, w = ((a - lo : Int) : Rat) / ((hi - lo : Int) : Rat) := ⟨_, rfl⟩
  have w0 : 0 ≤ w := by rw [hw]; positivity
  have w1 : w ≤ 1 := by rw [hw, div_le_one hD]; exact hb
  have hval : x + (y - x) * ((a - lo : Int) : Rat) / ((hi - lo : Int) : Rat) = x + (y - x) * w := by rw [hw]; ring
  obtain ⟨r, h3, h4, -⟩ := q78_of (x + (y - x) * w) (by nlinarith) (by nlinarith)
  refine ⟨r, ?_, by rw [← hx, ← hy, hval]; exact h4⟩
  unfold GainMetadata.interpolate interpolateMixGain GainMetadata.narrowed
  simp only
  rw [if_neg (by omega)]
  simp only [Bind.bind, Except.bind, q78, ← hx, ← hy, ← hw]
  rw [← h3]
  congr 1
  ring

private theorem int16_32 (v : Int16) : v.toInt32.toInt16 = v := Int16.toInt16_toInt32 v

private theorem near {s' e' S E w : Rat} (h1 : |s' - S| < 1) (h2 : |e' - E| < 1) (w0 : 0 ≤ w) (w1 : w ≤ 1) :
    |(s' + (e' - s') * w) / 256 - (S + (E - S) * w) / 256| < 1 / 256 := by
  rw [abs_lt] at h1 h2 ⊢
  have key : ∀ p q : Rat, p < 1 → q < 1 → p * (1 - w) + q * w < 1 := by
    intro p q hp hq
    rcases eq_or_lt_of_le w1 with rfl | hw
    · linarith
    · have k1 := mul_pos (sub_pos.mpr hp) (sub_pos.mpr hw)
      have k2 := mul_nonneg (sub_pos.mpr hq).le w0
      linarith [show (1 - p) * (1 - w) + (1 - q) * w = 1 - (p * (1 - w) + q * w) by ring]
  have k1 := key (s' - S) (e' - E) h1.2 h2.2
  have k2 := key (S - s') (E - e') (by linarith) (by linarith)
  constructor <;> linarith

private theorem gain_partition (M : GainMath Rat) (g : GainMetadata) (lo hi a b : Int) (h1 : lo ≤ a) (h2 : a < b) (h3 : b ≤ hi) :
    match g.partition M lo hi a b with
    | .ok g' => (g ≠ .unset ∧ ∀ s e c r, g = .bezier s e c r → lo = a ∧ hi = b) ∧ ∀ τ, a ≤ τ → τ < b →
        SameAt (hi - lo).toNat (τ - lo).toNat (.mixGain g) (b - a).toNat (τ - a).toNat (.mixGain g')
    | .error err => err = .invalidArgument ∧ ¬ (g ≠ .unset ∧ ∀ s e c r, g = .bezier s e c r → lo = a ∧ hi = b) := by
  cases g with
  | unset => exact ⟨rfl, fun h => h.1 rfl⟩
  | step s =>
    unfold GainMetadata.partition
    simp only [step_at M s lo hi a h1 (by omega), Bind.bind, Except.bind]
    refine ⟨⟨by simp, by simp⟩, fun τ _ _ => ⟨.step s.toInt16, .step s.toInt16, rfl, ?_, ?_, ?_, by simp [MixGainData.isBezier]⟩⟩
    · simp only [GainMetadata.narrowed, int16_32]
    · rintro y y' rfl hy'
      rw [show y' = _ from hy']
      simp
    · intro s' h; exact h
  | linear s e =>
    obtain ⟨r, hr, hr'⟩ := linear_at M s e lo hi a h1 (by omega) (by omega)
    obtain ⟨q, hq, hq'⟩ := linear_at M s e lo hi b (by omega) h3 (by omega)
    unfold GainMetadata.partition
    simp only [hr, hq, Bind.bind, Except.bind]
    refine ⟨⟨by simp, by simp⟩, fun τ t1 t2 => ⟨.linear s.toInt16 e.toInt16, .linear r q, rfl, ?_, ?_, by simp, by simp [MixGainData.isBezier]⟩⟩
    · simp only [GainMetadata.narrowed, int16_32]
    · rintro y y' rfl rfl
      obtain ⟨D, hD⟩ : ∃ D : Rat, D = ((hi - lo : Int) : Rat) := ⟨_, rfl⟩
      obtain ⟨D', hD'⟩ : ∃ D' : Rat, D' = ((b - a : Int) : Rat) := ⟨_, rfl⟩
      have c1 : (((hi - lo).toNat : Nat) : Rat) = D := by rw [hD]; exact_mod_cast (Int.toNat_of_nonneg (by omega))
      have c2 : (((b - a).toNat : Nat) : Rat) = D' := by rw [hD']; exact_mod_cast (Int.toNat_of_nonneg (by omega))
      have c3 : (((τ - lo).toNat : Nat) : Rat) = ((τ - lo : Int) : Rat) := by exact_mod_cast (Int.toNat_of_nonneg (by omega))
      have c4 : (((τ - a).toNat : Nat) : Rat) = ((τ - a : Int) : Rat) := by exact_mod_cast (Int.toNat_of_nonneg (by omega))
      have d0 : 0 < D := by rw [hD]; exact_mod_cast (by omega : 0 < hi - lo)
      have d0' : 0 < D' := by rw [hD']; exact_mod_cast (by omega : 0 < b - a)
      have t0 : (0 : Rat) ≤ ((τ - a : Int) : Rat) := by exact_mod_cast (by omega : 0 ≤ τ - a)
      have t1' : ((τ - a : Int) : Rat) ≤ D' := by rw [hD']; exact_mod_cast (by omega : τ - a ≤ b - a)
      rw [c1, c2, c3, c4]
      rw [← hD] at hr' hq'
      have := near hr' hq' (w := ((τ - a : Int) : Rat) / D') (by positivity) (by rw [div_le_one d0']; exact t1')
      refine lt_of_eq_of_lt ?_ this
      congr 1
      have e1 : ((τ - lo : Int) : Rat) = ((a - lo : Int) : Rat) + ((τ - a : Int) : Rat) := by push_cast; ring
      have e2 : D' = ((b - lo : Int) : Rat) - ((a - lo : Int) : Rat) := by rw [hD']; push_cast; ring
      rw [e1]
      generalize ((τ - a : Int) : Rat) = z at *
      generalize ((a - lo : Int) : Rat) = u at *
      generalize ((b - lo : Int) : Rat) = v at *
      field_simp
      rw [e2]
      ring
  | bezier s e c r =>
    unfold GainMetadata.partition
    simp only
    by_cases h : lo = a ∧ hi = b
    · rw [if_pos h]
      obtain ⟨rfl, rfl⟩ := h
      refine ⟨⟨by simp, fun _ _ _ _ _ => ⟨rfl, rfl⟩⟩, fun τ _ _ => ⟨_, _, rfl, rfl, ?_, by simp, fun _ => ⟨rfl, rfl, rfl⟩⟩⟩
      intro y y' hy hy'
      rw [C38_one_value_at_a_time _ _ _ (by omega) y' y hy' hy]
      simp
    · rw [if_neg h]
      exact ⟨rfl, fun h' => h (h'.2 s e c r rfl)⟩

private def Cuttable (first : Bool) (lo hi a b : Int) : SubblockContent → Prop
  | .unset | .mixGain .unset => False
  | .mixGain (.step _) | .mixGain (.linear ..) => True
  | .mixGain (.bezier ..) => lo = a ∧ hi = b
  | .demixing .. | .reconGain .. => first = true

private theorem content_partition (M : GainMath Rat) (c : SubblockContent) (lo hi a b : Int) (first : Bool) (h1 : lo ≤ a) (h2 : a < b)
    (h3 : b ≤ hi) :
    match c.partition M lo hi a b first with
    | .ok c' => Cuttable first lo hi a b c ∧ ∀ τ, a ≤ τ → τ < b → SameAt (hi - lo).toNat (τ - lo).toNat c (b - a).toNat (τ - a).toNat c'
    | .error err => err = .invalidArgument ∧ ¬ Cuttable first lo hi a b c := by
  cases c with
  | unset => exact ⟨rfl, fun h => h⟩
  | mixGain g =>
    have := gain_partition M g lo hi a b h1 h2 h3
    unfold SubblockContent.partition
    simp only
    cases hx : g.partition M lo hi a b with
    | error e =>
      rw [hx] at this
      simp only [Bind.bind, Except.bind]
      refine ⟨this.1, fun h => this.2 ?_⟩
      cases g with
      | unset => exact absurd h (fun h => h)
      | step => exact ⟨by simp, by simp⟩
      | linear => exact ⟨by simp, by simp⟩
      | bezier => exact ⟨by simp, fun _ _ _ _ _ => h⟩
    | ok g' =>
      rw [hx] at this
      simp only [Bind.bind, Except.bind]
      refine ⟨?_, this.2⟩
      cases g with
      | unset => exact absurd rfl this.1.1
      | step => trivial
      | linear => trivial
      | bezier s e c r => exact this.1.2 s e c r rfl
  | demixing m r =>
    unfold SubblockContent.partition
    simp only
    cases first
    · exact ⟨rfl, fun h => Bool.noConfusion h⟩
    · exact ⟨rfl, fun _ _ _ => rfl⟩
  | reconGain l =>
    unfold SubblockContent.partition
    simp only
    cases first
    · exact ⟨rfl, fun h => Bool.noConfusion h⟩
    · exact ⟨rfl, fun _ _ _ => rfl⟩

/-! ### Proof: the loop -/

private def runCuts (M : GainMath Rat) : Bool → List Cut → Except Err (List SubblockMetadata)
  | _, [] => .ok []
  | first, x :: xs => do
    let c ← x.content.partition M x.lo x.hi x.a x.b first
    let r ← runCuts M false xs
    .ok (⟨UInt32.ofInt (x.b - x.a), c⟩ :: r)

private theorem loop_cuts (M : GainMath Rat) (s : SubblockSchedule) (start stop : Int) (xs : List SubblockMetadata) :
    ∀ (ds : List UInt32) (i : Nat) (now tot : Int) (out : List SubblockMetadata), ds.length = xs.length →
      (∀ k (hk : k < ds.length), s.getSubblockDuration ((i + k : Nat) : Int) = .ok ds[k]) →
      partitionLoop M s start stop i now tot out xs = (do
        let r ← runCuts M out.isEmpty (cuts start stop now (List.zip (ds.map UInt32.toNat) (xs.map SubblockMetadata.content)))
        .ok (out ++ r, tot + ((r.map fun x => (x.duration.toNat : Int)).sum))) := by
  induction xs with
  | nil =>
    intro ds i now tot out hl hd
    simp only [partitionLoop, List.map_nil, List.zip_nil_right, cuts, runCuts, Bind.bind, Except.bind, List.append_nil, List.sum_nil, Int.add_zero]
  | cons x xs ih =>
    intro ds i now tot out hl hd
    match ds, hl, hd with
    | d :: ds, hl, hd =>
      have h0 := hd 0 (by simp)
      simp only [Nat.add_zero, List.getElem_cons_zero] at h0
      have hrest : ∀ k (hk : k < ds.length), s.getSubblockDuration ((i + 1 + k : Nat) : Int) = .ok ds[k] := by
        intro k hk
        have := hd (k + 1) (by simpa using hk)
        rw [List.getElem_cons_succ, show i + (k + 1) = i + 1 + k by omega] at this
        exact this
      simp only [List.length_cons, Nat.add_right_cancel_iff] at hl
      unfold partitionLoop
      simp only [h0, Bind.bind, Except.bind, List.map_cons, List.zip_cons_cons]
      unfold cuts
      split
      · rw [ih ds (i + 1) (now + d.toNat) tot out hl hrest]
        rfl
      · unfold runCuts
        simp only [Bind.bind, Except.bind]
        cases hc : x.content.partition M now (now + d.toNat) (max start now) (min stop (now + d.toNat)) out.isEmpty with
        | error e => rfl
        | ok c =>
          simp only
          split
          · rw [cuts_after _ _ _ _ (by assumption)]
            simp only [runCuts, List.map_cons, List.map_nil, List.sum_cons, List.sum_nil, Int.add_zero]
          · rw [ih ds (i + 1) (now + d.toNat) _ _ hl hrest]
            have : (out ++ [(⟨UInt32.ofInt (min stop (now + d.toNat) - max start now), c⟩ : SubblockMetadata)]).isEmpty = false := by
              cases out <;> rfl
            rw [this]
            simp only [Bind.bind, Except.bind]
            cases runCuts M false (cuts start stop (now + d.toNat) (List.zip (ds.map UInt32.toNat) (xs.map SubblockMetadata.content))) with
            | error e => rfl
            | ok r => simp only [List.map_cons, List.sum_cons, List.append_assoc, List.singleton_append, Int.add_assoc]

private def AllCuttable : Bool → List Cut → Prop
  | _, [] => True
  | first, x :: xs => Cuttable first x.lo x.hi x.a x.b x.content ∧ AllCuttable false xs

private theorem run_spec (M : GainMath Rat) (xs : List Cut) : ∀ (first : Bool), (∀ x ∈ xs, x.lo ≤ x.a ∧ x.a < x.b ∧ x.b ≤ x.hi) →
    match runCuts M first xs with
    | .ok r => AllCuttable first xs ∧ List.Forall₂ (fun y x => y.duration = UInt32.ofInt (x.b - x.a) ∧ ∀ τ, x.a ≤ τ → τ < x.b →
        SameAt (x.hi - x.lo).toNat (τ - x.lo).toNat x.content (x.b - x.a).toNat (τ - x.a).toNat y.content) r xs
    | .error e => e = .invalidArgument ∧ ¬ AllCuttable first xs := by
  induction xs with
  | nil => intro first h; exact ⟨trivial, .nil⟩
  | cons x xs ih =>
    intro first h
    obtain ⟨h1, h2, h3⟩ := h x (List.mem_cons_self ..)
    have hc := content_partition M x.content x.lo x.hi x.a x.b first h1 h2 h3
    have hr := ih false fun y hy => h y (List.mem_cons_of_mem _ hy)
    unfold runCuts
    simp only [Bind.bind, Except.bind]
    cases hx : x.content.partition M x.lo x.hi x.a x.b first with
    | error e =>
      rw [hx] at hc
      exact ⟨hc.1, fun k => hc.2 k.1⟩
    | ok c =>
      rw [hx] at hc
      simp only
      cases hy : runCuts M false xs with
      | error e =>
        rw [hy] at hr
        exact ⟨hr.1, fun k => hr.2 k.2⟩
      | ok r =>
        rw [hy] at hr
        exact ⟨⟨hc.1, hr.1⟩, .cons ⟨rfl, hc.2⟩ hr.2⟩

private theorem cut_content {first : Bool} {start stop lo hi : Int} {c : SubblockContent} (hlh : start < hi) (hls : lo < stop)
    (hf : first = true ↔ lo ≤ start) :
    Cuttable first lo hi (max start lo) (min stop hi) c ↔ CanBeCut start stop lo hi c := by
  cases c with
  | unset => exact Iff.rfl
  | mixGain g =>
    cases g with
    | unset => exact Iff.rfl
    | step => exact Iff.rfl
    | linear => exact Iff.rfl
    | bezier =>
      show lo = max start lo ∧ hi = min stop hi ↔ start ≤ lo ∧ hi ≤ stop
      omega
  | demixing => exact hf
  | reconGain => exact hf

private theorem cuts_later (start stop : Int) (l : List (Nat × SubblockContent)) : ∀ now, start < now →
    (AllCuttable false (cuts start stop now l) ↔ ∀ x ∈ cuts start stop now l, CanBeCut start stop x.lo x.hi x.content) := by
  induction l with
  | nil => intro now h; simp [cuts, AllCuttable]
  | cons y l ih =>
    intro now h
    obtain ⟨d, c⟩ := y
    unfold cuts
    have := ih (now + d) (by omega)
    split
    · exact this
    · unfold AllCuttable
      rw [this, cut_content (by simp only; omega) (by simp only; omega) (by simp; omega)]
      simp

private theorem cuts_first (start stop : Int) (hs : start < stop) (l : List (Nat × SubblockContent)) : ∀ now, now ≤ start →
    (AllCuttable true (cuts start stop now l) ↔ ∀ x ∈ cuts start stop now l, CanBeCut start stop x.lo x.hi x.content) := by
  induction l with
  | nil => intro now h; simp [cuts, AllCuttable]
  | cons y l ih =>
    intro now h
    obtain ⟨d, c⟩ := y
    unfold cuts
    split
    · exact ih (now + d) (by omega)
    · unfold AllCuttable
      rw [cuts_later start stop l (now + d) (by omega), cut_content (by simp only; omega) (by simp only; omega) (by simp; omega)]
      simp

/-! ### Proof: schedules -/

private theorem schedule_err {H : Type} {b : BlockMetadata H} {e : Err} (h : b.schedule = .error e) : e = .invalidArgument := by
  unfold BlockMetadata.schedule at h
  split at h
  · cases hx : SubblockSchedule.createConstant b.duration b.constantSubblockDuration with
    | error e' =>
      rw [hx] at h
      simp only [Bind.bind, Except.bind, Except.error.injEq] at h
      subst h
      have := (C18_constant_accepts_iff b.duration b.constantSubblockDuration).2 (by rw [hx]; simp)
      rw [hx] at this
      simpa using this
    | ok s =>
      rw [hx] at h
      simp only [Bind.bind, Except.bind] at h
      split at h <;> cases h
      rfl
  · cases hx : SubblockSchedule.createVariable (b.subblocks.map SubblockMetadata.duration) with
    | error e' =>
      rw [hx] at h
      simp only [Bind.bind, Except.bind, Except.error.injEq] at h
      subst h
      exact SubblockSchedule.createVariable_err hx
    | ok s =>
      rw [hx] at h
      simp only [Bind.bind, Except.bind] at h
      split at h <;> cases h
      rfl

private theorem constant_loop {c : UInt32} (ds : List UInt32) (hc : constantLoop c ds ≠ 0) :
    constantLoop c ds = c ∧ (∀ d ∈ ds.dropLast, d = c) ∧ ∀ d ∈ ds.getLast?, d ≤ c := by
  induction ds with
  | nil => exact ⟨rfl, by simp, by simp⟩
  | cons d ds ih =>
    cases ds with
    | nil =>
      unfold constantLoop at hc ⊢
      split at hc
      · rename_i h
        exact ⟨by rw [if_pos h], by simp, by simpa using h⟩
      · split at hc
        · exact absurd rfl hc
        · rename_i h1 h2
          simp only [ne_eq, Decidable.not_not] at h2
          subst h2
          exact absurd (UInt32.le_refl _) h1
    | cons d' ds =>
      unfold constantLoop at hc ⊢
      split at hc
      · exact absurd rfl hc
      · rename_i h
        rw [if_neg h]
        simp only [ne_eq, Decidable.not_not] at h
        subst h
        obtain ⟨k1, k2, k3⟩ := ih hc
        refine ⟨k1, ?_, by simpa using k3⟩
        intro x hx
        simp only [List.dropLast_cons_cons, List.mem_cons] at hx
        rcases hx with rfl | hx
        · rfl
        · exact k2 x hx

private theorem same_lists : ∀ (xs ys : List UInt32) (c : UInt32), xs.length = ys.length → (∀ d ∈ xs.dropLast, d = c) →
    (∀ d ∈ ys.dropLast, d = c) → (xs.map UInt32.toNat).sum = (ys.map UInt32.toNat).sum → xs = ys := by
  intro xs
  induction xs with
  | nil => intro ys c hl _ _ _; exact (List.length_eq_zero_iff.mp hl.symm).symm
  | cons x xs ih =>
    intro ys c hl hx hy hs
    cases ys with
    | nil => cases hl
    | cons y ys =>
      simp only [List.length_cons, Nat.add_right_cancel_iff] at hl
      cases xs with
      | nil =>
        cases ys with
        | nil =>
          simp only [List.map_cons, List.map_nil, List.sum_cons, List.sum_nil, Nat.add_zero] at hs
          rw [UInt32.toNat_inj.mp hs]
        | cons => cases hl
      | cons x' xs =>
        cases ys with
        | nil => cases hl
        | cons y' ys =>
          simp only [List.dropLast_cons_cons, List.mem_cons, forall_eq_or_imp] at hx hy
          obtain ⟨rfl, hx⟩ := hx
          obtain ⟨rfl, hy⟩ := hy
          simp only [List.map_cons, List.sum_cons, Nat.add_left_cancel_iff] at hs
          rw [ih (y' :: ys) y (by simpa using hl) hx hy (by simpa using hs)]

private theorem sumDurations_of : ∀ (ds : List UInt32) (acc D : UInt32), (∀ d ∈ ds, d ≠ 0) → acc.toNat + (ds.map UInt32.toNat).sum = D.toNat →
    SubblockSchedule.sumDurations ds acc = .ok D := by
  intro ds
  induction ds with
  | nil =>
    intro acc D _ h
    simp only [List.map_nil, List.sum_nil, Nat.add_zero] at h
    simp only [SubblockSchedule.sumDurations, UInt32.toNat_inj.mp h]
  | cons d ds ih =>
    intro acc D hn h
    simp only [List.map_cons, List.sum_cons] at h
    have hD := D.toNat_lt
    unfold SubblockSchedule.sumDurations
    rw [if_neg (hn d (List.mem_cons_self ..))]
    have hadd : (acc + d).toNat = acc.toNat + d.toNat := by rw [UInt32.toNat_add]; omega
    have : addUint32CheckOverflow acc d = .ok (acc + d) := by
      unfold addUint32CheckOverflow
      rw [if_neg (by omega), ← hadd, UInt32.ofNat_toNat]
    rw [this]
    exact ih _ D (fun x hx => hn x (List.mem_cons_of_mem _ hx)) (by rw [hadd]; omega)

private theorem timeline_schedule {H : Type} {b : BlockMetadata H} {l : List (Nat × SubblockContent)} (h : Timeline b l) :
    ∃ s ds, b.schedule = .ok s ∧ SchedulesExactly s ds ∧ ds.map UInt32.toNat = l.map Prod.fst ∧ ds.length = b.subblocks.length := by
  obtain ⟨h1, h2, h3, h4, h5, h6, h7⟩ := h
  have hlen : l.length = b.subblocks.length := by simpa using congrArg List.length h1
  unfold BlockMetadata.schedule
  by_cases hc : b.constantSubblockDuration = 0
  · rw [if_neg (by simpa using hc)]
    obtain ⟨ds, hds⟩ : ∃ ds, ds = b.subblocks.map SubblockMetadata.duration := ⟨_, rfl⟩
    have hd : ds.map UInt32.toNat = l.map Prod.fst := by rw [h6 hc, hds, List.map_map]; rfl
    have hl : ds.length = b.subblocks.length := by rw [hds]; simp
    have hz : ∀ d ∈ ds, d ≠ 0 := by
      intro d hd' h0
      have : d.toNat ∈ l.map Prod.fst := hd ▸ List.mem_map_of_mem hd'
      obtain ⟨x, hx, hxd⟩ := List.mem_map.mp this
      have := h3 x hx
      rw [hxd, h0] at this
      exact absurd this (by decide)
    have hn : (UInt32.ofNat ds.length).toNat = ds.length := by rw [UInt32.toNat_ofNat']; omega
    have hok : SubblockSchedule.createVariable ds = .ok ⟨b.duration, 0, UInt32.ofNat ds.length, ds⟩ := by
      unfold SubblockSchedule.createVariable
      simp only
      rw [hn, List.take_length, sumDurations_of ds 0 b.duration hz (by rw [hd]; simpa [total] using h2), if_pos]
      simp only [inRange32, Bool.and_eq_true, decide_eq_true_eq]
      rw [UInt32.le_iff_toNat_le, UInt32.le_iff_toNat_le, hn]
      exact ⟨show 1 ≤ ds.length by omega, show ds.length ≤ 192000 by omega⟩
    refine ⟨_, ds, ?_, C18_created_schedules_add_up.2 _ _ (by omega) hok, hd, hl⟩
    rw [← hds]
    simp only [hok, Bind.bind, Except.bind, ne_eq, not_true_eq_false, if_false]
  · rw [if_pos hc]
    obtain ⟨k1, k2, k3⟩ := h7 hc
    obtain ⟨c, hcc⟩ : ∃ c, c = b.constantSubblockDuration := ⟨_, rfl⟩
    rw [← hcc] at hc k1 k2 k3 ⊢
    have hne : l ≠ [] := fun h => by rw [h] at h4; simp at h4
    obtain ⟨last, hl1, hl2, hl3⟩ : ∃ last, l = l.dropLast ++ [last] ∧ last.1 ≤ c.toNat ∧ 0 < last.1 := by
      refine ⟨l.getLast hne, (List.dropLast_append_getLast hne).symm, k3 _ ?_, h3 _ (List.getLast_mem _)⟩
      rw [List.getLast?_eq_some_getLast hne]
      rfl
    obtain ⟨m, hm⟩ : ∃ m, m = l.dropLast.length := ⟨_, rfl⟩
    have hdl : l.length = m + 1 := by rw [hm, List.length_dropLast]; omega
    have hrep : l.dropLast.map Prod.fst = List.replicate m c.toNat := by
      rw [hm]
      refine List.eq_replicate_iff.mpr ⟨by simp, ?_⟩
      intro x hx
      obtain ⟨y, hy, rfl⟩ := List.mem_map.mp hx
      exact k2 y hy
    have hfst : l.map Prod.fst = List.replicate m c.toNat ++ [last.1] := by
      rw [hl1, List.map_append, hrep]
      rfl
    have hD : b.duration.toNat = m * c.toNat + last.1 := by
      rw [← h2]
      unfold total
      rw [hfst]
      simp
    have hD' : b.duration.toNat ≤ (m + 1) * c.toNat := by rw [hD, Nat.succ_mul]; omega
    have hc0 : c.toNat ≠ 0 := fun h => hc (UInt32.toNat_inj.mp h)
    obtain ⟨s, hs1⟩ := (C18_constant_accepts_iff b.duration c).1.mpr ⟨by omega, k1, Nat.le_trans hD' (Nat.mul_le_mul_right _ (by omega))⟩
    obtain ⟨e1, e2, -, -, -, -, n1, n2, n3, n4⟩ := SubblockSchedule.createConstant_ok hs1
    have hnum : s.numSubblocks.toNat = m + 1 := by
      have a1 : s.numSubblocks.toNat - 1 < m + 1 := by
        by_contra hcon
        have := Nat.mul_le_mul_right c.toNat (Nat.le_of_not_lt hcon)
        omega
      have a2 : m < s.numSubblocks.toNat := by
        by_contra hcon
        have := Nat.mul_le_mul_right c.toNat (Nat.le_of_not_lt hcon)
        omega
      omega
    obtain ⟨-, ds, d1, d2⟩ := C18_created_schedules_add_up.1 b.duration c s hs1
    have hdd : ds = List.replicate m c ++ [UInt32.ofNat last.1] := by
      have hlt : last.1 < 4294967296 := by have := c.toNat_lt; omega
      refine same_lists _ _ c ?_ d2 ?_ ?_
      · rw [← d1.1, hnum]; simp
      · intro d hd
        rw [List.dropLast_concat] at hd
        exact (List.mem_replicate.mp hd).2
      · rw [d1.2.2.2.2.2.1, e1, hD]
        simp only [List.map_append, List.map_replicate, List.map_cons, List.map_nil, List.sum_append, List.sum_replicate, smul_eq_mul, List.sum_cons, List.sum_nil,
          Nat.add_zero, UInt32.toNat_ofNat']
        omega
    refine ⟨s, ds, ?_, d1, ?_, by rw [← d1.1, hnum]; omega⟩
    · simp only [hs1, Bind.bind, Except.bind]
      rw [if_neg (by rw [hnum, ← hlen, hdl]; simp)]
    · rw [hdd, hfst]
      have hlt : last.1 < 4294967296 := by have := c.toNat_lt; omega
      simp only [List.map_append, List.map_replicate, List.map_cons, List.map_nil, UInt32.toNat_ofNat']
      rw [Nat.mod_eq_of_lt hlt]

private theorem timeline_of {H : Type} {b : BlockMetadata H} {s : SubblockSchedule} {ds : List UInt32} (h1 : SchedulesExactly s ds)
    (h2 : s.duration = b.duration) (h3 : ds.length = b.subblocks.length)
    (h4 : b.constantSubblockDuration = 0 → ds = b.subblocks.map SubblockMetadata.duration)
    (h5 : b.constantSubblockDuration ≠ 0 → b.constantSubblockDuration.toNat ≤ b.duration.toNat ∧
      (∀ x ∈ ds.dropLast, x = b.constantSubblockDuration) ∧ ∀ x ∈ ds.getLast?, x.toNat ≤ b.constantSubblockDuration.toNat) :
    Timeline b (List.zip (ds.map UInt32.toNat) (b.subblocks.map SubblockMetadata.content)) := by
  obtain ⟨l, hl⟩ : ∃ l, l = List.zip (ds.map UInt32.toNat) (b.subblocks.map SubblockMetadata.content) := ⟨_, rfl⟩
  have hf : l.map Prod.fst = ds.map UInt32.toNat := by
    rw [hl]; exact List.map_fst_zip (by simp; omega)
  have hg : l.map Prod.snd = b.subblocks.map SubblockMetadata.content := by
    rw [hl]; exact List.map_snd_zip (by simp; omega)
  have hll : l.length = ds.length := by simpa using congrArg List.length hf
  rw [← hl]
  obtain ⟨-, k1, k2, -, k3, k4, -⟩ := h1
  refine ⟨hg, ?_, ?_, by omega, by omega, ?_, ?_⟩
  · unfold total
    rw [hf, k4, h2]
  · intro x hx
    have : x.1 ∈ ds.map UInt32.toNat := hf ▸ List.mem_map_of_mem hx
    obtain ⟨d, hd, hdx⟩ := List.mem_map.mp this
    rw [← hdx]
    exact Nat.pos_of_ne_zero fun h => k3 d hd (UInt32.toNat_inj.mp h)
  · intro hc
    rw [hf, h4 hc, List.map_map]
    rfl
  · intro hc
    obtain ⟨j1, j2, j3⟩ := h5 hc
    refine ⟨j1, ?_, ?_⟩
    · intro x hx
      have : x.1 ∈ (ds.map UInt32.toNat).dropLast := by
        rw [← hf, ← List.map_dropLast]
        exact List.mem_map_of_mem hx
      rw [← List.map_dropLast] at this
      obtain ⟨d, hd, hdx⟩ := List.mem_map.mp this
      rw [← hdx, j2 d hd]
    · intro x hx
      have : x.1 ∈ (ds.map UInt32.toNat).getLast? := by
        rw [← hf, List.getLast?_map, hx]
        rfl
      rw [List.getLast?_map] at this
      cases hd : ds.getLast? with
      | none => rw [hd] at this; cases this
      | some d =>
        rw [hd] at this
        simp only [Option.map_some, Option.mem_def, Option.some.injEq] at this
        rw [← this]
        exact j3 d hd

private theorem schedule_gives {H : Type} {b : BlockMetadata H} (hlen : b.subblocks.length < 2147483648) {s : SubblockSchedule}
    (h : b.schedule = .ok s) : ∃ ds, SchedulesExactly s ds ∧ ds.length = b.subblocks.length ∧
      Timeline b (List.zip (ds.map UInt32.toNat) (b.subblocks.map SubblockMetadata.content)) := by
  unfold BlockMetadata.schedule at h
  by_cases hc : b.constantSubblockDuration = 0
  · rw [if_neg (by simpa using hc)] at h
    obtain ⟨s', h1, h2⟩ := except_bind_ok h
    split at h2
    · cases h2
    rename_i hn
    cases h2
    have k2 := C18_created_schedules_add_up.2 _ _ (by simp; omega) h1
    refine ⟨_, k2, by simp, timeline_of k2 (by simpa using hn) (by simp) (fun _ => rfl) fun h => absurd hc h⟩
  · rw [if_pos hc] at h
    obtain ⟨s', h1, h2⟩ := except_bind_ok h
    split at h2
    · cases h2
    rename_i hn
    cases h2
    obtain ⟨k1, ds, k2, k3⟩ := C18_created_schedules_add_up.1 _ _ _ h1
    have hl : ds.length = b.subblocks.length := by rw [← k2.1]; omega
    obtain ⟨c1, c2, c3⟩ := (C18_constant_accepts_iff _ _).1.mp ⟨s, h1⟩
    obtain ⟨e1, e2, -, -, -, -, n1, n2, n3, n4⟩ := SubblockSchedule.createConstant_ok h1
    refine ⟨ds, k2, hl, timeline_of k2 k1 hl (fun h => absurd h hc) fun _ => ⟨c2, k3, ?_⟩⟩
    intro x hx
    have hds : ds = ds.dropLast ++ [x] := (List.dropLast_append_getLast? x hx).symm
    have hrep : ds.dropLast = List.replicate (ds.length - 1) b.constantSubblockDuration :=
      List.eq_replicate_iff.mpr ⟨by simp, k3⟩
    have hsum := k2.2.2.2.2.2.1
    rw [hds, hrep, k1] at hsum
    simp only [List.map_append, List.map_replicate, List.map_cons, List.map_nil, List.sum_append, List.sum_replicate, smul_eq_mul, List.sum_cons, List.sum_nil,
      Nat.add_zero] at hsum
    have : b.duration.toNat ≤ ds.length * b.constantSubblockDuration.toNat := by rw [← k2.1]; exact n4
    have hpos := k2.2.1
    obtain ⟨m, hm⟩ : ∃ m, ds.length = m + 1 := ⟨ds.length - 1, by omega⟩
    rw [hm, Nat.succ_mul] at this
    rw [hm, Nat.add_sub_cancel] at hsum
    omega

private theorem timeline_unique {H : Type} {b : BlockMetadata H} {l l' : List (Nat × SubblockContent)} (h : Timeline b l) (h' : Timeline b l') :
    l = l' := by
  obtain ⟨s, ds, h1, h2, h3, h4⟩ := timeline_schedule h
  obtain ⟨s', ds', h1', h2', h3', h4'⟩ := timeline_schedule h'
  rw [h1] at h1'
  cases h1'
  have hd : ds = ds' := by
    refine List.ext_getElem (by omega) fun i hi hi' => ?_
    have a := h2.2.2.2.1 i hi
    rw [h2'.2.2.2.1 i hi'] at a
    exact (Except.ok.inj a).symm
  have hf : l.map Prod.fst = l'.map Prod.fst := by rw [← h3, ← h3', hd]
  have hg : l.map Prod.snd = l'.map Prod.snd := by rw [h.1, h'.1]
  have := congrArg₂ List.zip hf hg
  rwa [← List.unzip_fst, ← List.unzip_snd, List.zip_unzip, ← List.unzip_fst, ← List.unzip_snd, List.zip_unzip] at this

/-! ### Proof: one part -/

private theorem cuts_length (start stop : Int) (l : List (Nat × SubblockContent)) : ∀ now, (cuts start stop now l).length ≤ l.length := by
  induction l with
  | nil => intro now; exact Nat.le_refl _
  | cons x l ih =>
    intro now
    obtain ⟨d, c⟩ := x
    have := ih (now + d)
    unfold cuts
    split
    · simp only [List.length_cons]; omega
    · simp only [List.length_cons]; omega

private theorem stretch_related {r : List SubblockMetadata} {xs : List Cut} {R : SubblockMetadata → Cut → Prop}
    (h : List.Forall₂ R r xs) (hR : ∀ y x, R y x → y.duration.toNat = (x.b - x.a).toNat) : ∀ {t d n : Nat} {x : Cut},
    stretchAt (xs.map fun x => ((x.b - x.a).toNat, x)) t = some (d, n, x) →
    ∃ y, R y x ∧ stretchAt (r.map fun y => (y.duration.toNat, y.content)) t = some (d, n, y.content) := by
  induction h with
  | nil => intro t d n x h; cases h
  | @cons y x' r xs hy _ ih =>
    intro t d n x h
    simp only [List.map_cons, stretchAt] at h ⊢
    rw [hR _ _ hy]
    split at h
    · rename_i hlt
      rw [if_pos hlt]
      simp only [Option.some.injEq, Prod.mk.injEq] at h
      obtain ⟨rfl, rfl, rfl⟩ := h
      exact ⟨y, hy, rfl⟩
    · rename_i hlt
      rw [if_neg hlt]
      exact ih h

private theorem related_sum {r : List SubblockMetadata} {xs : List Cut} {R : SubblockMetadata → Cut → Prop}
    (h : List.Forall₂ R r xs) (hR : ∀ y x, R y x → (y.duration.toNat : Int) = x.b - x.a) :
    (r.map fun y => (y.duration.toNat : Int)).sum = (xs.map fun c => c.b - c.a).sum := by
  induction h with
  | nil => rfl
  | cons hy _ ih => simp only [List.map_cons, List.sum_cons, ih, hR _ _ hy]

private theorem natsum (r : List SubblockMetadata) :
    ((total (r.map fun y => (y.duration.toNat, y.content)) : Nat) : Int) = (r.map fun y => (y.duration.toNat : Int)).sum := by
  induction r with
  | nil => rfl
  | cons y r ih =>
    simp only [List.map_cons, List.sum_cons, ← ih]
    simp [total]

private theorem toNat_ofInt (x : Int) : (UInt32.ofInt x).toNat = (x % 4294967296).toNat := by
  unfold UInt32.ofInt
  rw [UInt32.toNat_ofNat']
  omega

private theorem cuts_small (start stop now : Int) (l : List (Nat × SubblockContent)) (hl : total l < 4294967296) (x : Cut)
    (hx : x ∈ cuts start stop now l) (hs : start < stop) (hp : ∀ x ∈ l, 0 < x.1) :
    x.lo ≤ x.a ∧ x.a < x.b ∧ x.b ≤ x.hi ∧ (UInt32.ofInt (x.b - x.a)).toNat = (x.b - x.a).toNat := by
  obtain ⟨pre, d, post, h1, h2, h3, h4, h5, h6, h7⟩ := cuts_split start stop l now x hx
  have hd : d < 4294967296 := by
    rw [h1] at hl
    simp only [total, List.map_append, List.map_cons, List.sum_append, List.sum_cons] at hl
    omega
  have hd0 : 0 < d := hp (d, x.content) (by rw [h1]; simp)
  refine ⟨by omega, by omega, by omega, ?_⟩
  rw [toNat_ofInt]
  omega

private theorem partition_spec {H : Type} (M : GainMath Rat) (b : BlockMetadata H) (start stop : Int) (hlen : b.subblocks.length < 2147483648) :
    match b.partition M start stop with
    | .ok r => Possible b start stop ∧ r.id = b.id ∧ r.header = b.header ∧ r.start = start ∧ (r.duration.toNat : Int) = stop - start ∧
        ∃ l l', Timeline b l ∧ Timeline r l' ∧ ∀ t : Nat, t < stop - start → ∃ d n c d' n' c', stretchAt l ((start - b.start).toNat + t) = some (d, n, c) ∧
          stretchAt l' t = some (d', n', c') ∧ SameAt d n c d' n' c'
    | .error e => e = .invalidArgument ∧ ¬ Possible b start stop := by
  unfold BlockMetadata.partition
  by_cases hs : stop ≤ start
  · rw [if_pos hs]
    exact ⟨rfl, fun h => by have := h.1; omega⟩
  rw [if_neg hs]
  unfold BlockMetadata.partitionedSubblocks
  cases hsch : b.schedule with
  | error e =>
    refine ⟨schedule_err hsch, ?_⟩
    rintro ⟨-, -, -, l, hl, -⟩
    obtain ⟨s, ds, h1, -⟩ := timeline_schedule hl
    rw [hsch] at h1
    cases h1
  | ok s =>
    obtain ⟨ds, h1, h2, h3⟩ := schedule_gives hlen hsch
    obtain ⟨l, hl⟩ : ∃ l, l = List.zip (ds.map UInt32.toNat) (b.subblocks.map SubblockMetadata.content) := ⟨_, rfl⟩
    rw [← hl] at h3
    have htot : total l = b.duration.toNat := h3.2.1
    have hsmall := cuts_small start stop b.start l (by rw [htot]; exact b.duration.toNat_lt)
    have hloop := loop_cuts M s start stop b.subblocks ds 0 b.start 0 [] h2 (by
      intro k hk
      rw [Nat.zero_add]
      exact h1.2.2.2.1 k hk)
    rw [← hl] at hloop
    have hrun := run_spec M (cuts start stop b.start l) true (fun x hx => by
      obtain ⟨a1, a2, a3, -⟩ := hsmall x hx (by omega) h3.2.2.1
      exact ⟨a1, a2, a3⟩)
    have hsum := cuts_sum start stop (by omega) l b.start
    have hposs : Possible b start stop ↔ b.start ≤ start ∧ stop ≤ b.start + b.duration.toNat ∧
        ∀ x ∈ cuts start stop b.start l, CanBeCut start stop x.lo x.hi x.content := by
      constructor
      · rintro ⟨-, p1, p2, l', p3, p4⟩
        refine ⟨p1, p2, fun x hx => ?_⟩
        obtain rfl := timeline_unique h3 p3
        obtain ⟨pre, d, post, q1, q2, q3, q4, q5, -⟩ := cuts_split start stop l b.start x hx
        have := p4 pre d x.content post q1 (by omega) (by omega)
        rw [q3, q2]
        exact this
      · rintro ⟨p1, p2, p3⟩
        refine ⟨by omega, p1, p2, l, h3, ?_⟩
        intro pre d c post q1 q2 q3
        have := split_cuts start stop pre d c post b.start (by omega)
        rw [← q1] at this
        exact p3 _ this
    simp only [Bind.bind, Except.bind, hloop]
    cases hr : runCuts M true (cuts start stop b.start l) with
    | error e =>
      rw [hr] at hrun
      simp only [List.isEmpty_nil, hr]
      refine ⟨hrun.1, fun h => hrun.2 ?_⟩
      have hp := hposs.mp h
      exact (cuts_first start stop (by omega) l b.start hp.1).mpr hp.2.2
    | ok r =>
      rw [hr] at hrun
      obtain ⟨c1, c2⟩ := hrun
      have hdur : ∀ (y : SubblockMetadata) (x : Cut), (x ∈ cuts start stop b.start l ∧ (y.duration = UInt32.ofInt (x.b - x.a) ∧ ∀ τ, x.a ≤ τ → τ < x.b →
        SameAt (x.hi - x.lo).toNat (τ - x.lo).toNat x.content (x.b - x.a).toNat (τ - x.a).toNat y.content)) → (y.duration.toNat : Int) = x.b - x.a := by
        rintro y x ⟨hx, hy, -⟩
        obtain ⟨a1, a2, a3, a4⟩ := hsmall x hx (by omega) h3.2.2.1
        rw [hy, a4]
        omega
      have c3 : List.Forall₂ (fun y x => x ∈ cuts start stop b.start l ∧ (y.duration = UInt32.ofInt (x.b - x.a) ∧ ∀ τ, x.a ≤ τ → τ < x.b →
        SameAt (x.hi - x.lo).toNat (τ - x.lo).toNat x.content (x.b - x.a).toNat (τ - x.a).toNat y.content)) r (cuts start stop b.start l) := by
        refine List.forall₂_iff_get.mpr ⟨c2.length_eq, fun i hi hi' => ⟨List.get_mem .., ?_⟩⟩
        exact c2.get hi hi'
      have hrs := related_sum c3 hdur
      rw [hsum, htot] at hrs
      simp only [List.isEmpty_nil, hr, List.nil_append, hrs]
      by_cases hcov : stop - start = 0 + max 0 (min stop (b.start + b.duration.toNat) - max start b.start)
      · rw [if_neg (by simpa using hcov)]
        have hp1 : b.start ≤ start := by omega
        have hp2 : stop ≤ b.start + b.duration.toNat := by omega
        have hD : (UInt32.ofInt (stop - start)).toNat = (stop - start).toNat := by
          have := b.duration.toNat_lt
          rw [toNat_ofInt]
          omega
        have htr : total (r.map fun y => (y.duration.toNat, y.content)) = (stop - start).toNat := by
          have := natsum r
          rw [hrs] at this
          omega
        refine ⟨hposs.mpr ⟨hp1, hp2, (cuts_first start stop (by omega) l b.start hp1).mp c1⟩, rfl, rfl, rfl, by simp only [hD]; omega,
          l, r.map fun y => (y.duration.toNat, y.content), h3, ?_, ?_⟩
        · have hpos : ∀ x ∈ r.map (fun y => (y.duration.toNat, y.content)), 0 < x.1 := by
            intro x hx
            obtain ⟨y, hy, rfl⟩ := List.mem_map.mp hx
            obtain ⟨i, hi, rfl⟩ := List.getElem_of_mem hy
            have hd := c3.get hi (by rw [← c3.length_eq]; exact hi)
            obtain ⟨a1, a2, a3, a4⟩ := hsmall _ hd.1 (by omega) h3.2.2.1
            have := hdur _ _ hd
            simp only [List.get_eq_getElem] at this a2
            show 0 < (r[i]).duration.toNat
            omega
          refine ⟨by rw [List.map_map]; rfl, by rw [htr]; simp only [hD], hpos, ?_, ?_, ?_, ?_⟩
          · simp only [List.length_map]
            by_contra hcon
            have : r = [] := List.length_eq_zero_iff.mp (by omega)
            rw [this] at htr
            simp only [total, List.map_nil, List.sum_nil] at htr
            omega
          · simp only [List.length_map]
            rw [c2.length_eq]
            have := cuts_length start stop l b.start
            have := h3.2.2.2.2.1
            omega
          · intro _
            rw [List.map_map]
            rfl
          · intro hc
            simp only at hc ⊢
            match hrr : r with
            | [] => rw [hrr] at hc; exact absurd rfl hc
            | y :: ys =>
              rw [hrr] at hc
              have hc' : constantLoop y.duration ((y :: ys).map SubblockMetadata.duration) ≠ 0 := hc
              obtain ⟨k1, k2, k3⟩ := constant_loop _ hc'
              have hfc : findConstantSubblockDuration ((y :: ys).map SubblockMetadata.duration) = y.duration := k1
              rw [hfc]
              refine ⟨?_, ?_, ?_⟩
              · rw [hD, ← htr, hrr]
                simp only [total, List.map_cons, List.sum_cons]
                omega
              · intro x hx
                rw [← List.map_dropLast] at hx
                obtain ⟨z, hz, rfl⟩ := List.mem_map.mp hx
                have := k2 z.duration (by rw [← List.map_dropLast]; exact List.mem_map_of_mem hz)
                simp only [this]
              · intro x hx
                rw [List.getLast?_map] at hx
                obtain ⟨z, hz, rfl⟩ := Option.map_eq_some_iff.mp hx
                have := k3 z.duration (by rw [List.getLast?_map, hz]; rfl)
                exact UInt32.le_iff_toNat_le.mp this
        · intro t ht
          obtain ⟨d, n, c, x, e1, e2, e3, e4, e5, e6, e7, e8, e9⟩ := stretch_cuts start stop l b.start (start + t) (by omega) (by omega) (by omega)
            (by rw [htot]; omega)
          obtain ⟨y, hy, hyt⟩ := stretch_related c3 (fun y x h => by have := hdur y x h; omega) e9
          have hsame := hy.2.2 (start + t) (by omega) (by omega)
          rw [e5, show (x.hi - x.lo).toNat = d by omega, show (start + t - x.lo).toNat = n by omega] at hsame
          refine ⟨d, n, c, _, _, y.content, ?_, ?_, hsame⟩
          · rw [← e1]
            congr 1
            omega
          · rw [← hyt]
            congr 1
            omega
      · rw [if_pos (by simpa using hcov)]
        refine ⟨rfl, fun h => ?_⟩
        have hp := hposs.mp h
        omega

/-! ### C42 -/

/-- C42: the part of a parameter block between two times is made exactly if the block is well formed and covers these times and the contents
can be cut there; otherwise `InvalidArgument` is reported.  (A protocol buffer holds fewer than 2^31 subblocks.) -/
theorem C42_when_a_part_can_be_made {H : Type} (M : GainMath Rat) (b : BlockMetadata H) (start stop : Int)
    (hlen : b.subblocks.length < 2147483648) :
    match b.partition M start stop with
    | .ok _ => Possible b start stop
    | .error e => e = .invalidArgument ∧ ¬ Possible b start stop := by
  have := partition_spec M b start stop hlen
  cases h : b.partition M start stop with
  | ok r => rw [h] at this; exact this.1
  | error e => rw [h] at this; exact this

/-- C42: the part of a parameter block keeps the identifier and the header, is a well formed block that starts and ends where it should, and
at every tick the parameter is what it is in the whole block: gains differ by less than 1/256 dB, everything else not at all. -/
theorem C42_parameters_over_time {H : Type} (M : GainMath Rat) (b r : BlockMetadata H) (start stop : Int)
    (hlen : b.subblocks.length < 2147483648) (h : b.partition M start stop = .ok r) :
    r.id = b.id ∧ r.header = b.header ∧ r.start = start ∧ r.start + r.duration.toNat = stop ∧
    ∃ l l', Timeline b l ∧ Timeline r l' ∧ ∀ t : Nat, t < stop - start → ∃ d n c d' n' c',
      stretchAt l ((start - b.start).toNat + t) = some (d, n, c) ∧ stretchAt l' t = some (d', n', c') ∧ SameAt d n c d' n' c' := by
  have := partition_spec M b start stop hlen
  rw [h] at this
  obtain ⟨-, h1, h2, h3, h4, h5⟩ := this
  exact ⟨h1, h2, h3, by omega, h5⟩

private theorem frames_spec {H : Type} (M : GainMath Rat) (b : BlockMetadata H) (p : UInt32) (stop : Int)
    (hlen : b.subblocks.length < 2147483648) (hstop : stop = b.start + b.duration.toNat) : ∀ (fuel : Nat) (t : Int), stop ≤ t + fuel → b.start ≤ t → t ≤ stop →
    match partitionFrames M b p stop fuel t with
    | .ok rs => t + (rs.length * p.toNat : Nat) = stop ∧ ∀ (k : Nat) (r : BlockMetadata H), rs[k]? = some r →
        b.partition M (t + (k * p.toNat : Nat)) (t + (k * p.toNat : Nat) + p.toNat) = .ok r
    | .error e => e = .invalidArgument ∧ ∃ k : Nat, t + (k * p.toNat : Nat) < stop ∧
        ¬ Possible b (t + (k * p.toNat : Nat)) (t + (k * p.toNat : Nat) + p.toNat) := by
  intro fuel
  induction fuel with
  | zero =>
    intro t h1 h2 h3
    unfold partitionFrames
    rw [if_neg (by omega)]
    exact ⟨by simp; omega, by simp⟩
  | succ fuel ih =>
    intro t h1 h2 h3
    unfold partitionFrames
    by_cases ht : t < stop
    · rw [if_pos ht]
      have hp := C42_when_a_part_can_be_made M b t (t + p.toNat) hlen
      cases hx : b.partition M t (t + p.toNat) with
      | error e =>
        rw [hx] at hp
        exact ⟨hp.1, 0, by simpa using ht, by simpa using hp.2⟩
      | ok x =>
        rw [hx] at hp
        have hp1 := hp.1
        have hp2 := hp.2.2.1
        have := ih (t + p.toNat) (by omega) (by omega) (by omega)
        simp only [Bind.bind, Except.bind]
        have e : ∀ k : Nat, t + p.toNat + (k * p.toNat : Nat) = t + ((k + 1) * p.toNat : Nat) := by
          intro k
          rw [Nat.succ_mul]
          omega
        cases hxs : partitionFrames M b p stop fuel (t + p.toNat) with
        | error e' =>
          rw [hxs] at this
          obtain ⟨a1, k, a2, a3⟩ := this
          rw [e k] at a2 a3
          exact ⟨a1, k + 1, a2, a3⟩
        | ok xs =>
          rw [hxs] at this
          obtain ⟨a1, a2⟩ := this
          rw [e] at a1
          refine ⟨a1, ?_⟩
          intro k r hr
          cases k with
          | zero =>
            simp only [List.getElem?_cons_zero, Option.some.injEq] at hr
            subst hr
            simpa using hx
          | succ k =>
            rw [List.getElem?_cons_succ] at hr
            have := a2 k r hr
            rwa [e k] at this
    · rw [if_neg ht]
      exact ⟨by simp; omega, by simp⟩

/-- C42: a block cut into parts of `p` ticks: the parts are the consecutive ones from its start, each made as above, and they cover the block
exactly, none of it twice.  This works exactly if `p` divides how long the block lasts and every part can be made; otherwise `InvalidArgument`
is reported.  It always ends, also for `p = 0`. -/
theorem C42_frame_aligned {H : Type} (M : GainMath Rat) (b : BlockMetadata H) (p : UInt32) (hlen : b.subblocks.length < 2147483648) :
    match b.partitionFrameAligned M p with
    | .ok rs => rs.length * p.toNat = b.duration.toNat ∧ ∀ (k : Nat) (r : BlockMetadata H), rs[k]? = some r →
        b.partition M (b.start + (k * p.toNat : Nat)) (b.start + (k * p.toNat : Nat) + p.toNat) = .ok r
    | .error e => e = .invalidArgument ∧ b.duration ≠ 0 ∧ ¬ (p ≠ 0 ∧ p.toNat ∣ b.duration.toNat ∧ ∀ k : Nat, k < b.duration.toNat / p.toNat →
        Possible b (b.start + (k * p.toNat : Nat)) (b.start + (k * p.toNat : Nat) + p.toNat)) := by
  have := frames_spec M b p _ hlen rfl b.duration.toNat b.start (by omega) (by omega) (by omega)
  unfold BlockMetadata.partitionFrameAligned
  cases h : partitionFrames M b p (b.start + b.duration.toNat) b.duration.toNat b.start with
  | ok rs =>
    rw [h] at this
    exact ⟨by have := this.1; omega, this.2⟩
  | error e =>
    rw [h] at this
    obtain ⟨h1, k, h2, h3⟩ := this
    refine ⟨h1, ?_, ?_⟩
    · intro hd
      rw [hd] at h2
      simp only [UInt32.toNat_zero] at h2
      omega
    · rintro ⟨hp, ⟨m, hm⟩, hall⟩
      have hp' : 0 < p.toNat := Nat.pos_of_ne_zero fun h => hp (UInt32.toNat_inj.mp h)
      refine h3 (hall k ?_)
      rw [Nat.lt_div_iff_mul_lt_of_dvd hp'.ne' ⟨m, hm⟩]
      omega

private theorem mapM_parts {H : Type} (M : GainMath Rat) (n : UInt32) : ∀ (blocks : List (BlockMetadata H)),
    match (blocks.mapM fun b => b.partitionFrameAligned M n) with
    | .ok parts => List.Forall₂ (fun b rs => b.partitionFrameAligned M n = .ok rs) blocks parts
    | .error e => ∃ b ∈ blocks, b.partitionFrameAligned M n = .error e := by
  intro blocks
  induction blocks with
  | nil => exact .nil
  | cons b blocks ih =>
    simp only [List.mapM_cons]
    cases hb : b.partitionFrameAligned M n with
    | error e => exact ⟨b, List.mem_cons_self .., hb⟩
    | ok rs =>
      cases hm : (blocks.mapM fun b => b.partitionFrameAligned M n) with
      | error e =>
        rw [hm] at ih
        obtain ⟨b', h1, h2⟩ := ih
        exact ⟨b', List.mem_cons_of_mem _ h1, h2⟩
      | ok parts =>
        rw [hm] at ih
        exact .cons hb ih

/-- C42: what the encoder does with all parameter blocks before it encodes them.  It takes the number of samples per frame of the first codec
config, replaces every block by its parts, in order, and drops and adds nothing; it refuses profiles other than Simple, Base and Base Enhanced
and a lack of descriptors, and it refuses all of it if one of the blocks cannot be cut. -/
theorem C42_all_blocks {H : Type} (M : GainMath Rat) (profiles : List UInt8) (frameSizes : List UInt32) (blocks : List (BlockMetadata H))
    (hlen : ∀ b ∈ blocks, b.subblocks.length < 2147483648) :
    match partitionParameterMetadata M profiles frameSizes blocks with
    | .ok out => ∃ profile n parts, profiles[0]? = some profile ∧ profile.toNat ≤ 2 ∧ frameSizes[0]? = some n ∧ out = List.flatten parts ∧
        List.Forall₂ (fun b rs => b.partitionFrameAligned M n = .ok rs) blocks parts
    | .error e => e = .invalidArgument ∧ (profiles = [] ∨ frameSizes = [] ∨ (∃ profile, profiles[0]? = some profile ∧ 2 < profile.toNat) ∨
        ∃ n, frameSizes[0]? = some n ∧ ∃ b ∈ blocks, b.partitionFrameAligned M n = .error .invalidArgument) := by
  unfold partitionParameterMetadata
  match profiles, frameSizes with
  | [], _ => exact ⟨rfl, .inl rfl⟩
  | _ :: _, [] => exact ⟨rfl, .inr (.inl rfl)⟩
  | profile :: ps, n :: ns =>
    have hprof : (profile ≠ 0 ∧ profile ≠ 1 ∧ profile ≠ 2) ↔ 2 < profile.toNat := by
      simp only [ne_eq, ← UInt8.toNat_inj, UInt8.reduceToNat]
      omega
    simp only
    by_cases hp : profile ≠ 0 ∧ profile ≠ 1 ∧ profile ≠ 2
    · rw [if_pos hp]
      exact ⟨rfl, .inr (.inr (.inl ⟨profile, rfl, hprof.mp hp⟩))⟩
    · rw [if_neg hp]
      have := mapM_parts M n blocks
      cases hm : (blocks.mapM fun b => b.partitionFrameAligned M n) with
      | error e =>
        rw [hm] at this
        obtain ⟨b, h1, h2⟩ := this
        have h3 := C42_frame_aligned M b n (hlen b h1)
        rw [h2] at h3
        obtain ⟨rfl, -⟩ := h3
        exact ⟨rfl, .inr (.inr (.inr ⟨n, rfl, b, h1, h2⟩))⟩
      | ok parts =>
        rw [hm] at this
        exact ⟨profile, n, parts, rfl, by have := mt hprof.mpr hp; omega, rfl, rfl, this⟩

/-- C42, finding F28: a gain that does not fit into 16 bits, which the parameter block generator would refuse, is wrapped around by the
partitioner, so that the encoder accepts it as another one. -/
theorem C42_gains_out_of_range_are_wrapped (M : GainMath Rat) (s : Int32) (lo hi a b : Int) (h1 : lo ≤ a) (h2 : a < b) (h3 : b ≤ hi) :
    GainMetadata.partition M (.step s) lo hi a b = .ok (.step s.toInt16.toInt32) := by
  unfold GainMetadata.partition
  simp only [step_at M s lo hi a h1 (by omega), Bind.bind, Except.bind]

example : (65541 : Int32).toInt16.toInt32 = 5 := by decide

/-! ### Examples -/

private def exMath : GainMath Rat := ⟨fun _ => 0, fun x => x⟩

/-- A gain that rises from 0 to 1 dB during 8 ticks, and then stays for 4 more. -/
def exampleAutomation : BlockMetadata Unit := ⟨7, 12, 0, [⟨8, .mixGain (.linear 0 256)⟩, ⟨4, .mixGain (.step 256)⟩], 100, ()⟩

/-- Two demixing modes, each for 4 ticks. -/
def exampleModes : BlockMetadata Unit := ⟨8, 8, 4, [⟨0, .demixing 1 0⟩, ⟨0, .demixing 2 0⟩], 100, ()⟩

/-- Cut into frames of 6 ticks: the second has a part of the line and all of the step. -/
example : exampleAutomation.partitionFrameAligned exMath 6 =
    .ok [⟨7, 6, 6, [⟨6, .mixGain (.linear 0 192)⟩], 100, ()⟩,
      ⟨7, 6, 0, [⟨2, .mixGain (.linear 192 256)⟩, ⟨4, .mixGain (.step 256)⟩], 106, ()⟩] := by decide +kernel

example : exampleModes.partitionFrameAligned exMath 2 =
    .ok [⟨8, 2, 2, [⟨2, .demixing 1 0⟩], 100, ()⟩, ⟨8, 2, 2, [⟨2, .demixing 1 0⟩], 102, ()⟩,
      ⟨8, 2, 2, [⟨2, .demixing 2 0⟩], 104, ()⟩, ⟨8, 2, 2, [⟨2, .demixing 2 0⟩], 106, ()⟩] := by decide +kernel

/-- Two demixing modes do not fit into one part; frames that do not divide the block, and frames of no ticks, are refused. -/
example : exampleModes.partitionFrameAligned exMath 8 = .error .invalidArgument ∧
    exampleModes.partitionFrameAligned exMath 3 = .error .invalidArgument ∧
    exampleModes.partitionFrameAligned exMath 0 = .error .invalidArgument := by decide +kernel

example : exampleAutomation.subblocks.length < 2147483648 ∧ Timeline exampleAutomation [(8, .mixGain (.linear 0 256)), (4, .mixGain (.step 256))] :=
  ⟨by decide, rfl, rfl, by decide, by decide, by decide, fun _ => rfl, fun h => absurd rfl h⟩

example : partitionParameterMetadata exMath [0] [6] [exampleAutomation] =
    .ok [⟨7, 6, 6, [⟨6, .mixGain (.linear 0 192)⟩], 100, ()⟩,
      ⟨7, 6, 0, [⟨2, .mixGain (.linear 192 256)⟩, ⟨4, .mixGain (.step 256)⟩], 106, ()⟩] := by decide +kernel

end Iamf.Props
