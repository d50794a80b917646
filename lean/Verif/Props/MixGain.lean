import Verif.Cli.MixGain
import Verif.Props.Params
import Mathlib.Algebra.Order.Field.Basic
import Mathlib.Tactic.Linarith
import Mathlib.Tactic.FieldSimp
import Mathlib.Tactic.LinearCombination
import Mathlib.Tactic.NormNum
import Mathlib.Analysis.SpecialFunctions.Pow.Real
/-
  C38: the gain of every tick is the one on the animation curve of the subblock that the tick is in.
-/
namespace Iamf.Props
open Iamf

variable {K : Type} [Field K] [LinearOrder K] [IsStrictOrderedRing K]

/-- Specification: `x` (in dB) is the value of the animation `d` that lasts for `duration` ticks, `n` ticks after its start.  The
values are in units of 1/256 dB.
 * A step stays at its value.
 * A line goes from the start to the end.
 * A Bezier curve is the quadratic curve in the plane (time, value) from (0, start) to (duration, end) with the control point (the
   given fraction of the duration in whole ticks, control); `x` is its value at the point of time `n`. -/
def OnCurve (d : MixGainData) (duration n : Nat) (x : K) : Prop := match d with
  | .step s => x = s.toInt / 256
  | .linear s e => x = (s.toInt + (e.toInt - s.toInt) * n / duration) / 256
  | .bezier s e c r => ∃ a : K, 0 ≤ a ∧ a ≤ 1 ∧ 2 * (1 - a) * a * ((duration * r.toNat + 128) / 256 : Nat) + a ^ 2 * duration = n ∧
      x = ((1 - a) ^ 2 * s.toInt + 2 * (1 - a) * a * c.toInt + a ^ 2 * e.toInt) / 256

/-- `root` is a square root. -/
def IsRoot (root : K → K) : Prop := ∀ x, 0 ≤ x → 0 ≤ root x ∧ root x * root x = x

/-- The value where the animation begins. -/
def _root_.Iamf.MixGainData.first : MixGainData → Int16
  | .step s | .linear s _ | .bezier s _ _ _ => s

/-- Whether the animation is a Bezier curve, for which square roots are needed. -/
def _root_.Iamf.MixGainData.isBezier : MixGainData → Bool
  | .bezier .. => true
  | _ => false

/-- All values that the animation is made of. -/
def _root_.Iamf.MixGainData.points : MixGainData → List Int16
  | .step s => [s]
  | .linear s e => [s, e]
  | .bezier s e c _ => [s, e, c]

private theorem controlTime_eq (D : Nat) (r : UInt8) : controlTime D r = ((D * r.toNat + 128) / 256 : Nat) := by
  unfold controlTime
  have : (2 * (D : Int) * r.toNat + 256) = 2 * ((D * r.toNat + 128 : Nat) : Int) := by push_cast; ring
  rw [this, show (512 : Int) = 2 * 256 from rfl, Int.mul_ediv_mul_of_pos _ _ (by omega)]
  omega

private theorem control_le (D : Nat) (r : UInt8) : (D * r.toNat + 128) / 256 ≤ D := by
  have h1 : r.toNat ≤ 255 := by have := r.toNat_lt; omega
  have h2 : D * r.toNat ≤ D * 255 := Nat.mul_le_mul_left _ h1
  omega

/-- The curve parameter that the code computes. -/
private theorem bezier_parameter (root : K → K) (hroot : IsRoot root) (D n n1 : Nat) (hn : n < D) (h1 : n1 ≤ D) :
    let a : K := if (0 - 2 * (n1 : Int) + D = 0) then -((0 - (n : Int) : Int) : K) / ((2 * ((n1 : Int) - 0) : Int) : K)
      else (-((2 * ((n1 : Int) - 0) : Int) : K) + root (((2 * ((n1 : Int) - 0) : Int) : K) * ((2 * ((n1 : Int) - 0) : Int) : K)
        - 4 * ((0 - 2 * (n1 : Int) + D : Int) : K) * ((0 - (n : Int) : Int) : K))) / (2 * ((0 - 2 * (n1 : Int) + D : Int) : K))
    0 ≤ a ∧ a ≤ 1 ∧ 2 * (1 - a) * a * (n1 : K) + a ^ 2 * (D : K) = n := by
  have hnD : (n : K) ≤ D := by exact_mod_cast hn.le
  have hD : (0 : K) < D := by exact_mod_cast (Nat.zero_le n).trans_lt hn
  have hn0 : (0 : K) ≤ n := Nat.cast_nonneg n
  have h10 : (0 : K) ≤ n1 := Nat.cast_nonneg n1
  have h1D : (n1 : K) ≤ D := by exact_mod_cast h1
  intro a
  by_cases h : (0 - 2 * (n1 : Int) + D = 0)
  · have hK : 2 * (n1 : K) = D := by have : 2 * n1 = D := by omega
                                     exact_mod_cast this
    have ha : a = n / D := by
      simp only [a, h, if_true]; push_cast; rw [← hK]; ring
    rw [ha]
    refine ⟨by positivity, by rw [div_le_one hD]; exact hnD, ?_⟩
    have : (n1 : K) = D / 2 := by rw [← hK]; ring
    rw [this]; field_simp; ring
  · have hK : (D : K) - 2 * n1 ≠ 0 := by
      intro h'
      apply h
      have h2 : (D : K) = ((2 * n1 : Nat) : K) := by push_cast; linarith
      have := Nat.cast_injective h2
      omega
    obtain ⟨r, hr⟩ : ∃ r, r = root (4 * (n1 * n1 + ((D : K) - 2 * n1) * n)) := ⟨_, rfl⟩
    have hd : (0 : K) ≤ 4 * (n1 * n1 + ((D : K) - 2 * n1) * n) := by
      rcases le_total 0 ((D : K) - 2 * n1) with h0 | h0
      · positivity
      · nlinarith [mul_le_mul_of_nonpos_left hnD h0, sq_nonneg ((n1 : K) - D)]
    obtain ⟨hr0, hrr⟩ := hroot _ hd
    rw [← hr] at hr0 hrr
    have ha : a = (-(2 * (n1 : K)) + r) / (2 * ((D : K) - 2 * n1)) := by
      have e : ((2 * ((n1 : Int) - 0) : Int) : K) * ((2 * ((n1 : Int) - 0) : Int) : K)
          - 4 * ((0 - 2 * (n1 : Int) + D : Int) : K) * ((0 - (n : Int) : Int) : K) = 4 * (n1 * n1 + ((D : K) - 2 * n1) * n) := by
        push_cast; ring
      simp only [a, h, if_false, e, ← hr]; push_cast
      rw [show (0 : K) - 2 * n1 + D = D - 2 * n1 by ring, sub_zero]
    refine ⟨?_, ?_, ?_⟩
    · rw [ha]
      rcases lt_or_gt_of_ne hK with h0 | h0
      · apply div_nonneg_of_nonpos _ (by linarith)
        have : r ≤ 2 * n1 := abs_le_of_sq_le_sq' (by nlinarith [mul_nonpos_of_nonpos_of_nonneg h0.le hn0]) (by linarith) |>.2
        linarith
      · apply div_nonneg _ (by linarith)
        have : 2 * (n1 : K) ≤ r := abs_le_of_sq_le_sq' (by nlinarith [mul_nonneg h0.le hn0]) hr0 |>.2
        linarith
    · rw [ha]
      rcases lt_or_gt_of_ne hK with h0 | h0
      · rw [div_le_one_of_neg (by linarith)]
        have : 2 * (D : K) - 2 * n1 ≤ r :=
          abs_le_of_sq_le_sq' (by nlinarith [mul_le_mul_of_nonpos_left hnD h0.le]) hr0 |>.2
        linarith
      · rw [div_le_one (by linarith)]
        have : r ≤ 2 * (D : K) - 2 * n1 :=
          abs_le_of_sq_le_sq' (by nlinarith [mul_le_mul_of_nonneg_left hnD h0.le]) (by linarith) |>.2
        linarith
    · have hq : a * (2 * ((D : K) - 2 * n1)) = -(2 * (n1 : K)) + r := by
        rw [ha, div_mul_cancel₀]; exact mul_ne_zero two_ne_zero hK
      have hr' : r = a * (2 * ((D : K) - 2 * n1)) + 2 * n1 := by linarith
      rw [hr'] at hrr
      have : ((D : K) - 2 * n1) * (2 * (1 - a) * a * n1 + a ^ 2 * D - n) = 0 := by linear_combination hrr / 4
      rcases mul_eq_zero.mp this with h' | h'
      · exact absurd h' hK
      · linarith

/-- Within a subblock the code computes a value on the curve. -/
private theorem interpolate_on_curve (M : GainMath K) (d : MixGainData) (S D n : Nat) (hn : n < D) :
    ∃ x : K, interpolateMixGain M d (S : Int) ((S + D : Nat) : Int) ((S + n : Nat) : Int) = .ok x ∧
      ((d.isBezier = true → IsRoot M.root) → OnCurve d D n x) := by
  have hc : ¬ (((S + n : Nat) : Int) < S ∨ ((S + n : Nat) : Int) > ((S + D : Nat) : Int) ∨ (S : Int) > ((S + D : Nat) : Int)) := by omega
  have e1 : ((S + n : Nat) : Int) - S = n := by omega
  have e2 : ((S + D : Nat) : Int) - S = D := by omega
  unfold interpolateMixGain
  rw [if_neg hc]
  simp only [e1, e2]
  have hD : (D : K) ≠ 0 := by have : D ≠ 0 := by omega
                              exact_mod_cast this
  cases d with
  | step s => exact ⟨_, rfl, fun _ => rfl⟩
  | linear s e =>
    refine ⟨_, rfl, fun _ => ?_⟩
    simp only [OnCurve, q78, Int.cast_natCast]; field_simp; ring
  | bezier s e c r =>
    refine ⟨_, rfl, fun hroot => ?_⟩
    rw [controlTime_eq]
    obtain ⟨h0, h1, h2⟩ := bezier_parameter M.root (hroot rfl) D n ((D * r.toNat + 128) / 256) hn (control_le D r)
    refine ⟨_, h0, h1, h2, ?_⟩
    simp only [q78]; ring

/-- The subblock `i` of subblocks that last `ds`. -/
private def Place (ds : List Nat) (p : SubblockPlace) : Prop :=
  ∃ h : p.index < ds.length, p.start = ((ds.take p.index).sum : Nat) ∧ p.stop = ((ds.take p.index).sum + ds[p.index] : Nat)

private theorem sum_take_succ (ds : List Nat) (i : Nat) (h : i < ds.length) : (ds.take (i + 1)).sum = (ds.take i).sum + ds[i] := by
  rw [List.take_succ_eq_append_getElem h, List.sum_append]; simp

private theorem sum_take_mono (ds : List Nat) {i j : Nat} (h : i ≤ j) : (ds.take i).sum ≤ (ds.take j).sum := by
  obtain ⟨k, rfl⟩ := Nat.exists_eq_add_of_le h
  rw [List.take_add, List.sum_append]; omega

private theorem seek_finds (ds : List Nat) (dur : Nat → Except Err UInt32)
    (hd : ∀ (i : Nat) (h : i < ds.length), ∃ d, dur i = .ok d ∧ d.toNat = ds[i]) (t : Nat) :
    ∀ fuel p, ds.length ≤ p.index + fuel + 1 → Place ds p → p.start ≤ t →
      (ds.sum ≤ t ∧ seekSubblock dur ds.length t fuel p = .ok none) ∨
      ∃ q, seekSubblock dur ds.length t fuel p = .ok (some q) ∧ Place ds q ∧ q.start ≤ t ∧ (t : Int) < q.stop := by
  intro fuel
  induction fuel with
  | zero =>
    intro p hf hp hs
    unfold seekSubblock
    obtain ⟨hi, h1, h2⟩ := hp
    by_cases h : p.stop ≤ t
    · left
      have : p.index + 1 = ds.length := by omega
      have h3 := sum_take_succ ds p.index hi
      rw [this, List.take_length] at h3
      exact ⟨by omega, by rw [if_pos h]⟩
    · exact .inr ⟨p, by rw [if_neg h], ⟨hi, h1, h2⟩, hs, by omega⟩
  | succ fuel ih =>
    intro p hf hp hs
    unfold seekSubblock
    by_cases h : p.stop ≤ t
    · rw [if_pos h]
      obtain ⟨hi, h1, h2⟩ := hp
      have h3 := sum_take_succ ds p.index hi
      by_cases hl : ds.length ≤ p.index + 1
      · have : p.index + 1 = ds.length := by omega
        rw [this, List.take_length] at h3
        exact .inl ⟨by omega, by rw [if_pos hl]⟩
      · rw [if_neg hl]
        have hi' : p.index + 1 < ds.length := by omega
        obtain ⟨d, he, hdn⟩ := hd _ hi'
        simp only [he, Bind.bind, Except.bind]
        refine ih _ (by simp only; omega) ⟨hi', ?_, ?_⟩ h
        · simp only [h2, h3]
        · simp only [h2, h3, hdn]; omega
    · exact .inr ⟨p, by rw [if_neg h], hp, hs, by omega⟩

private theorem place_unique {ds : List Nat} {p : SubblockPlace} (hp : Place ds p) {t i n : Nat} (hi : i < ds.length)
    (ht : t = (ds.take i).sum + n) (hn : n < ds[i]) (h1 : p.start ≤ t) (h2 : (t : Int) < p.stop) :
    p.index = i ∧ p.start = ((ds.take i).sum : Nat) ∧ p.stop = ((ds.take i).sum + ds[i] : Nat) := by
  obtain ⟨hj, e1, e2⟩ := hp
  have hij : p.index = i := by
    rcases Nat.lt_trichotomy p.index i with h | h | h
    · have h3 := sum_take_succ ds _ hj
      have := sum_take_mono ds (show p.index + 1 ≤ i from h)
      omega
    · exact h
    · have h3 := sum_take_succ ds _ hi
      have := sum_take_mono ds (show i + 1 ≤ p.index from h)
      omega
  subst hij
  exact ⟨rfl, e1, e2⟩

private theorem fill_gains (M : GainMath K) (ds : List Nat) (dur : Nat → Except Err UInt32)
    (hd : ∀ (i : Nat) (h : i < ds.length), ∃ d, dur i = .ok d ∧ d.toNat = ds[i]) (data : List MixGainData)
    (hl : data.length = ds.length) :
    ∀ (gains : List K) (offset : Nat) (p : SubblockPlace), Place ds p → p.start ≤ offset →
      ∃ out, fillGains M dur ds.length (data.map fun d => some (.mixGain d)) offset p gains = .ok out ∧ out.length = gains.length ∧
        ∀ (k : Nat) (hk : k < gains.length), (ds.sum ≤ offset + k → out[k]? = some gains[k]) ∧
          ∀ (i n : Nat) (hi : i < ds.length), offset + k = (ds.take i).sum + n → n < ds[i] →
            ∃ x, (((data[i]'(by omega)).isBezier = true → IsRoot M.root) → OnCurve (data[i]'(by omega)) ds[i] n x) ∧
              out[k]? = some (M.linear x) := by
  intro gains
  induction gains with
  | nil => intro offset p _ _; exact ⟨[], rfl, rfl, fun k hk => absurd hk (Nat.not_lt_zero _)⟩
  | cons g gs ih =>
    intro offset p hp hs
    unfold fillGains
    rcases seek_finds ds dur hd offset ds.length p (by omega) hp hs with ⟨hsum, h⟩ | ⟨q, h, hq, hq1, hq2⟩
    · rw [h]
      refine ⟨g :: gs, rfl, rfl, ?_⟩
      intro k hk
      refine ⟨fun _ => List.getElem?_eq_getElem hk, ?_⟩
      intro i n hi ht hn
      exfalso
      have h3 := sum_take_succ ds i hi
      have h4 := sum_take_mono ds (show i + 1 ≤ ds.length from hi)
      rw [List.take_length] at h4
      omega
    · rw [h]
      simp only [Bind.bind, Except.bind]
      obtain ⟨hi, e1, e2⟩ := id hq
      have hdata : (data.map fun d => some (ParamData.mixGain d))[q.index]? = some (some (.mixGain (data[q.index]'(by omega)))) := by
        rw [List.getElem?_map, List.getElem?_eq_getElem (by omega)]; rfl
      rw [hdata]
      obtain ⟨n, hn⟩ : ∃ n : Nat, offset = (ds.take q.index).sum + n := ⟨offset - (ds.take q.index).sum, by omega⟩
      have hnd : n < ds[q.index] := by omega
      obtain ⟨x, hx, hxc⟩ := interpolate_on_curve M (data[q.index]'(by omega)) (ds.take q.index).sum ds[q.index] n hnd
      obtain ⟨out, ho, hlen, hall⟩ := ih (offset + 1) q hq (by omega)
      have hx' : interpolateMixGain M (data[q.index]'(by omega)) q.start q.stop (offset : Int) = .ok x := by
        rw [e1, e2, hn]; exact hx
      simp only [hx', ho]
      refine ⟨_, rfl, by simp [hlen], ?_⟩
      intro k hk
      cases k with
      | zero =>
        constructor
        · intro hsum
          exfalso
          have h3 := sum_take_succ ds _ hi
          have h4 := sum_take_mono ds (show q.index + 1 ≤ ds.length from hi)
          rw [List.take_length] at h4
          omega
        · intro i n' hi' ht hn'
          obtain ⟨rfl, -, -⟩ := place_unique hq hi' (by omega) hn' hq1 hq2
          obtain rfl : n' = n := by omega
          exact ⟨x, hxc, rfl⟩
      | succ k =>
        have := hall k (by simpa using hk)
        refine ⟨fun hsum => ?_, fun i n' hi' ht hn' => ?_⟩
        · simpa using this.1 (by omega)
        · simpa using this.2 i n' hi' (by omega) hn'

/-- **C38 (the gain of every tick).** Let a parameter block have subblocks that last `ds`, with data `data`, whether the definition or
the block itself says how long they last.  Then every tick within it gets the gain on the curve of the subblock that the tick is in,
converted from dB; ticks after its end keep the gain they had.  (Square roots have to be exact only for Bezier curves: the rest holds for
rational numbers, too.) -/
theorem C38_gain_of_every_tick (M : GainMath K) (p : ParamDef) (g : Int16) (hp : p.spec = .mixGain g)
    (b : ParameterBlock) (s : SubblockSchedule) (hs : b.schedule = some s ∨ b.schedule = none ∧ p.base.schedule = some s)
    (ds : List UInt32) (hds : SchedulesExactly s ds) (data : List MixGainData) (hl : data.length = ds.length)
    (hb : b.subblocks = data.map fun d => some (.mixGain d)) (gains : List K) :
    ∃ out, b.linearMixGains M p gains = .ok out ∧ out.length = gains.length ∧
      ∀ (t : Nat) (ht : t < gains.length),
        (s.duration.toNat ≤ t → out[t]? = some gains[t]) ∧
        ∀ (i n : Nat) (hi : i < ds.length), t = ((ds.take i).map UInt32.toNat).sum + n → n < ds[i].toNat →
          ∃ x, (((data[i]'(by omega)).isBezier = true → IsRoot M.root) → OnCurve (data[i]'(by omega)) ds[i].toNat n x) ∧
            out[t]? = some (M.linear x) := by
  obtain ⟨hn, h1, -, hdur, -, hsum, -⟩ := hds
  have hnum : (b.numSubblocks p).toNat = ds.length := by
    unfold ParameterBlock.numSubblocks
    rcases hs with hs | ⟨hs, hs'⟩
    · rw [hs]; exact hn
    · rw [hs]; simp only [hs']; exact hn
  have hget : ∀ (i : Nat) (hi : i < ds.length), b.subblockDuration p i = .ok ds[i] := by
    intro i hi
    unfold ParameterBlock.subblockDuration
    rcases hs with hs | ⟨hs, hs'⟩
    · rw [hs]; exact hdur i hi
    · rw [hs]; simp only [hs']; exact hdur i hi
  obtain ⟨out, ho, hlen, hall⟩ := fill_gains M (ds.map UInt32.toNat) (b.subblockDuration p)
    (fun i hi => ⟨ds[i]'(by simpa using hi), hget i (by simpa using hi), by simp⟩) data (by simpa using hl) gains 0
    ⟨0, 0, (ds[0].toNat : Nat)⟩ ⟨by simp only [List.length_map]; omega, by simp, by simp⟩ (by simp)
  refine ⟨out, ?_, hlen, ?_⟩
  · unfold ParameterBlock.linearMixGains
    rw [if_neg (by rw [hp]; simp [ParamSpecific.type])]
    rw [hget 0 (by omega), hnum, hb]
    simp only [Bind.bind, Except.bind]
    rw [List.length_map] at ho
    exact ho
  · intro t ht
    obtain ⟨ha, hb'⟩ := hall t ht
    rw [Nat.zero_add] at ha hb'
    refine ⟨fun h => ha (by omega), fun i n hi htn hnd => ?_⟩
    have := hb' i n (by simpa using hi) (by rw [← List.map_take]; exact htn) (by simpa using hnd)
    simpa using this

/-- **C38 (blocks that are read).** Every parameter block that was read, from any bytes, for a mix gain definition that is itself
consistent, has a gain for every tick: what `C38_gain_of_every_tick` says holds for it. -/
theorem C38_read_blocks_have_gains (M : GainMath K) (hroot : IsRoot M.root) (p : ParamDef) (g : Int16) (hp : p.spec = .mixGain g)
    (hm : ∀ s, p.base.schedule = some s → s.Made) (size : Int) (src : List UInt8) (cap : Nat) (pv : Bool) (hc : 0 < cap)
    (b : ParameterBlock) (hr : ((ParameterBlock.read p size).run (RBuf.create cap src pv)).1 = .ok b) (gains : List K) :
    ∃ (s : SubblockSchedule) (ds : List UInt32) (data : List MixGainData) (out : List K), SchedulesExactly s ds ∧
      data.length = ds.length ∧ b.subblocks = data.map (fun d => some (.mixGain d)) ∧
      b.linearMixGains M p gains = .ok out ∧ out.length = gains.length ∧
      ∀ (t : Nat) (ht : t < gains.length),
        (s.duration.toNat ≤ t → out[t]? = some gains[t]) ∧
        ∀ (i n : Nat) (hi : i < ds.length), t = ((ds.take i).map UInt32.toNat).sum + n → n < ds[i].toNat →
          ∃ d x, data[i]? = some d ∧ OnCurve d ds[i].toNat n x ∧ out[t]? = some (M.linear x) := by
  obtain ⟨data, ⟨-, hb, hd, hs⟩, -, hl⟩ := C12_read_block_matches_definition p size src cap pv hc b hr
  obtain ⟨gs, rfl⟩ : ∃ gs : List MixGainData, data = gs.map .mixGain := by
    clear hb hl hs
    induction data with
    | nil => exact ⟨[], rfl⟩
    | cons d data ih =>
      obtain ⟨gs, rfl⟩ := ih fun x hx => hd x (List.mem_cons_of_mem _ hx)
      have := hd d (List.mem_cons_self ..)
      rw [hp] at this
      cases d with
      | mixGain m => exact ⟨m :: gs, rfl⟩
      | _ => exact this.elim
  obtain ⟨s, hs', hmade, hlen⟩ : ∃ s, (b.schedule = some s ∨ b.schedule = none ∧ p.base.schedule = some s) ∧ s.Made ∧
      gs.length = s.numSubblocks.toNat := by
    cases hps : p.base.schedule with
    | some s => rw [hps] at hs; exact ⟨s, .inr ⟨hs.1, rfl⟩, hm s hps, by simpa using hs.2⟩
    | none => rw [hps] at hs; obtain ⟨s, h1, h2⟩ := hs; exact ⟨s, .inl h1, h2, by simpa using hl s h1⟩
  obtain ⟨ds, hds⟩ := made_schedules hmade
  have hgl : gs.length = ds.length := hlen.trans hds.1
  have hb' : b.subblocks = gs.map (fun d => some (.mixGain d)) := by rw [hb, List.map_map]; rfl
  obtain ⟨out, ho, hol, hall⟩ := C38_gain_of_every_tick M p g hp b s hs' ds hds gs hgl hb' gains
  refine ⟨s, ds, gs, out, hds, hgl, hb', ho, hol, fun t ht => ⟨(hall t ht).1, fun i n hi htn hn => ?_⟩⟩
  obtain ⟨x, hx, hox⟩ := (hall t ht).2 i n hi htn hn
  exact ⟨_, x, List.getElem?_eq_getElem (by omega), hx fun _ => hroot, hox⟩

/-- **C38 (the curve determines the gain).** There is only one value on a curve at a time. -/
theorem C38_one_value_at_a_time (d : MixGainData) (duration n : Nat) (h : 0 < duration) (x y : K) (hx : OnCurve d duration n x)
    (hy : OnCurve d duration n y) : x = y := by
  cases d with
  | step s => exact hx.trans hy.symm
  | linear s e => exact hx.trans hy.symm
  | bezier s e c r =>
    obtain ⟨a, a0, a1, ha, rfl⟩ := hx
    obtain ⟨b, b0, b1, hb, rfl⟩ := hy
    have hle : (((duration * r.toNat + 128) / 256 : Nat) : K) ≤ duration := by exact_mod_cast control_le duration r
    have h0 : (0 : K) ≤ ((duration * r.toNat + 128) / 256 : Nat) := Nat.cast_nonneg _
    have hD : (0 : K) < duration := by exact_mod_cast h
    generalize (((duration * r.toNat + 128) / 256 : Nat) : K) = c1 at *
    suffices a = b by rw [this]
    have hz : (a - b) * (2 * c1 + (a + b) * (duration - 2 * c1)) = 0 := by linear_combination ha - hb
    rcases mul_eq_zero.mp hz with h' | h'
    · linarith
    · -- twice the bracket is `(2 - (a + b)) * 2 c1 + (a + b) * 2 (duration - c1)`
      have h1 : (2 - (a + b)) * c1 + (a + b) * (duration - c1) = 0 := by linear_combination h'
      have h2 : 0 ≤ (2 - (a + b)) * c1 := mul_nonneg (by linarith) h0
      have h3 : 0 ≤ (a + b) * (duration - c1) := mul_nonneg (by linarith) (by linarith)
      have h4 : (2 - (a + b)) * c1 = 0 := by linarith
      have h5 : (a + b) * (duration - c1) = 0 := by linarith
      rcases mul_eq_zero.mp h4 with h6 | h6
      · linarith
      · rcases mul_eq_zero.mp h5 with h7 | h7
        · linarith
        · exfalso; linarith

/-- **C38 (beginning).** An animation begins with its first value. -/
theorem C38_begins_with_the_first_value (d : MixGainData) (duration : Nat) (h : 0 < duration) (x : K) (hx : OnCurve d duration 0 x) :
    x = d.first.toInt / 256 := by
  cases d with
  | step s => exact hx
  | linear s e => simpa [OnCurve, MixGainData.first] using hx
  | bezier s e c r =>
    refine C38_one_value_at_a_time (.bezier s e c r) duration 0 h x _ hx ⟨0, le_refl _, zero_le_one, by simp, ?_⟩
    simp [MixGainData.first]

/-- **C38 (no overshoot).** The gain never leaves the range of the values that the animation is made of. -/
theorem C38_stays_within_its_values (d : MixGainData) (duration n : Nat) (h : 0 < duration) (hn : n ≤ duration) (x : K)
    (hx : OnCurve d duration n x) (lo hi : Int) (hp : ∀ v ∈ d.points, lo ≤ v.toInt ∧ v.toInt ≤ hi) :
    (lo : K) / 256 ≤ x ∧ x ≤ (hi : K) / 256 := by
  have cast : ∀ v ∈ d.points, (lo : K) ≤ (v.toInt : K) ∧ (v.toInt : K) ≤ hi := fun v hv =>
    ⟨by exact_mod_cast (hp v hv).1, by exact_mod_cast (hp v hv).2⟩
  clear hp
  have hD : (0 : K) < duration := by exact_mod_cast h
  have hnD : (n : K) ≤ duration := by exact_mod_cast hn
  have hn0 : (0 : K) ≤ n := Nat.cast_nonneg n
  cases d with
  | step s =>
    have := cast s (by simp [MixGainData.points])
    obtain rfl : x = s.toInt / 256 := hx
    constructor <;> linarith [this.1, this.2]
  | linear s e =>
    have h1 := cast s (by simp [MixGainData.points])
    have h2 := cast e (by simp [MixGainData.points])
    obtain rfl : x = (s.toInt + (e.toInt - s.toInt) * n / duration) / 256 := hx
    obtain ⟨u, hu⟩ : ∃ u : K, u = n / duration := ⟨_, rfl⟩
    have hu0 : 0 ≤ u := by rw [hu]; positivity
    have hu1 : u ≤ 1 := by rw [hu, div_le_one hD]; exact hnD
    have e1 : (s.toInt : K) + ((e.toInt : K) - s.toInt) * n / duration = (1 - u) * s.toInt + u * e.toInt := by rw [hu]; field_simp; ring
    rw [e1]
    constructor
    · have := mul_le_mul_of_nonneg_left h1.1 (by linarith : (0 : K) ≤ 1 - u)
      have := mul_le_mul_of_nonneg_left h2.1 hu0
      linarith
    · have := mul_le_mul_of_nonneg_left h1.2 (by linarith : (0 : K) ≤ 1 - u)
      have := mul_le_mul_of_nonneg_left h2.2 hu0
      linarith
  | bezier s e c r =>
    have h1 := cast s (by simp [MixGainData.points])
    have h2 := cast e (by simp [MixGainData.points])
    have h3 := cast c (by simp [MixGainData.points])
    obtain ⟨a, a0, a1, -, rfl⟩ := hx
    have w1 : (0 : K) ≤ (1 - a) ^ 2 := sq_nonneg _
    have w2 : (0 : K) ≤ 2 * (1 - a) * a := mul_nonneg (by linarith) a0
    have w3 : (0 : K) ≤ a ^ 2 := sq_nonneg _
    have hsum : ∀ z : K, (1 - a) ^ 2 * z + 2 * (1 - a) * a * z + a ^ 2 * z = z := fun z => by ring
    constructor
    · have := hsum lo
      have := mul_le_mul_of_nonneg_left h1.1 w1
      have := mul_le_mul_of_nonneg_left h3.1 w2
      have := mul_le_mul_of_nonneg_left h2.1 w3
      linarith
    · have := hsum hi
      have := mul_le_mul_of_nonneg_left h1.2 w1
      have := mul_le_mul_of_nonneg_left h3.2 w2
      have := mul_le_mul_of_nonneg_left h2.2 w3
      linarith

/-- **C38 (without a block).** If the definition is for the rate of the audio and there is no block, every tick gets the default gain;
another rate is refused whether or not there is a block. -/
theorem C38_default_gain (M : GainMath K) (rate : UInt32) (blocks : UInt32 → Option BlockWithData) (base : ParamBase) (g : Int16)
    (ticks : Nat) :
    (base.rate = rate → blocks base.id = none →
      mixGainsPerTick M rate blocks ⟨base, .mixGain g⟩ ticks = .ok (List.replicate ticks (M.linear ((g.toInt : K) / 256)))) ∧
    (base.rate ≠ rate → mixGainsPerTick M rate blocks ⟨base, .mixGain g⟩ ticks = .error .unimplemented) := by
  unfold mixGainsPerTick
  constructor
  · intro h1 h2
    simp only [h1, ne_eq, not_true_eq_false, if_false, h2]; rfl
  · intro h1
    rw [if_pos h1]

/-- The functions of the library, on real numbers. -/
noncomputable def realGainMath : GainMath ℝ := ⟨Real.sqrt, fun x => (10 : ℝ) ^ (x / 20)⟩

/-- **C38 (real numbers).** With real numbers, the square root and the power function, all of the above applies; 0 dB is a factor of
1, and gains are never negative. -/
theorem C38_on_real_numbers : IsRoot realGainMath.root ∧ realGainMath.linear 0 = 1 ∧ (∀ x, 0 < realGainMath.linear x) ∧
    ∀ x y, x ≤ y → realGainMath.linear x ≤ realGainMath.linear y := by
  refine ⟨fun x hx => ⟨Real.sqrt_nonneg x, Real.mul_self_sqrt hx⟩, ?_, ?_, ?_⟩
  · simp [realGainMath]
  · intro x; exact Real.rpow_pos_of_pos (by norm_num) _
  · intro x y h
    exact Real.rpow_le_rpow_of_exponent_le (by norm_num) (by linarith)

/-- Two subblocks of 2 and 4 ticks, a step of 1 dB and a line from 0 to 2 dB; the last two of eight ticks keep what they had.  (The
gains are left in dB.) -/
example : ParameterBlock.linearMixGains (K := Rat) ⟨id, id⟩ ⟨⟨7, 48000, 0, none⟩, .mixGain 0⟩
    ⟨7, some ⟨6, 0, 2, [2, 4]⟩, [some (.mixGain (.step 256)), some (.mixGain (.linear 0 512))]⟩ (List.replicate 8 (-1)) =
    .ok [1, 1, 0, 1 / 2, 1, 3 / 2, -1, -1] := by decide +kernel

/-- Its schedule meets the hypotheses of `C38_gain_of_every_tick`. -/
example : SchedulesExactly ⟨6, 0, 2, [2, 4]⟩ [2, 4] :=
  (C18_created_schedules_add_up).2 [2, 4] _ (by decide) (by decide +kernel)

/-- A Bezier curve with the control point in the middle is a parabola over time. -/
example : OnCurve (K := Rat) (.bezier 0 0 512 128) 4 2 1 := by
  refine ⟨1 / 2, ?_, ?_, ?_, ?_⟩ <;> decide +kernel

end Iamf.Props
