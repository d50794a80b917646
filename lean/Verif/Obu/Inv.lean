import Verif.Obu.HeaderProofs
/-
  Reading arbitrary input: what a successful read consumed, safety (no abort / UB / divergence), and
  stability under appending data.
-/
namespace Iamf

theorem Rd.runA_bind_ok {α β : Type} {p : Rd α} {f : α → Rd β} {s s'' : RS} {b : β}
    (h : (p.bind f).runA s = (.ok b, s'')) :
    ∃ a s', p.runA s = (.ok a, s') ∧ (f a).runA s' = (.ok b, s'') := by
  rw [Rd.runA_bind] at h
  match hp : p.runA s with
  | (.ok a, s') => rw [hp] at h; exact ⟨a, s', rfl, h⟩
  | (.error e, s') => rw [hp] at h; simp at h

/-- The cursor stays inside the source and the source is unchanged. -/
theorem Rd.runA_inside {α : Type} (p : Rd α) (s : RS) (hs : s.pos ≤ s.src.length) :
    (p.runA s).2.pos ≤ (p.runA s).2.src.length ∧ (p.runA s).2.src = s.src := by
  induction p generalizing s with
  | ret a => exact ⟨hs, rfl⟩
  | fail e => exact ⟨hs, rfl⟩
  | lit m n k ih =>
    simp only [runA]
    have hr : (s.read n m).2.pos ≤ (s.read n m).2.src.length ∧ (s.read n m).2.src = s.src := by
      unfold RS.read
      split
      · exact ⟨hs, rfl⟩
      · split
        · exact ⟨hs, rfl⟩
        · split
          · exact ⟨hs, rfl⟩
          · next h => exact ⟨by simp only; omega, rfl⟩
    match hx : s.read n m with
    | (.ok v, s') =>
      rw [hx] at hr
      obtain ⟨h1, h2⟩ := ih v s' hr.1
      exact ⟨h1, h2.trans hr.2⟩
    | (.error e, s') => rw [hx] at hr; exact hr
  | tell k ih => exact ih _ _ hs
  | seek p k ih =>
    simp only [runA]
    have hr : (s.seek p).2.pos ≤ (s.seek p).2.src.length ∧ (s.seek p).2.src = s.src := by
      unfold RS.seek
      split
      · exact ⟨hs, rfl⟩
      · split
        · exact ⟨hs, rfl⟩
        · split
          · exact ⟨hs, rfl⟩
          · next h => exact ⟨by simp only; omega, rfl⟩
    match hx : s.seek p with
    | (.ok (), s') =>
      rw [hx] at hr
      obtain ⟨h1, h2⟩ := ih s' hr.1
      exact ⟨h1, h2.trans hr.2⟩
    | (.error e, s') => rw [hx] at hr; exact hr
  | avail k ih => exact ih _ _ hs
  | attempt m k ihm ih =>
    simp only [runA]
    have hr := ihm s hs
    match hx : m.runA s with
    | (.ok a, s') =>
      rw [hx] at hr
      obtain ⟨h1, h2⟩ := ih _ s' hr.1
      exact ⟨h1, h2.trans hr.2⟩
    | (.error e, s') =>
      rw [hx] at hr
      simp only
      split
      · exact hr
      · obtain ⟨h1, h2⟩ := ih _ s' hr.1
        exact ⟨h1, h2.trans hr.2⟩

/-! ### What successful primitives consumed -/

theorem rd_lit_ok {α : Type} {m : Nat} {n : Nat} {k : Nat → Rd α} {s s'' : RS} {a : α}
    (h : (Rd.lit m n k).runA s = (.ok a, s'')) :
    ∃ v, v < 2 ^ n ∧ (k v).runA ⟨s.src, s.pos + n, true⟩ = (.ok a, s'') ∧ s.pos + n ≤ s.src.length ∧
      v = bitsNat (s.rest.take n) := by
  simp only [Rd.runA, RS.read] at h
  split at h
  next v s' hx =>
    split at hx
    · simp at hx
    · split at hx
      · simp at hx
      · split at hx
        · simp at hx
        · next hlen =>
          simp only [Int.toNat_natCast, Prod.mk.injEq, Except.ok.injEq] at hx
          obtain ⟨rfl, rfl⟩ := hx
          simp only [Int.toNat_natCast] at hlen
          refine ⟨_, ?_, h, by omega, rfl⟩
          refine Nat.lt_of_lt_of_le (bitsNat_lt _) (Nat.pow_le_pow_right (by omega) ?_)
          simp only [List.length_take]; omega
  next => simp at h

theorem rBool_ok {s s' : RS} {b : Bool} (h : rBool.runA s = (.ok b, s')) :
    s' = ⟨s.src, s.pos + 1, true⟩ := by
  obtain ⟨v, -, h, -, -⟩ := rd_lit_ok (n := 1) h
  simp only [Rd.runA, Prod.mk.injEq] at h
  exact h.2.symm

theorem rU64_ok {n : Nat} {s s' : RS} {v : UInt64} (hn : n ≤ 64) (h : (rU64 n).runA s = (.ok v, s')) :
    s' = ⟨s.src, s.pos + n, true⟩ ∧ v.toNat < 2 ^ n := by
  obtain ⟨x, hx, h, -, -⟩ := rd_lit_ok (n := n) h
  simp only [Rd.runA, Prod.mk.injEq, Except.ok.injEq] at h
  refine ⟨h.2.symm, ?_⟩
  rw [← h.1, UInt64.toNat_ofNat']
  exact Nat.lt_of_le_of_lt (Nat.mod_le _ _) hx

theorem rU8_ok {n : Nat} {s s' : RS} {v : UInt8} (h : (rU8 n).runA s = (.ok v, s')) :
    s' = ⟨s.src, s.pos + n, true⟩ ∧ v.toNat < 2 ^ n := by
  obtain ⟨x, hx, h, -, -⟩ := rd_lit_ok (n := n) h
  simp only [Rd.runA, Prod.mk.injEq, Except.ok.injEq] at h
  refine ⟨h.2.symm, ?_⟩
  rw [← h.1, UInt8.toNat_ofNat']
  exact Nat.lt_of_le_of_lt (Nat.mod_le _ _) hx

theorem rU32_ok {n : Nat} {s s' : RS} {v : UInt32} (h : (rU32 n).runA s = (.ok v, s')) :
    s' = ⟨s.src, s.pos + n, true⟩ ∧ v.toNat < 2 ^ n := by
  obtain ⟨x, hx, h, -, -⟩ := rd_lit_ok (n := n) h
  simp only [Rd.runA, Prod.mk.injEq, Except.ok.injEq] at h
  refine ⟨h.2.symm, ?_⟩
  rw [← h.1, UInt32.toNat_ofNat']
  exact Nat.lt_of_le_of_lt (Nat.mod_le _ _) hx

theorem rBytes_ok {n : Nat} {s s' : RS} {l : List UInt8} (h : (rBytes n).runA s = (.ok l, s')) :
    s'.src = s.src ∧ s'.pos = s.pos + 8 * n ∧ l.length = n ∧ (s.valid = true → s'.valid = true) := by
  induction n generalizing s s' l with
  | zero =>
    simp only [rBytes, Rd.runA_ret, Prod.mk.injEq, Except.ok.injEq] at h
    obtain ⟨rfl, rfl⟩ := h
    exact ⟨rfl, rfl, rfl, id⟩
  | succ n ih =>
    simp only [rBytes] at h
    obtain ⟨b, s1, h1, h⟩ := Rd.runA_bind_ok h
    obtain ⟨bs, s2, h2, h3⟩ := Rd.runA_bind_ok h
    obtain ⟨rfl, -⟩ := rU8_ok (n := 8) h1
    obtain ⟨e1, e2, e3, e4⟩ := ih h2
    simp only [Rd.runA_ret, Prod.mk.injEq, Except.ok.injEq] at h3
    obtain ⟨rfl, rfl⟩ := h3
    refine ⟨e1, by simp only at e2; omega, by simp [e3], fun _ => e4 rfl⟩

theorem accumLoop_ok {f : Nat → Nat → Nat → Nat} {mx fuel i acc : Nat} {s s' : RS} {p : UInt32 × Nat}
    (h : (accumLoop f mx fuel i acc).runA s = (.ok p, s')) :
    s'.src = s.src ∧ s'.pos + 8 * i = s.pos + 8 * p.2 ∧ i ≤ p.2 ∧ p.2 ≤ i + fuel ∧
      (s.valid = true ∨ i < p.2 → s'.valid = true) := by
  induction fuel generalizing i acc s with
  | zero =>
    simp only [accumLoop, Rd.runA_ret, Prod.mk.injEq, Except.ok.injEq] at h
    obtain ⟨rfl, rfl⟩ := h
    exact ⟨rfl, rfl, by simp, by simp, by simp⟩
  | succ fuel ih =>
    simp only [accumLoop] at h
    obtain ⟨v, -, h, -, -⟩ := rd_lit_ok (n := 8) h
    split at h
    · simp at h
    · split at h
      · simp at h
      · split at h
        · simp only [Rd.runA_ret, Prod.mk.injEq, Except.ok.injEq] at h
          obtain ⟨rfl, rfl⟩ := h
          exact ⟨rfl, by simp only; omega, by simp, by simp only; omega, by simp⟩
        · obtain ⟨e1, e2, e3, e4, e5⟩ := ih h
          exact ⟨e1, by simp only at e2; omega, by omega, by omega, fun _ => e5 (.inl rfl)⟩

theorem rUlebSize_ok {s s' : RS} {p : UInt32 × Nat} (h : rUlebSize.runA s = (.ok p, s')) :
    s'.src = s.src ∧ s'.pos = s.pos + 8 * p.2 ∧ p.2 ≤ 8 := by
  obtain ⟨e1, e2, e3, e4, -⟩ := accumLoop_ok h
  unfold kMaxLeb128Size at e4
  exact ⟨e1, by omega, by omega⟩

theorem Rd.check_bind_ok {β : Type} {c : Bool} {e : Err} {f : Unit → Rd β} {s s' : RS} {b : β}
    (h : ((Rd.check c e).bind f).runA s = (.ok b, s')) : c = true ∧ (f ()).runA s = (.ok b, s') := by
  cases c
  · simp [Rd.check, Rd.bind] at h
  · exact ⟨rfl, h⟩

theorem Rd.status_bind_ok {β : Type} {st : Except Err Unit} {f : Unit → Rd β} {s s' : RS} {b : β}
    (h : ((Rd.status st).bind f).runA s = (.ok b, s')) : st = .ok () ∧ (f ()).runA s = (.ok b, s') := by
  match st with
  | .ok () => exact ⟨rfl, h⟩
  | .error e => simp [Rd.status, Rd.bind] at h

/-! ### Header and framing on arbitrary input -/

/-- A successfully read header: how far the cursor moved, and the payload size it announces. -/
theorem header_read_ok {s s' : RS} {h : ObuHeader} {n : Int} (hr : ObuHeader.read.runA s = (.ok (h, n), s'))
    (hp : s.pos ≤ s.src.length) (hsmall : s.src.length < 8 * 4294967295) :
    ∃ (obuSize : UInt32) (szLen : Nat), szLen ≤ 8 ∧
      ObuHeader.fillMetadata.runA s = (.ok (h.obuType, ((obuSize + UInt32.ofNat szLen + 1).toNat : Int)),
        ⟨s.src, s.pos + 8 + 8 * szLen, true⟩) ∧
      obuSize.toNat ≤ kEntireObuSizeMaxTwoMegabytes - 1 - szLen ∧ s'.src = s.src ∧ 0 ≤ n ∧
      (s'.pos : Int) + 8 * n = s.pos + 8 * (1 + szLen + obuSize.toNat) ∧ h.valid = true ∧
      s.pos + 8 + 8 * szLen ≤ s'.pos := by
  have hins := Rd.runA_inside ObuHeader.read s hp
  rw [hr] at hins
  simp only [ObuHeader.read, Rd.bind_eq, Rd.pure_eq] at hr
  obtain ⟨t, s1, h1, hr⟩ := Rd.runA_bind_ok hr
  obtain ⟨rc, s2, h2, hr⟩ := Rd.runA_bind_ok hr
  obtain ⟨ts, s3, h3, hr⟩ := Rd.runA_bind_ok hr
  obtain ⟨ef, s4, h4, hr⟩ := Rd.runA_bind_ok hr
  obtain ⟨sz, s5, h5, hr⟩ := Rd.runA_bind_ok hr
  obtain ⟨hst, hr⟩ := Rd.status_bind_ok hr
  obtain ⟨trims, s6, h6, hr⟩ := Rd.runA_bind_ok hr
  obtain ⟨es, s7, h7, hr⟩ := Rd.runA_bind_ok hr
  obtain ⟨hneg, hr⟩ := Rd.check_bind_ok hr
  obtain ⟨ext, s8, h8, hr⟩ := Rd.runA_bind_ok hr
  obtain ⟨hval, hr⟩ := Rd.check_bind_ok hr
  simp only [Rd.runA_ret, Prod.mk.injEq, Except.ok.injEq] at hr
  obtain ⟨⟨rfl, rfl⟩, rfl⟩ := hr
  obtain ⟨e1, -⟩ := rU64_ok (n := 5) (by omega) h1
  have e2 := rBool_ok h2
  have e3 := rBool_ok h3
  have e4 := rBool_ok h4
  obtain ⟨e5, p5, l5⟩ := rUlebSize_ok h5
  have hfill : ObuHeader.fillMetadata.runA s =
      (.ok (t.toUInt8, ((sz.1 + UInt32.ofNat sz.2 + 1).toNat : Int)), s5) := by
    simp only [ObuHeader.fillMetadata, Rd.bind_eq, Rd.pure_eq, Rd.runA_bind, h1, h2, h3, h4, h5, Rd.runA_ret]
  have p1 : s1.pos = s.pos + 5 := by rw [e1]
  have p2 : s2.pos = s.pos + 6 := by rw [e2, p1]
  have p3 : s3.pos = s.pos + 7 := by rw [e3, p2]
  have p4 : s4.pos = s.pos + 8 := by rw [e4, p3]
  have src5 : s5.src = s.src := by rw [e5, e4, e3, e2, e1]
  have v5 : s5.valid = true := by
    obtain ⟨-, -, -, -, e⟩ := accumLoop_ok h5
    apply e; left; rw [e4]
  have e5' : s5 = ⟨s.src, s.pos + 8 + 8 * sz.2, true⟩ := by
    have : s5 = ⟨s5.src, s5.pos, s5.valid⟩ := rfl
    rw [this, src5, v5, p5, p4]
  have hst' : sz.1.toNat ≤ kEntireObuSizeMaxTwoMegabytes - 1 - sz.2 := by
    unfold validateUnderTwoMb at hst
    split at hst
    · simp at hst
    · split at hst
      · simp at hst
      · omega
  have q6 : s6.src = s5.src ∧ s6.pos = s5.pos + 8 * (trims.1.2 + trims.2.2) ∧ trims.1.2 + trims.2.2 ≤ 16 := by
    split at h6
    · obtain ⟨e, u1, k1, h6⟩ := Rd.runA_bind_ok h6
      obtain ⟨f, u2, k2, h6⟩ := Rd.runA_bind_ok h6
      simp only [Rd.runA_ret, Prod.mk.injEq, Except.ok.injEq] at h6
      obtain ⟨rfl, rfl⟩ := h6
      obtain ⟨a1, a2, a3⟩ := rUlebSize_ok k1
      obtain ⟨c1, c2, c3⟩ := rUlebSize_ok k2
      exact ⟨by rw [c1, a1], by simp only; omega, by simp only; omega⟩
    · simp only [Rd.runA_ret, Prod.mk.injEq, Except.ok.injEq] at h6
      obtain ⟨rfl, rfl⟩ := h6
      exact ⟨rfl, rfl, by simp⟩
  have q78 : s8.src = s6.src ∧ s8.pos = s6.pos + 8 * (es.2 + es.1.toNat) ∧ es.2 ≤ 8 := by
    split at h7
    next hef =>
      rw [if_pos hef] at h8
      obtain ⟨bytes, u1, k1, h8⟩ := Rd.runA_bind_ok h8
      simp only [Rd.runA_ret, Prod.mk.injEq, Except.ok.injEq] at h8
      obtain ⟨rfl, rfl⟩ := h8
      obtain ⟨a1, a2, a3⟩ := rUlebSize_ok h7
      obtain ⟨b1, b2, b3, -⟩ := rBytes_ok k1
      exact ⟨by rw [b1, a1], by omega, a3⟩
    next hef =>
      rw [if_neg hef] at h8
      simp only [Rd.runA_ret, Prod.mk.injEq, Except.ok.injEq] at h7 h8
      obtain ⟨rfl, rfl⟩ := h7
      obtain ⟨rfl, rfl⟩ := h8
      exact ⟨rfl, rfl, by simp⟩
  have hsrc8 : s8.src = s.src := by rw [q78.1, q6.1, src5]
  have hin : s8.pos ≤ s8.src.length := hins.1
  rw [hsrc8] at hin
  refine ⟨sz.1, sz.2, l5, ?_, hst', hsrc8, ?_, ?_, hval, ?_⟩
  · rw [hfill, e5']
  · simp only [Bool.not_eq_true', decide_eq_false_iff_not] at hneg
    omega
  · -- the uint32 sum does not wrap, because the bytes are really there
    have hnw : (UInt32.ofNat (trims.1.2 + trims.2.2 + es.2) + es.1).toNat = trims.1.2 + trims.2.2 + es.2 + es.1.toNat := by
      rw [UInt32.toNat_add, UInt32.toNat_ofNat']
      have := es.1.toNat_lt
      omega
    unfold ObuHeader.payloadSizeOf
    rw [hnw]
    omega
  · omega

/-- A successfully read payload (with footer) ends exactly where `obu_size` says. -/
theorem obuPayload_ok {α : Type} {derived : Int → Rd α} {n : Int} {s s' : RS} {r : α × List UInt8}
    (h : (rObuPayload derived n).runA s = (.ok r, s')) (hp : s.pos ≤ s.src.length) :
    (s'.pos : Int) = s.pos + 8 * n ∧ s'.src = s.src := by
  have hins := Rd.runA_inside (rObuPayload derived n) s hp
  rw [h] at hins
  refine ⟨?_, hins.2⟩
  unfold rObuPayload at h
  simp only [Rd.runA] at h
  obtain ⟨a, s1, h1, h⟩ := Rd.runA_bind_ok h
  simp only [Rd.runA] at h
  split at h
  · simp only [Rd.runA_ret, Prod.mk.injEq, Except.ok.injEq] at h
    obtain ⟨-, rfl⟩ := h
    simp only; omega
  · split at h
    · split at h
      · simp at h
      · obtain ⟨f, s2, h2, h⟩ := Rd.runA_bind_ok h
        simp only [Rd.runA_ret, Prod.mk.injEq, Except.ok.injEq] at h
        obtain ⟨-, rfl⟩ := h
        obtain ⟨-, b2, -, -⟩ := rBytes_ok h2
        simp only at b2
        omega
    · simp at h

end Iamf
