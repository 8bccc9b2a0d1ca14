import Verif.Model.Utils
import Mathlib.Tactic.Linarith
import Mathlib.Tactic.Ring
import Mathlib.Tactic.Positivity
import Mathlib.Algebra.Order.Ring.Int

/-! C47, C48: `MakeRange`, `GroupIndexer`, `SplitStringSlice`, `IndexOfString`. -/

namespace Verif

theorem makeRangeFill_exact {s : Int} (hs : 0 < s) (n : Int) (k : Nat) :
    makeRangeFill n (n + k * s) s k = .ok ((List.range k).map fun (i : Nat) => n + (i : Int) * s) := by
  induction k generalizing n with
  | zero => simp [makeRangeFill]
  | succ k ih =>
    have h1 : n < n + ((k + 1 : Nat) : Int) * s := by
      have : 0 < ((k + 1 : Nat) : Int) * s := by positivity
      linarith
    have h2 : n + ((k + 1 : Nat) : Int) * s = (n + s) + k * s := by push_cast; ring
    rw [makeRangeFill, if_pos h1, h2, ih]
    simp only [List.range_succ_eq_map, List.map_cons, List.map_map, Except.ok.injEq, List.cons.injEq]
    refine ⟨by simp, List.map_congr_left fun i _ => ?_⟩
    simp only [Function.comp, Nat.succ_eq_add_one]; push_cast; ring

theorem makeRangeFill_panics {s : Int} (hs : 0 < s) (n b : Int) (k : Nat) (h : n + k * s < b) :
    makeRangeFill n b s k = .error .panic := by
  induction k generalizing n with
  | zero => simp only [makeRangeFill]; rw [if_pos (by simpa using h)]
  | succ k ih =>
    have h2 : (n + s) + k * s < b := by push_cast at h; linarith [h, (by ring : (n + s) + k * s = n + (k + 1) * s)]
    have h1 : n < b := by
      have : 0 ≤ (k : Int) * s := by positivity
      linarith
    rw [makeRangeFill, if_pos h1, ih _ h2]

/-- C47, when the step divides the length: the elements of `MakeRange(a, b, s)` are exactly `a + i*s` for
the `i` with `a + i*s < b`, in order. Missing for the full property: other steps, see `C47_refuted`. -/
theorem C47_makeRange_partial {a b s : Int} (hs : 0 < s) (hab : a ≤ b) (hd : s ∣ b - a) :
    ∃ l, makeRange a b s = .ok l ∧ (∀ (i : Nat) x, l[i]? = some x ↔ x = a + (i : Int) * s ∧ x < b) := by
  obtain ⟨k, hk⟩ := hd
  have hk0 : 0 ≤ k := by
    by_contra hc
    have : s * k < 0 := mul_neg_of_pos_of_neg hs (by omega)
    linarith
  obtain ⟨n, rfl⟩ := Int.eq_ofNat_of_zero_le hk0
  have hb : b = a + (n : Int) * s := by linarith [mul_comm s (n : Int)]
  have hsz : (b - a).tdiv s = n := by rw [hk]; exact Int.mul_tdiv_cancel_left _ (by omega)
  refine ⟨(List.range n).map fun (i : Nat) => a + (i : Int) * s, ?_, ?_⟩
  · unfold makeRange
    rw [if_neg (by omega)]
    simp only [hsz]
    rw [if_neg (by omega), Int.toNat_natCast, hb]
    exact makeRangeFill_exact hs a n
  · intro i x
    rw [List.getElem?_map]
    by_cases hi : i < n
    · rw [List.getElem?_range hi]
      simp only [Option.map_some, Option.some.injEq]
      constructor
      · rintro rfl
        refine ⟨rfl, ?_⟩
        rw [hb]
        have : (i : Int) * s < n * s := mul_lt_mul_of_pos_right (by exact_mod_cast hi) hs
        linarith
      · rintro ⟨rfl, _⟩; rfl
    · rw [List.getElem?_eq_none (by simpa using hi)]
      simp only [Option.map_none, reduceCtorEq, false_iff, not_and, not_lt]
      rintro rfl
      rw [hb]
      have : (n : Int) * s ≤ i * s := mul_le_mul_of_nonneg_right (by exact_mod_cast (not_lt.1 hi)) hs.le
      linarith

/-- C47 is false of the code for every step that does not divide the length: the call panics. -/
theorem C47_refuted {a b s : Int} (hs : 0 < s) (hab : a ≤ b) (hd : ¬ s ∣ b - a) :
    makeRange a b s = .error .panic := by
  unfold makeRange
  rw [if_neg (by omega)]
  have h0 : 0 ≤ b - a := by omega
  have hq : (b - a).tdiv s = (b - a) / s := Int.tdiv_eq_ediv_of_nonneg h0
  have hq0 : 0 ≤ (b - a) / s := Int.ediv_nonneg h0 hs.le
  simp only [hq]
  rw [if_neg (by omega)]
  apply makeRangeFill_panics hs
  rw [Int.toNat_of_nonneg hq0]
  have h1 := Int.mul_ediv_add_emod (b - a) s
  have h2 := Int.emod_nonneg (b - a) (by omega : s ≠ 0)
  have h3 : (b - a) % s ≠ 0 := fun h => hd (Int.dvd_of_emod_eq_zero h)
  have h4 : (b - a) / s * s = s * ((b - a) / s) := mul_comm ..
  omega

example : makeRange 3 11 2 = .ok [3, 5, 7, 9] := by decide
example : ∃ l, makeRange 3 11 2 = .ok l ∧ (∀ (i : Nat) x, l[i]? = some x ↔ x = 3 + (i : Int) * 2 ∧ x < 11) :=
  C47_makeRange_partial (by decide) (by decide) (by decide)
example : makeRange 0 5 2 = .error .panic := C47_refuted (by decide) (by decide) (by decide)

/-! ### Groups -/

/-- The intervals tile `[a, b)`: each starts where the previous one ends, none is empty. -/
def Tiles : Int → List (Int × Int × Int) → Int → Prop
  | a, [], b => a = b
  | a, (_, l, r) :: ts, b => l = a ∧ l < r ∧ Tiles r ts b

theorem run_tiles (fuel : Nat) (g : GroupIndexer) (hg : 0 < g.groupSize) (he : g.elementIdx ≤ g.end_)
    (hf : g.end_ - g.elementIdx < fuel) :
    ∃ ts, g.run fuel = some ts ∧ Tiles g.elementIdx ts g.end_ ∧
      ts.map (·.1) = (List.range ts.length).map (fun (i : Nat) => g.groupIdx + (i : Int)) ∧
      (0 < ts.length → ((ts.length : Int) - 1) * g.groupSize < g.end_ - g.elementIdx) := by
  induction fuel generalizing g with
  | zero => simp at hf; omega
  | succ fuel ih =>
    simp only [GroupIndexer.run, GroupIndexer.hasNext, decide_eq_true_eq]
    by_cases hlt : g.elementIdx < g.end_
    · rw [if_pos hlt]
      simp only [GroupIndexer.next]
      obtain ⟨nx, hnx⟩ : ∃ nx, nx = (if g.elementIdx + g.groupSize > g.end_ then g.end_ else g.elementIdx + g.groupSize) := ⟨_, rfl⟩
      rw [← hnx]
      have hle : nx ≤ g.end_ := by rw [hnx]; split <;> omega
      have hgt : g.elementIdx < nx := by rw [hnx]; split <;> omega
      obtain ⟨ts, e, t1, t2, t3⟩ := ih { g with elementIdx := nx, groupIdx := g.groupIdx + 1 } hg hle (by push_cast at hf; simp only; omega)
      rw [e]
      refine ⟨_, rfl, ⟨rfl, hgt, t1⟩, ?_, ?_⟩
      · simp only [List.map_cons, List.length_cons, List.range_succ_eq_map, List.map_map, t2, List.cons.injEq]
        refine ⟨by simp, List.map_congr_left fun i _ => ?_⟩
        simp only [Function.comp, Nat.succ_eq_add_one]; push_cast; ring
      · intro _
        simp only [List.length_cons]
        push_cast
        by_cases h0 : 0 < ts.length
        · have h4 := t3 h0
          simp only at h4
          have h5 : nx = g.elementIdx + g.groupSize := by
            rw [hnx]; split
            · rename_i hgt'
              exfalso
              have : nx = g.end_ := by rw [hnx, if_pos hgt']
              rw [this] at h4
              have : (0 : Int) ≤ ((ts.length : Int) - 1) * g.groupSize := mul_nonneg (by omega) hg.le
              omega
            · rfl
          have h6 : ((ts.length : Int) + 1 - 1) * g.groupSize = ((ts.length : Int) - 1) * g.groupSize + g.groupSize := by ring
          rw [h6]; omega
        · have : ts.length = 0 := by omega
          rw [this]; simp; omega
    · rw [if_neg hlt]
      exact ⟨[], rfl, by show _ = _; omega, by simp, by simp⟩

/-- C48, `GroupIndexer`: over `n ≥ 1` elements with `k ≥ 1` groups, the loop `for HasNext() { Next() }` ends
and produces contiguous non-empty intervals that cover `[0, n)`, numbered 0, 1, 2, ...; there are at most
`NGroups = min(k, n)` of them, so every number is below `NGroups`. -/
theorem C48_groupIndexer {n k : Int} (hn : 1 ≤ n) (hk : 1 ≤ k) :
    ∃ g ts, createGroupIndexer n k = .ok g ∧ g.nGroups = min k n ∧ g.run (n.toNat + 1) = some ts ∧
      Tiles 0 ts n ∧ ts.map (·.1) = (List.range ts.length).map (fun (i : Nat) => (i : Int)) ∧
      (ts.length : Int) ≤ g.nGroups := by
  obtain ⟨m, hm⟩ : ∃ m, m = min k n := ⟨_, rfl⟩
  obtain ⟨gs, hgs⟩ : ∃ gs, gs = (if n.tmod m ≠ 0 then n.tdiv m + 1 else n.tdiv m) := ⟨_, rfl⟩
  have hm1 : 1 ≤ m := by rw [hm]; omega
  have hmn : m ≤ n := by rw [hm]; omega
  have hc : createGroupIndexer n k = .ok ⟨m, gs, 0, n, 0⟩ := by
    unfold createGroupIndexer
    rw [if_neg (by omega)]
    have : (if k > n then n else k) = m := by rw [hm]; split <;> omega
    simp only [this]
    rw [if_neg (by omega), hgs]
  have hq : n.tdiv m = n / m := Int.tdiv_eq_ediv_of_nonneg (by omega)
  have hr : n.tmod m = n % m := Int.tmod_eq_emod_of_nonneg (by omega)
  have hdm := Int.mul_ediv_add_emod n m
  have hr0 := Int.emod_nonneg n (by omega : m ≠ 0)
  have hr1 := Int.emod_lt_of_pos n (by omega : 0 < m)
  have hq1 : 1 ≤ n / m := by
    rw [Int.le_ediv_iff_mul_le (by omega)]; omega
  have hgs1 : 1 ≤ gs := by rw [hgs, hq]; split <;> omega
  have hcov : n ≤ m * gs := by
    rw [hgs, hq, hr]
    split
    · have : m * (n / m + 1) = m * (n / m) + m := by ring
      omega
    · rename_i h; omega
  obtain ⟨ts, e, t1, t2, t3⟩ := run_tiles (n.toNat + 1) ⟨m, gs, 0, n, 0⟩ (by simp only; omega) (by simp only; omega) (by simp only; push_cast; omega)
  refine ⟨_, ts, hc, hm, e, t1, by simpa using t2, ?_⟩
  simp only
  by_contra hlt
  have h0 : 0 < ts.length := by omega
  have h4 := t3 h0
  simp only at h4
  have : m * gs ≤ ((ts.length : Int) - 1) * gs := mul_le_mul_of_nonneg_right (by omega) (by omega)
  omega

/-- Slices of a tiling, one after the other. -/
theorem tiles_flatten (strs : List GoStr) (ts : List (Int × Int × Int)) (a : Int) (ha : 0 ≤ a)
    (h : Tiles a ts strs.length) :
    (ts.map fun t => (strs.drop t.2.1.toNat).take (t.2.2 - t.2.1).toNat).flatten = strs.drop a.toNat ∧
    (∀ t ∈ ts, 0 ≤ t.2.1 ∧ t.2.1 ≤ t.2.2 ∧ t.2.2 ≤ strs.length) ∧ a ≤ strs.length := by
  induction ts generalizing a with
  | nil =>
    simp only [Tiles] at h
    subst h
    simp
  | cons t ts ih =>
    obtain ⟨_, l, r⟩ := t
    obtain ⟨rfl, hlr, ht⟩ := h
    obtain ⟨i1, i2, i3⟩ := ih r (by omega) ht
    refine ⟨?_, ?_, by omega⟩
    · simp only [List.map_cons, List.flatten_cons, i1]
      have : strs.drop r.toNat = (strs.drop l.toNat).drop (r - l).toNat := by
        rw [List.drop_drop]; congr 1; omega
      rw [this, List.take_append_drop]
    · intro t ht'
      rcases List.mem_cons.1 ht' with rfl | ht'
      · exact ⟨by simpa using ha, by simp only; omega, by simpa using i3⟩
      · exact i2 t ht'

theorem assignGroups_ok (strs : List GoStr) (ts : List (Int × Int × Int)) (pre : List (List GoStr)) (m : Nat)
    (hnum : ts.map (·.1) = (List.range ts.length).map (fun (i : Nat) => ((pre.length + i : Nat) : Int)))
    (hb : ∀ t ∈ ts, 0 ≤ t.2.1 ∧ t.2.1 ≤ t.2.2 ∧ t.2.2 ≤ strs.length) (hm : ts.length ≤ m) :
    assignGroups strs (pre ++ List.replicate m []) ts =
      .ok (pre ++ (ts.map fun t => (strs.drop t.2.1.toNat).take (t.2.2 - t.2.1).toNat) ++ List.replicate (m - ts.length) []) := by
  induction ts generalizing pre m with
  | nil => simp [assignGroups]
  | cons t ts ih =>
    obtain ⟨i, l, r⟩ := t
    simp only [List.map_cons, List.length_cons, List.range_succ_eq_map, List.map_map, List.cons.injEq, Nat.add_zero] at hnum
    obtain ⟨hi, hrest⟩ := hnum
    subst hi
    obtain ⟨m, rfl⟩ : ∃ m', m = m' + 1 := ⟨m - 1, by simp only [List.length_cons] at hm; omega⟩
    have hb0 := hb _ (List.mem_cons_self ..)
    simp only at hb0
    simp only [assignGroups]
    rw [if_pos ⟨by omega, by simp, hb0⟩]
    have : (pre ++ List.replicate (m + 1) []).set (pre.length : Int).toNat ((strs.drop l.toNat).take (r - l).toNat) =
        (pre ++ [(strs.drop l.toNat).take (r - l).toNat]) ++ List.replicate m [] := by
      simp [List.replicate_succ]
    rw [this, ih]
    · simp
    · rw [hrest]
      refine List.map_congr_left fun i _ => ?_
      simp only [Function.comp, List.length_append, List.length_singleton, Nat.succ_eq_add_one]
      push_cast; ring
    · exact fun t ht => hb t (by simp [ht])
    · simp only [List.length_cons] at hm; omega

/-- C48, `SplitStringSlice`: with `n ≥ 1` groups it returns min(n, len) groups whose concatenation is the
list; it never indexes out of range and always returns. -/
theorem C48_splitStringSlice (strs : List GoStr) {n : Int} (hn : 1 ≤ n) :
    ∃ gs, splitStringSlice strs n = .ok gs ∧ (gs.length : Int) = min n strs.length ∧ gs.flatten = strs := by
  by_cases h0 : strs.length = 0
  · refine ⟨[], by unfold splitStringSlice; rw [if_pos (Or.inl h0)], by rw [h0]; simp; omega, ?_⟩
    rw [List.length_eq_zero_iff] at h0; rw [h0]; rfl
  · obtain ⟨g, ts, e, e1, e2, t1, t2, t3⟩ := C48_groupIndexer (n := strs.length) (k := n) (by omega) hn
    obtain ⟨f1, f2, _⟩ := tiles_flatten strs ts 0 (by omega) t1
    have hok := assignGroups_ok strs ts [] g.nGroups.toNat (by simpa using t2) f2 (by omega)
    simp only [List.nil_append] at hok
    refine ⟨(ts.map fun t => (strs.drop t.2.1.toNat).take (t.2.2 - t.2.1).toNat) ++ List.replicate (g.nGroups.toNat - ts.length) [], ?_, ?_, ?_⟩
    · unfold splitStringSlice
      rw [if_neg (by rintro (h | h); exact h0 h; omega), e]
      simp only
      rw [Int.toNat_natCast] at e2
      rw [e2]
      exact hok
    · simp only [List.length_append, List.length_map, List.length_replicate]
      rw [e1] at t3 ⊢
      push_cast; omega
    · rw [List.flatten_append, f1]
      simp

/-- C48: a negative number of groups panics, zero groups give nil. -/
theorem C48_splitStringSlice_bad (strs : List GoStr) {n : Int} :
    (n = 0 → splitStringSlice strs n = .ok []) ∧
    (n < 0 → strs ≠ [] → splitStringSlice strs n = .error .panic) := by
  refine ⟨fun h => by unfold splitStringSlice; rw [if_pos (Or.inr h)], fun h hne => ?_⟩
  unfold splitStringSlice
  rw [if_neg (by rintro (h1 | h1); exact hne (List.length_eq_zero_iff.1 h1); omega)]
  unfold createGroupIndexer
  rw [if_pos h]

example : splitStringSlice [b!"a", b!"b", b!"c", b!"d", b!"e"] 4 = .ok [[b!"a", b!"b"], [b!"c", b!"d"], [b!"e"], []] := by
  decide
example : ∃ gs, splitStringSlice [b!"a", b!"b", b!"c", b!"d", b!"e"] 4 = .ok gs ∧ (gs.length : Int) = 4 ∧
    gs.flatten = [b!"a", b!"b", b!"c", b!"d", b!"e"] := C48_splitStringSlice _ (by decide)

/-- `IndexOfString` is the first position of the string, -1 when it is absent. -/
theorem C48_indexOfString (e : GoStr) (l : List GoStr) (k : Nat) :
    (e ∉ l → indexOfString e l k = -1) ∧
    (∀ (i : Nat), l[i]? = some e → (∀ (j : Nat), j < i → l[j]? ≠ some e) → indexOfString e l k = k + i) := by
  induction l generalizing k with
  | nil => simp [indexOfString]
  | cons v vs ih =>
    simp only [indexOfString]
    by_cases hv : e = v
    · rw [if_pos hv]
      refine ⟨fun hn => absurd (by simp [hv]) hn, fun i h1 h2 => ?_⟩
      cases i with
      | zero => simp
      | succ i => exact absurd (by simp [hv]) (h2 0 (by omega))
    · rw [if_neg hv]
      refine ⟨fun hn => (ih (k + 1)).1 (fun h => hn (by simp [h])), fun i h1 h2 => ?_⟩
      cases i with
      | zero => simp at h1; exact absurd h1.symm hv
      | succ i =>
        rw [(ih (k + 1)).2 i (by simpa using h1) (fun j hj => by have := h2 (j + 1) (by omega); simpa using this)]
        push_cast; ring

end Verif
