import Verif.Proofs.Float64
import Verif.Props.Sorting
import Verif.Props.Splits
import Verif.Props.Evaluation

/-! What the properties say for Go's `float64` itself (IEEE 754 binary64, `Go/Float64.lean`) instead of an arbitrary float
semantics. -/

namespace Verif
namespace FP
variable {f : FFmt}

/-! ### order -/

/-- The place of a number in the order; NaN comes first. -/
def key : FP f → ℤ ×ₗ ℚ
  | .nan => toLex (-2, 0)
  | .inf s => toLex (if s then -1 else 1, 0)
  | .fin s m e h => toLex (0, (fin s m e h).val)

theorem lt_key {x y : FP f} (hx : x.isNaN = false) (hy : y.isNaN = false) : lt x y = true ↔ key x < key y := by
  cases x with
  | nan => cases hx
  | inf s =>
    cases y with
    | nan => cases hy
    | inf s' => cases s <;> cases s' <;> simp [lt, key, Prod.Lex.lt_iff]
    | fin s' m' e' h' => cases s <;> simp [lt, key, Prod.Lex.lt_iff]
  | fin s m e h =>
    cases y with
    | nan => cases hy
    | inf s' => cases s' <;> simp [lt, key, Prod.Lex.lt_iff]
    | fin s' m' e' h' =>
      rw [lt_iff (x := fin s m e h) (y := fin s' m' e' h') trivial trivial]
      simp [key, Prod.Lex.lt_iff]

theorem isNaN_of_finite {x : FP f} (h : x.Finite) : x.isNaN = false := by cases x <;> first | rfl | cases h

end FP

namespace Float64
open FP

theorem ofInt_ok {n : ℤ} (hn : |n| ≤ 2 ^ 53) : (GoFloat.ofInt n : Float64).Finite ∧ (GoFloat.ofInt n : Float64).val = n :=
  FP.ofInt_exact (f := binary64) (by decide) (by decide) hn

theorem zero_ok : (GoFloat.zero : Float64).Finite ∧ (GoFloat.zero : Float64).val = 0 := ⟨trivial, FP.zero_val _⟩

theorem one_ok : (GoFloat.one : Float64).Finite ∧ (GoFloat.one : Float64).val = 1 := by
  have := ofInt_ok (n := 1) (by norm_num)
  exact ⟨this.1, by have h := this.2; push_cast at h; exact h⟩

/-- A correct `Argsort` for `float64`. -/
def argsort (xs : List Float64) : List Nat :=
  (List.range xs.length).insertionSort (fun p q => key (xs.getD p .nan) ≤ key (xs.getD q .nan))

theorem argsort_ok : IsArgsort argsort where
  perm xs := List.perm_insertionSort _ _
  sorted xs hx := by
    have : (argsort xs).Pairwise (fun p q => key (xs.getD p .nan) ≤ key (xs.getD q .nan)) := by
      have : Std.Total (fun p q : Nat => key (xs.getD p .nan) ≤ key (xs.getD q .nan)) := ⟨fun a b => le_total _ _⟩
      have : IsTrans Nat (fun p q : Nat => key (xs.getD p .nan) ≤ key (xs.getD q .nan)) := ⟨fun a b c h1 h2 => h1.trans h2⟩
      exact List.pairwise_insertionSort _ _
    refine this.imp ?_
    intro p q hle x y h1 h2
    simp only [List.getD_eq_getElem?_getD, h1, h2, Option.getD_some] at hle
    show FP.lt y x = false
    rw [Bool.eq_false_iff, Ne, lt_key (hx y (List.mem_of_getElem? h2)) (hx x (List.mem_of_getElem? h1))]
    exact not_lt.2 hle

/-! ### C07, C08 -/

/-- **C07**, float64. An int column whose values lie between `-2^53` and `2^53` keeps its order when converted. -/
theorem C07_float64_sortable {a : ADF (Val Float64)} {c : GoStr} {l : List (Option (Val Float64))} (hb : a.col .bool c = none)
    (hf : a.col .float c = none) (h : a.col .int c = some l) (hl : ∀ x ∈ l, ∃ n : ℤ, x = some (.int n) ∧ |n| ≤ 2 ^ 53) :
    a.Sortable c := by
  refine .int l hb hf h ?_ ?_
  · intro x hx
    obtain ⟨n, e, hn⟩ := hl x hx
    exact ⟨n, e, isNaN_of_finite (ofInt_ok hn).1⟩
  · intro m n hm hn hlt
    obtain ⟨m', e1, b1⟩ := hl _ hm
    obtain ⟨n', e2, b2⟩ := hl _ hn
    cases e1; cases e2
    show FP.lt _ _ = true
    rw [FP.lt_iff (ofInt_ok b1).1 (ofInt_ok b2).1]
    have h1 := (ofInt_ok b1).2
    have h2 := (ofInt_ok b2).2
    rw [h1, h2]
    exact_mod_cast hlt

/-- **C07**, float64. `SortedView` by an int column whose values lie between `-2^53` and `2^53` shows a permutation of the rows
in ascending order. -/
theorem C07_float64 {argsort : List Float64 → List Nat} (hs : IsArgsort argsort) {df : DF} {h : Heap Float64} (wf : df.WF h)
    {c : GoStr} {l : List (Option (Val Float64))} (hb : (abs h df).col .bool c = none) (hf : (abs h df).col .float c = none)
    (hi : (abs h df).col .int c = some l) (hl : ∀ x ∈ l, ∃ n : ℤ, x = some (.int n) ∧ |n| ≤ 2 ^ 53) :
    ∃ v h' is, df.sortedView argsort c h = .ok (v, h') ∧ RowView h df h' v is ∧
      is.Perm (List.range (abs h df).nRows) ∧ (abs h' v).Ascending c := by
  obtain ⟨v, h', is, h1, h2, h3, h4, -⟩ := C07_sortedView_partial hs wf (C07_float64_sortable hb hf hi hl)
  exact ⟨v, h', is, h1, h2, h3, h4⟩

/-- **C07** is false of the code beyond: `float64(2^53 + 1)` is `2^53`, and a correct `Argsort` may leave the two ints
`2^53 + 1, 2^53` in this order. -/
theorem C07_float64_refuted (h0 : Heap Float64) :
    ∃ argsort : List Float64 → List Nat, IsArgsort argsort ∧ ∃ (df : DF) (h : Heap Float64), df.WF h ∧
      (abs h df).col .int b!"a" = some [some (.int (2 ^ 53 + 1)), some (.int (2 ^ 53))] ∧
      ∃ v h', df.sortedView argsort b!"a" h = .ok (v, h') ∧ ¬ (abs h' v).Ascending b!"a" :=
  C07_refuted_large_ints argsort argsort_ok (by decide +kernel) (by decide +kernel) h0

/-! ### C11 -/

/-- **C11**, float64. For every ratio between 0 and 1 and every dataframe of up to `2^53` rows, `SplitTrainTestViews(ratio)`
returns the first `NumRows - t` rows and the last `t` rows, in order; `t` is the whole part of `NumRows * ratio`, or one more
when the product is rounded up to the next integer. -/
theorem C11_float64 {df : DF} {h : Heap Float64} (wf : df.WF h) (hn : df.numRows ≤ 2 ^ 53) {ratio : Float64}
    (hnan : GoFloat.isNaN ratio = false)
    (hr : GoFloat.lt ratio (GoFloat.zero : Float64) = false ∧ GoFloat.lt (GoFloat.one : Float64) ratio = false) :
    ∃ (t : ℕ) (train test : DF) (h' : Heap Float64), t ≤ df.numRows ∧
      ((⌊df.numRows * ratio.val⌋₊ = t) ∨ (⌊df.numRows * ratio.val⌋₊ + 1 = t ∧ (rnd binary64 (df.numRows * ratio.val)).val = t)) ∧
      df.splitTrainTestViews ratio h = .ok ((train, test), h') ∧
      RowView h df h' train (rowRange 0 (df.numRows - t)) ∧
      RowView h df h' test (rowRange (df.numRows - t) df.numRows) := by
  have hfin : ratio.Finite := by
    cases ratio with
    | nan => cases hnan
    | inf s =>
      cases s
      · have h1 : GoFloat.lt (GoFloat.one : Float64) (.inf false) = true := by decide +kernel
        rw [h1] at hr; cases hr.2
      · have h1 : GoFloat.lt (.inf true : Float64) GoFloat.zero = true := by decide +kernel
        rw [h1] at hr; cases hr.1
    | fin => trivial
  have h0 : 0 ≤ ratio.val := by
    have h1 : ¬ FP.lt ratio GoFloat.zero = true := by rw [show FP.lt ratio GoFloat.zero = false from hr.1]; simp
    rw [FP.lt_iff hfin zero_ok.1, zero_ok.2] at h1
    exact not_lt.1 h1
  have h1 : ratio.val ≤ 1 := by
    have h1 : ¬ FP.lt GoFloat.one ratio = true := by rw [show FP.lt GoFloat.one ratio = false from hr.2]; simp
    rw [FP.lt_iff one_ok.1 hfin, one_ok.2] at h1
    exact not_lt.1 h1
  have repr : ∀ k : ℕ, k ≤ 2 ^ 53 → (GoFloat.ofInt (k : ℤ) : Float64).Finite ∧ (GoFloat.ofInt (k : ℤ) : Float64).val = k := by
    intro k hk
    have := ofInt_ok (n := (k : ℤ)) (by rw [abs_of_nonneg (Int.natCast_nonneg k)]; exact_mod_cast hk)
    exact ⟨this.1, by rw [this.2]; push_cast; rfl⟩
  obtain ⟨n, hnn⟩ : ∃ n, n = df.numRows := ⟨_, rfl⟩
  rw [← hnn] at hn
  obtain ⟨q, hq⟩ : ∃ q : ℚ, q = n * ratio.val := ⟨_, rfl⟩
  have hq0 : 0 ≤ q := by rw [hq]; positivity
  have hqn : q ≤ n := by
    rw [hq]
    have : (0 : ℚ) ≤ n := by positivity
    nlinarith
  obtain ⟨k, hk⟩ : ∃ k, k = ⌊q⌋₊ := ⟨_, rfl⟩
  have hkq : (k : ℚ) ≤ q := by rw [hk]; exact Nat.floor_le hq0
  have hqk : q < k + 1 := by rw [hk]; exact Nat.lt_floor_add_one q
  have hkn : k ≤ n := by
    have : (k : ℚ) ≤ n := hkq.trans hqn
    exact_mod_cast this
  -- the product
  obtain ⟨x, hx⟩ : ∃ x : Float64, x = GoFloat.mul (GoFloat.ofInt (n : ℤ)) ratio := ⟨_, rfl⟩
  have hmul : x.val = (rnd binary64 q).val ∧ x.Finite := by
    rw [hx]
    show (FP.mul _ _).val = _ ∧ (FP.mul _ _).Finite
    rw [FP.mul_eq_rnd (repr n hn).1 hfin, (repr n hn).2, ← hq]
    split
    · rename_i hz
      rw [hz, rnd_zero, FP.zero_val, FP.zero_val]
      exact ⟨rfl, trivial⟩
    · exact ⟨rfl, rnd_finite ((abs_of_nonneg hq0).trans_lt (by
        have := finite_lt_top (repr n hn).1
        rw [(repr n hn).2, abs_of_nonneg (by positivity)] at this
        linarith))⟩
  have lo := rnd_between (repr k (hkn.trans hn)).1 (repr n hn).1 (q := q)
    (by rw [(repr k (hkn.trans hn)).2]; exact hkq) (by rw [(repr n hn).2]; exact hqn)
  rw [(repr k (hkn.trans hn)).2, (repr n hn).2, ← hmul.1] at lo
  obtain ⟨-, lo, hi⟩ := lo
  have hx0 : 0 ≤ x.val := le_trans (by positivity) lo
  obtain ⟨t0, t1, t2⟩ := trunc_nonneg hmul.2 hx0
  obtain ⟨t, ht⟩ : ∃ t : ℕ, x.trunc = t := ⟨x.trunc.toNat, by omega⟩
  rw [ht] at t1 t2
  push_cast at t1 t2
  have htn : t ≤ n := by
    have : (t : ℚ) ≤ n := t1.trans hi
    exact_mod_cast this
  have hkt : k ≤ t := by
    have : (k : ℚ) < t + 1 := lo.trans_lt t2
    have : k < t + 1 := by exact_mod_cast this
    omega
  have htk : t = k ∨ (t = k + 1 ∧ x.val = t) := by
    by_cases hkn' : k + 1 ≤ n
    · have := rnd_between (repr k (hkn.trans hn)).1 (repr (k + 1) (hkn'.trans hn)).1 (q := q)
        (by rw [(repr k (hkn.trans hn)).2]; exact hkq) (by rw [(repr (k + 1) (hkn'.trans hn)).2]; push_cast; exact hqk.le)
      rw [(repr (k + 1) (hkn'.trans hn)).2, ← hmul.1] at this
      have h3 : (t : ℚ) ≤ (k + 1 : ℕ) := t1.trans this.2.2
      have h4 : t ≤ k + 1 := by exact_mod_cast h3
      rcases Nat.lt_or_eq_of_le h4 with h5 | h5
      · left; omega
      · right
        refine ⟨h5, le_antisymm ?_ t1⟩
        rw [h5]; exact this.2.2
    · left; omega
  obtain ⟨train, test, h', e, r1, r2⟩ := C11_splitTrainTest wf hr t (by rw [← hnn, ← hx]; exact ht) (by rw [← hnn]; exact htn)
  refine ⟨t, train, test, h', by rw [← hnn]; exact htn, ?_, e, r1, r2⟩
  rw [← hnn, ← hq, ← hk, ← hmul.1]
  rcases htk with h | ⟨h, hv⟩
  · exact Or.inl h.symm
  · exact Or.inr ⟨h.symm, hv⟩

end Float64
end Verif
