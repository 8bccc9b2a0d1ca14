import Verif.Props.Float64
import Verif.Props.Sorting

/-! C07 and C08 for every column of 64-bit ints: how far the order can be off. -/

namespace Verif
open scoped Demo
variable {F : Type}

/-- `SortedView` by an int column: the order of the converted numbers. -/
theorem sortedView_int_core [GoFloat F] {argsort : List F → List Nat} (hs : IsArgsort argsort) {df : DF} {h : Heap F} {c : GoStr}
    {xs : List Int} (hb : (abs h df).col .bool c = none) (hf : (abs h df).col .float c = none)
    (hl : (abs h df).col .int c = some (xs.map fun n => some (.int n)))
    (hnan : ∀ n ∈ xs, GoFloat.isNaN (GoFloat.ofInt n : F) = false) :
    ∃ is : List Nat, df.sortedView argsort c h = df.indexView (is.map Int.ofNat) h ∧
      is.Perm (List.range df.numRows) ∧ xs.length = df.numRows ∧
      is.Pairwise (fun p q => ¬ ∃ x y, xs[q]? = some x ∧ xs[p]? = some y ∧ GoFloat.lt (GoFloat.ofInt x : F) (GoFloat.ofInt y) = true) := by
  simp only [abs, Option.map_eq_some_iff] at hl
  obtain ⟨s, hg, hm⟩ := hl
  simp only [abs, Option.map_eq_none_iff] at hb hf
  have hlen : xs.length = df.numRows := by
    have := congrArg List.length hm; simpa [DF.numRows] using this.symm
  refine ⟨argsort (xs.map GoFloat.ofInt), ?_, ?_, hlen, ?_⟩
  · unfold DF.sortedView
    simp only [hg, hb, hf]
    rw [gather_map (vs := xs.map Val.int) (by rw [hm]; simp)]
    simp only [List.map_map]
    congr 3
  · have := hs.perm (xs.map GoFloat.ofInt); rwa [List.length_map, hlen] at this
  · refine (hs.sorted (xs.map GoFloat.ofInt) ?_).imp ?_
    · intro x hx; obtain ⟨n, hn, rfl⟩ := List.mem_map.1 hx; exact hnan n hn
    rintro p q hno ⟨x, y, hx, hy, hlt⟩
    rw [hno (GoFloat.ofInt y) (GoFloat.ofInt x) (by simp [hy]) (by simp [hx])] at hlt
    cases hlt

namespace Float64
open FP

theorem ofInt_mul1024 {k : ℤ} (hk : |k| ≤ 2 ^ 53) :
    (GoFloat.ofInt (1024 * k) : Float64).Finite ∧ (GoFloat.ofInt (1024 * k) : Float64).val = 1024 * k := by
  obtain ⟨n, hn⟩ : ∃ n, n = 1024 * k := ⟨_, rfl⟩
  rw [← hn]
  show (FP.ofInt n : FP binary64).Finite ∧ (FP.ofInt n : FP binary64).val = _
  rw [ofInt_eq_rnd]
  have hle : k.natAbs ≤ 2 ^ 53 := by rw [abs_le] at hk; omega
  have hab : |(n : ℚ)| = (k.natAbs : ℚ) * 2 ^ (10 : ℤ) := by
    rw [hn, Nat.cast_natAbs]; push_cast; rw [_root_.abs_mul]; norm_num; ring
  have hgrid : OnGrid binary64 |(n : ℚ)| := by
    rw [hab]
    rcases Nat.lt_or_eq_of_le hle with h | h
    · exact ⟨_, 10, h, by decide, rfl⟩
    · exact ⟨2 ^ 52, 11, by decide, by decide, by rw [h]; norm_num⟩
  have htop : |(n : ℚ)| < binary64.top := by
    rw [hab]
    have h2 : (k.natAbs : ℚ) ≤ 2 ^ 53 := by exact_mod_cast hle
    have h3 : ((2 : ℚ) ^ (53 : ℕ) - 1 / 2) * 2 ^ (11 : ℤ) ≤ binary64.top := by
      unfold FFmt.top
      refine mul_le_mul_of_nonneg_left (zpow_le_zpow_right₀ (by norm_num) (by decide)) (by norm_num)
    refine lt_of_lt_of_le ?_ h3
    norm_num at h2 ⊢
    linarith
  rcases rnd_cases (f := binary64) n with ⟨-, hf, r, r0, hr, e⟩ | ⟨t, -⟩
  · refine ⟨hf, ?_⟩
    rw [e, hr.exact hgrid]
    have h1 := signed_abs n
    have hc : ((n : ℚ) < 0) ↔ n < 0 := by exact_mod_cast Iff.rfl
    have h2 : ((n : ℤ) : ℚ) = 1024 * k := by rw [hn]; push_cast; rfl
    rw [← h2]
    have hab2 : |(n : ℚ)| = (n.natAbs : ℚ) := by rw [Nat.cast_natAbs]; push_cast; rfl
    rw [hab2]
    simp only [hc] at *
    first | exact h1 | simpa using h1
  · exact absurd t (not_le.2 htop)

/-- A 64-bit int is at most 512 away from its conversion to `float64`. -/
theorem ofInt_near {n : ℤ} (hn : |n| ≤ 2 ^ 63) :
    (GoFloat.ofInt n : Float64).Finite ∧ |(n : ℚ) - (GoFloat.ofInt n : Float64).val| ≤ 512 := by
  by_cases h0 : n = 0
  · subst h0
    have := ofInt_ok (n := 0) (by norm_num)
    refine ⟨this.1, ?_⟩
    rw [this.2]; norm_num
  obtain ⟨k, hk⟩ : ∃ k, k = (n + 512) / 1024 := ⟨_, rfl⟩
  have hk1 : |k| ≤ 2 ^ 53 := by rw [abs_le] at *; omega
  have hk2 : |n - 1024 * k| ≤ 512 := by rw [abs_le]; omega
  obtain ⟨f1, f2⟩ := ofInt_mul1024 hk1
  have hr : IsRounded (n : ℚ) (GoFloat.ofInt n : Float64) := by
    show IsRounded (n : ℚ) (FP.ofInt n : FP binary64)
    rw [ofInt_eq_rnd]; exact rnd_isRounded (by exact_mod_cast h0)
  have hd : |(n : ℚ) - (GoFloat.ofInt (1024 * k) : Float64).val| ≤ 512 := by
    rw [f2]; exact_mod_cast hk2
  cases hx : (GoFloat.ofInt n : Float64) with
  | nan => rw [hx] at hr; cases hr
  | inf s =>
    rw [hx] at hr
    exfalso
    have h1 : |(n : ℚ)| ≤ 2 ^ 63 := by exact_mod_cast hn
    have h3 : ((2 : ℚ) ^ (53 : ℕ) - 1 / 2) * 2 ^ (11 : ℤ) ≤ binary64.top := by
      unfold FFmt.top
      refine mul_le_mul_of_nonneg_left (zpow_le_zpow_right₀ (by norm_num) (by decide)) (by norm_num)
    have h4 := hr.1
    have : ((2 : ℚ) ^ (53 : ℕ) - 1 / 2) * 2 ^ (11 : ℤ) > 2 ^ 63 := by norm_num
    linarith
  | fin s m e hc =>
    rw [hx] at hr
    exact ⟨trivial, ((hr.2.2 _ f1).1).trans hd⟩

/-- `m` may come before `n` in a column sorted through `float64`: it is not greater, or the two are converted to the same
`float64` and at most 1024 apart. -/
def MayPrecede (m n : ℤ) : Prop :=
  m ≤ n ∨ ((GoFloat.ofInt m : Float64).val = (GoFloat.ofInt n : Float64).val ∧ m ≤ n + 1024)

theorem mayPrecede_of_not_lt {m n : ℤ} (hm : |m| ≤ 2 ^ 63) (hn : |n| ≤ 2 ^ 63)
    (h : GoFloat.lt (GoFloat.ofInt n : Float64) (GoFloat.ofInt m) = false) : MayPrecede m n := by
  by_cases hle : m ≤ n
  · exact Or.inl hle
  obtain ⟨f1, e1⟩ := ofInt_near hm
  obtain ⟨f2, e2⟩ := ofInt_near hn
  have h1 : (GoFloat.ofInt m : Float64).val ≤ (GoFloat.ofInt n : Float64).val := by
    by_contra hc
    have := (FP.lt_iff f2 f1).2 (not_le.1 hc)
    have h' : FP.lt (GoFloat.ofInt n : Float64) (GoFloat.ofInt m) = false := h
    rw [h'] at this; cases this
  have h2 : (GoFloat.ofInt n : Float64).val ≤ (GoFloat.ofInt m : Float64).val := by
    have a1 : (GoFloat.ofInt n : Float64) = rnd binary64 n := ofInt_eq_rnd n
    have a2 : (GoFloat.ofInt m : Float64) = rnd binary64 m := ofInt_eq_rnd m
    rw [a1] at f2 ⊢; rw [a2] at f1 ⊢
    exact rnd_mono_val (by exact_mod_cast (not_le.1 hle).le) f2 f1
  refine Or.inr ⟨le_antisymm h1 h2, ?_⟩
  rw [le_antisymm h1 h2] at e1
  rw [abs_le] at e1 e2
  have : (m : ℚ) ≤ n + 1024 := by linarith
  exact_mod_cast this

theorem col_of_rowView {df v : DF} {h h' : Heap Float64} {is : List Nat} (rv : RowView h df h' v is) {c : GoStr} {xs : List ℤ}
    (hi : (Verif.abs h df).col .int c = some (xs.map fun n => some (.int n))) (hlt : ∀ i ∈ is, i < xs.length) :
    (Verif.abs h' v).col .int c = some ((is.map fun i => xs.getD i 0).map fun n => some (.int n)) := by
  rw [rv.shows]
  simp only [ADF.select, hi, Option.map_some, Option.some.injEq, List.map_map]
  apply List.map_congr_left
  intro i hi'
  have := hlt i hi'
  simp [List.getElem?_eq_getElem this]

/-- **C07**, float64, for every column of 64-bit ints: `SortedView` shows all the rows once each, and the ints in an order in
which a greater int comes before a lower one only if both are converted to the same `float64`, hence are at most 1024 apart. -/
theorem C07_float64_int64 {argsort : List Float64 → List Nat} (hs : IsArgsort argsort) {df : DF} {h : Heap Float64} (wf : df.WF h)
    {c : GoStr} {xs : List ℤ} (hb : (Verif.abs h df).col .bool c = none) (hf : (Verif.abs h df).col .float c = none)
    (hi : (Verif.abs h df).col .int c = some (xs.map fun n => some (.int n))) (h64 : ∀ n ∈ xs, -2 ^ 63 ≤ n ∧ n < 2 ^ 63) :
    ∃ v h' is, ∃ ys : List ℤ, df.sortedView argsort c h = .ok (v, h') ∧ RowView h df h' v is ∧ is.Perm (List.range (Verif.abs h df).nRows) ∧
      (Verif.abs h' v).col .int c = some (ys.map fun n => some (.int n)) ∧ ys.Perm xs ∧ ys.Pairwise MayPrecede := by
  have hab : ∀ n ∈ xs, |n| ≤ 2 ^ 63 := fun n hn => by have := h64 n hn; rw [abs_le]; omega
  obtain ⟨is, he, hp, hlen, hpw⟩ := sortedView_int_core hs hb hf hi (fun n hn => isNaN_of_finite (ofInt_near (hab n hn)).1)
  obtain ⟨v, h', hv, rv, _⟩ := indexView_rowView wf (perm_range_lt hp)
  rw [ofNat_toNat_map] at rv
  have hmem : ∀ i ∈ is, i < xs.length := fun i hi => by
    have := hp.mem_iff.1 hi; rw [List.mem_range] at this; omega
  refine ⟨v, h', is, is.map fun i => xs.getD i 0, by rw [he, hv], rv, hp, col_of_rowView rv hi hmem, ?_, ?_⟩
  · rw [← hlen] at hp
    refine (hp.map _).trans (List.Perm.of_eq ?_)
    apply List.ext_getElem
    · simp
    · intro i h1 h2; simp [List.getElem?_eq_getElem h2]
  · rw [List.pairwise_map]
    refine hpw.imp_of_mem ?_
    intro p q hp' hq' hno
    have h1 := hmem p hp'
    have h2 := hmem q hq'
    simp only [List.getD_eq_getElem?_getD, List.getElem?_eq_getElem h1, List.getElem?_eq_getElem h2, Option.getD_some]
    refine mayPrecede_of_not_lt (hab _ (List.getElem_mem h1)) (hab _ (List.getElem_mem h2)) ?_
    by_contra hc
    exact hno ⟨_, _, List.getElem?_eq_getElem h2, List.getElem?_eq_getElem h1, by simpa using hc⟩

/-- **C08**, float64, for every column of 64-bit ints: `TopView` shows `min(n, NumRows)` distinct rows, and every row left out
may follow (precede, when descending) every row shown; with `sorted` the same holds of the rows shown, in order. -/
theorem C08_float64_int64 {argsort : List Float64 → List Nat} (hs : IsArgsort argsort) {df : DF} {h : Heap Float64} (wf : df.WF h)
    {c : GoStr} {xs : List ℤ} (hb : (Verif.abs h df).col .bool c = none) (hf : (Verif.abs h df).col .float c = none)
    (hi : (Verif.abs h df).col .int c = some (xs.map fun n => some (.int n))) (h64 : ∀ n ∈ xs, -2 ^ 63 ≤ n ∧ n < 2 ^ 63)
    (n : ℕ) (asc sorted : Bool) :
    ∃ v h' is, ∃ ys : List ℤ, df.topView argsort c n asc sorted h = .ok (v, h') ∧ RowView h df h' v is ∧ is.Nodup ∧
      is.length = min n (Verif.abs h df).nRows ∧
      (Verif.abs h' v).col .int c = some (ys.map fun n => some (.int n)) ∧
      (∀ y ∈ ys, ∀ (j : ℕ) x, j ∉ is → xs[j]? = some x → if asc then MayPrecede y x else MayPrecede x y) ∧
      (sorted = true → if asc then ys.Pairwise MayPrecede else ys.Pairwise fun a b => MayPrecede b a) := by
  have hab : ∀ n ∈ xs, |n| ≤ 2 ^ 63 := fun n hn => by have := h64 n hn; rw [abs_le]; omega
  obtain ⟨is0, he, hp, hlen, hpw⟩ := sortedView_int_core hs hb hf hi (fun n hn => isNaN_of_finite (ofInt_near (hab n hn)).1)
  obtain ⟨v, h', is, h1, rv, h2, h3, h4, h5, h6⟩ := topView_core wf
    (R := fun q p => ∃ x y, xs[q]? = some x ∧ xs[p]? = some y ∧ GoFloat.lt (GoFloat.ofInt x : Float64) (GoFloat.ofInt y) = true)
    he hp hpw n asc sorted
  have hnr : (Verif.abs h df).nRows = df.numRows := rfl
  have hmem : ∀ i ∈ is, i < xs.length := fun i hi => by have := h4 i hi; omega
  have key : ∀ (p q : ℕ) (x y : ℤ), xs[p]? = some x → xs[q]? = some y →
      (¬ ∃ x y, xs[q]? = some x ∧ xs[p]? = some y ∧ GoFloat.lt (GoFloat.ofInt x : Float64) (GoFloat.ofInt y) = true) →
      MayPrecede x y := by
    intro p q x y hx hy hno
    refine mayPrecede_of_not_lt (hab _ (List.mem_of_getElem? hx)) (hab _ (List.mem_of_getElem? hy)) ?_
    by_contra hc
    exact hno ⟨_, _, hy, hx, by simpa using hc⟩
  refine ⟨v, h', is, is.map fun i => xs.getD i 0, h1, rv, h2, h3, col_of_rowView rv hi hmem, ?_, ?_⟩
  · intro y hy j x hj hx
    obtain ⟨i, hi', rfl⟩ := List.mem_map.1 hy
    have hil := hmem i hi'
    have hjl : j < (Verif.abs h df).nRows := by
      rw [hnr, ← hlen]; exact (List.getElem?_eq_some_iff.1 hx).1
    have hiy : xs[i]? = some (xs.getD i 0) := by simp [List.getElem?_eq_getElem hil]
    have := h5 i hi' j hjl hj
    cases asc with
    | true => simp only [if_true] at this ⊢; exact key _ _ _ _ hiy hx this
    | false => simp only [Bool.false_eq_true, if_false] at this ⊢; exact key _ _ _ _ hx hiy this
  · intro hs'
    have := h6 hs'
    have hget : ∀ i ∈ is, xs[i]? = some (xs.getD i 0) := fun i hi' => by simp [List.getElem?_eq_getElem (hmem i hi')]
    cases asc with
    | true =>
      simp only [if_true] at this ⊢
      rw [List.pairwise_map]
      exact this.imp_of_mem fun hp' hq' hno => key _ _ _ _ (hget _ hp') (hget _ hq') hno
    | false =>
      simp only [Bool.false_eq_true, if_false] at this ⊢
      rw [List.pairwise_map]
      exact this.imp_of_mem fun hp' hq' hno => key _ _ _ _ (hget _ hq') (hget _ hp') hno

-- the hypotheses are met by a column of large ints, sorted by an `Argsort` that is correct
example (h0 : Heap Float64) : ∃ argsort : List Float64 → List Nat, IsArgsort argsort ∧ ∃ (df : DF) (h : Heap Float64), df.WF h ∧
    (Verif.abs h df).col .int b!"a" = some ([2 ^ 53 + 1, 2 ^ 53].map fun n => some (.int n)) := by
  obtain ⟨as, has, df, h, wf, hc, -⟩ := C07_float64_refuted h0
  exact ⟨as, has, df, h, wf, hc⟩

/-- The 1024 is reached: these two ints are converted to the same `float64`. -/
theorem C07_int64_sharp : (GoFloat.ofInt (2 ^ 62 + 2560) : Float64) = GoFloat.ofInt (2 ^ 62 + 1536) ∧
    MayPrecede (2 ^ 62 + 2560) (2 ^ 62 + 1536) := by
  have h : (GoFloat.ofInt (2 ^ 62 + 2560) : Float64) = GoFloat.ofInt (2 ^ 62 + 1536) := by decide +kernel
  exact ⟨h, Or.inr ⟨by rw [h], by norm_num⟩⟩

end Float64
end Verif
