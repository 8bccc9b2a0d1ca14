import Verif.Props.RowViews
import Verif.Spec.Sort

/-! C09, C10, C11, C52: splitting views, and `ResetIndexView`. -/

namespace Verif
open scoped Demo
variable {F : Type}

/-- The views `vs` show the row lists `parts` of `df`, in order. -/
inductive Parts (h : Heap F) (df : DF) (h' : Heap F) : List DF → List (List Nat) → Prop where
  | nil : Parts h df h' [] []
  | cons {v is vs ps} (r : RowView h df h' v is) (rest : Parts h df h' vs ps) :
      Parts h df h' (v :: vs) (is :: ps)

theorem Parts.length_eq {h : Heap F} {df : DF} {h' vs ps} (p : Parts h df h' vs ps) :
    vs.length = ps.length := by
  induction p with
  | nil => rfl
  | cons _ _ ih => simp [ih]

theorem Parts.imp {h h1 : Heap F} {df : DF} {h' h2 vs ps} (p : Parts h df h' vs ps)
    (f : ∀ v is, RowView h df h' v is → RowView h1 df h2 v is) : Parts h1 df h2 vs ps := by
  induction p with
  | nil => exact .nil
  | cons r _ ih => exact .cons (f _ _ r) ih

/-- A row view stays what it is when the heap only grows. -/
theorem RowView.ext_right {h h1 h2 : Heap F} {df v : DF} {is} (r : RowView h df h1 v is)
    (e : Heap.Ext h1 h2) : RowView h df h2 v is where
  shows := by rw [abs_ext e r.wf.toWF, r.shows]
  shares := by rw [locs_ext e r.wf.toWF, r.shares]
  wf := r.wf.ext e
  others d wd := by
    obtain ⟨x1, x2, x3⟩ := r.others d wd
    exact ⟨(abs_ext e x3.toWF).trans x1, (locs_ext e x3.toWF).trans x2, x3.ext e⟩

theorem RowView.ext_left {h h1 h2 : Heap F} {df v : DF} {is} (wf : df.WF h) (e : Heap.Ext h h1)
    (r : RowView h1 df h2 v is) : RowView h df h2 v is where
  shows := by rw [r.shows, abs_ext e wf.toWF]
  shares := by rw [r.shares, locs_ext e wf.toWF]
  wf := r.wf
  others d wd := by
    obtain ⟨x1, x2, x3⟩ := r.others d (wd.ext e)
    exact ⟨x1.trans (abs_ext e wd.toWF), x2.trans (locs_ext e wd.toWF), x3⟩

theorem rowRange_append {a b c : Nat} (h1 : a ≤ b) (h2 : b ≤ c) :
    rowRange a b ++ rowRange b c = rowRange a c := by
  unfold rowRange
  have : b = a + (b - a) := by omega
  conv => lhs; rhs; rw [this]
  rw [List.range'_append_1]
  congr 1
  omega

theorem splitLoop_spec {df : DF} {h : Heap F} (wf : df.WF h) {b : Nat} (hb : 0 < b) (m i : Nat)
    (hi : i + m * b ≤ df.numRows) :
    ∃ vs h' parts, df.splitLoop b i m h = .ok (vs, h') ∧ Heap.Ext h h' ∧ Parts h df h' vs parts ∧
      parts.flatten = rowRange i df.numRows ∧ parts.length = m + 1 ∧
      (∀ p ∈ parts.dropLast, p.length = b) ∧
      (∀ p ∈ parts.getLast?, p.length = df.numRows - (i + m * b)) := by
  induction m generalizing i h with
  | zero =>
    unfold DF.splitLoop
    obtain ⟨v, h', he, r, ext, _⟩ := cut_rowView (df := df.view) (view_wf wf) rfl
      (a := (i : Int)) (b := (df.numRows : Int)) (by omega) (by omega) (Int.le_refl _)
    rw [he]
    refine ⟨_, _, [rowRange i df.numRows], rfl, ext, ?_, by simp, rfl, by simp, ?_⟩
    · exact .cons (by simpa using r.of_view) .nil
    · intro p hp
      simp at hp
      subst hp
      simp [rowRange]
  | succ m ih =>
    have hmul : (m + 1) * b = m * b + b := Nat.succ_mul m b
    unfold DF.splitLoop
    obtain ⟨v, h1, he, r, ext, _⟩ := cut_rowView (df := df.view) (view_wf wf) rfl
      (a := (i : Int)) (b := ((i : Int) + b)) (by omega) (by omega)
      (show _ ≤ ((df.numRows : Nat) : Int) by omega)
    rw [he]
    obtain ⟨vs, h2, parts, he2, ext2, hp, hfl, hlen, hall, hlast⟩ := ih (wf.ext ext) (i + b) (by omega)
    simp only
    rw [he2]
    refine ⟨_, _, rowRange i (i + b) :: parts, rfl, ext.trans ext2, ?_, ?_, by simp [hlen], ?_, ?_⟩
    · refine .cons ?_ ?_
      · have := r.of_view.ext_right ext2
        refine this.cast ?_
        congr 1
      · exact hp.imp (fun v is r => r.ext_left wf ext)
    · simp only [List.flatten_cons, hfl]
      exact rowRange_append (by omega) (by omega)
    · cases parts with
      | nil => simp at hlen
      | cons q qs =>
        intro p hp
        rw [List.dropLast_cons_of_ne_nil (by simp)] at hp
        rcases List.mem_cons.1 hp with rfl | hp
        · simp [rowRange]
        · exact hall p hp
    · cases parts with
      | nil => simp at hlen
      | cons q qs =>
        intro p hp
        rw [List.getLast?_cons_cons] at hp
        rw [hlast p hp]
        omega

theorem numBatches_spec (n b : Nat) (hb : 0 < b) :
    (if n % b ≠ 0 then n / b + 1 else n / b) = (n + b - 1) / b := by
  have h1 := Nat.div_add_mod n b
  have h2 := Nat.mod_lt n hb
  split
  · rename_i hm
    symm
    apply Nat.div_eq_of_lt_le
    · have : (n / b + 1) * b = b * (n / b) + b := by rw [Nat.add_mul, Nat.one_mul, Nat.mul_comm]
      omega
    · have : (n / b + 1 + 1) * b = b * (n / b) + b + b := by
        rw [Nat.add_mul, Nat.add_mul, Nat.one_mul, Nat.mul_comm]
      omega
  · rename_i hm
    symm
    apply Nat.div_eq_of_lt_le
    · rw [Nat.mul_comm]; omega
    · have : (n / b + 1) * b = b * (n / b) + b := by rw [Nat.add_mul, Nat.one_mul, Nat.mul_comm]
      omega

/-- **C09**. `SplitView(b)` partitions the rows in order: the batches, read one after the other, show
exactly the rows of the dataframe; all but the last have `b` rows; the last one has between 1 and
`b` rows, except that an empty dataframe gives one empty batch. -/
theorem C09_splitView {df : DF} {h : Heap F} (wf : df.WF h) {b : Int} (hb : 0 < b) :
    ∃ vs h' parts, df.splitView b h = .ok (vs, h') ∧ Parts h df h' vs parts ∧
      parts.flatten = List.range df.numRows ∧
      (∀ p ∈ parts.dropLast, p.length = b.toNat) ∧
      (∀ p ∈ parts.getLast?, p.length ≤ b.toNat ∧ (0 < df.numRows → 1 ≤ p.length)) ∧
      (parts.length = if df.numRows = 0 then 1 else (df.numRows + b.toNat - 1) / b.toNat) := by
  unfold DF.splitView
  rw [if_neg (by omega)]
  simp only
  have hbn : 0 < b.toNat := by omega
  generalize hB : b.toNat = B at *
  have hnb := numBatches_spec df.numRows B hbn
  have h1 := Nat.div_add_mod df.numRows B
  have h2 := Nat.mod_lt df.numRows hbn
  rw [hnb]
  split
  · rename_i hle
    refine ⟨_, _, [List.range df.numRows], rfl, .cons (view_rowView wf) .nil, by simp, by simp, ?_, ?_⟩
    · intro p hp
      simp at hp
      subst hp
      simp only [List.length_range]
      refine ⟨?_, fun h => h⟩
      refine Classical.byContradiction fun hn => ?_
      have : 2 ≤ (df.numRows + B - 1) / B := (Nat.le_div_iff_mul_le hbn).2 (by omega)
      omega
    · split
      · rfl
      · have : 1 ≤ (df.numRows + B - 1) / B := (Nat.le_div_iff_mul_le hbn).2 (by omega)
        simp; omega
  · rename_i hgt
    have hgt : 2 ≤ (df.numRows + B - 1) / B := by omega
    have hlow := (Nat.le_div_iff_mul_le hbn).1 hgt
    have hmulle : (df.numRows + B - 1) / B * B ≤ df.numRows + B - 1 := Nat.div_mul_le_self _ _
    have hlt : df.numRows + B - 1 < ((df.numRows + B - 1) / B + 1) * B :=
      by rw [Nat.mul_comm]; exact Nat.lt_mul_div_succ _ hbn
    generalize hq : (df.numRows + B - 1) / B = q at *
    obtain ⟨q', rfl⟩ : ∃ q', q = q' + 1 := ⟨q - 1, by omega⟩
    have e1 : (q' + 1) * B = q' * B + B := Nat.succ_mul ..
    have e2 : (q' + 1 + 1) * B = q' * B + B + B := by rw [Nat.succ_mul, Nat.succ_mul]
    obtain ⟨vs, h', parts, he, _, hp, hfl, hlen, hall, hlast⟩ := splitLoop_spec wf hbn q' 0 (by omega)
    rw [show q' + 1 - 1 = q' by omega, he]
    refine ⟨vs, h', parts, rfl, hp, ?_, hall, ?_, ?_⟩
    · rw [hfl]; simp [rowRange, List.range_eq_range']
    · intro p hp
      rw [hlast p hp]
      omega
    · rw [if_neg (by omega), hlen]

/-- **C09**. `SplitView(b)` panics when `b ≤ 0`. -/
theorem C09_splitView_panics (df : DF) (h : Heap F) {b : Int} (hb : b ≤ 0) :
    df.splitView b h = .error .panic := by
  unfold DF.splitView; rw [if_pos hb]

example : ∃ vs h' parts, Demo.df.splitView 3 Demo.h = .ok (vs, h') ∧ Parts Demo.h Demo.df h' vs parts ∧
    parts.flatten = List.range 4 ∧ parts.length = 2 := by
  obtain ⟨vs, h', parts, he, hp, hf, _, _, hl⟩ := C09_splitView Demo.df_wf (b := 3) (by decide)
  exact ⟨vs, h', parts, he, hp, hf, by rw [hl]; decide⟩

/-! ### C10 -/

/-- An even share of the rows among `n`: all the parts but the last have `ceil(rows/n)` rows, the last one not
more, and (when there are rows) none is empty. -/
structure EvenParts (rows n : Nat) (parts : List (List Nat)) : Prop where
  le : ∀ p ∈ parts, p.length ≤ (rows + n - 1) / n
  full : ∀ p ∈ parts.dropLast, p.length = (rows + n - 1) / n
  rest : 0 < rows → ∀ p ∈ parts, p ≠ []

/-- **C10**. `SplitNView(n)` for `n ≥ 1` on a dataframe with rows: exactly `n` parts; the first ones
are row views that partition the rows in order, of `ceil(NumRows/n)` rows each except that the last may have fewer; the remaining
parts are dataframes without rows (and without columns). Partial: for an empty dataframe (`NumRows =
0`) the function returns one part instead of `n` (`C10_refuted_empty`), and the padding parts do not
have the columns of the dataframe. -/
theorem C10_splitNView_partial {df : DF} {h : Heap F} (wf : df.WF h) {n : Int} (hn : 1 ≤ n)
    (h0 : 0 < df.numRows) :
    ∃ vs pad h' parts, df.splitNView n h = .ok (vs ++ pad, h') ∧ (vs ++ pad).length = n.toNat ∧
      Parts h df h' vs parts ∧ parts.flatten = List.range df.numRows ∧
      EvenParts df.numRows n.toNat parts ∧
      (∀ e ∈ pad, e.WF h' ∧ (abs h' e).nRows = 0 ∧ (∀ k c, (abs h' e).col k c = none) ∧ ∀ c, (abs h' e).isStr c = false) := by
  unfold DF.splitNView
  rw [if_neg (by omega), if_neg (by omega)]
  split
  · rename_i hc
    have hn1 : n = 1 := by omega
    subst hn1
    refine ⟨[df.view], [], h, [List.range df.numRows], rfl, rfl, .cons (view_rowView wf) .nil, by simp, ⟨?_, by simp, ?_⟩, by simp⟩
    · intro p hp
      simp at hp
      subst hp
      simp
    · intro _ p hp
      simp at hp
      subst hp
      simp; omega
  · rename_i hc
    simp only
    have hN : 0 < n.toNat := by omega
    generalize hNe : n.toNat = N at *
    have hnb := numBatches_spec df.numRows N hN
    rw [hnb]
    generalize hB : (df.numRows + N - 1) / N = B at *
    have hBpos : 0 < B := by
      rw [← hB]; exact (Nat.le_div_iff_mul_le hN).2 (by omega)
    have hBmul : df.numRows ≤ B * N := by
      have : df.numRows + N - 1 < (B + 1) * N := by
        rw [← hB, Nat.mul_comm]; exact Nat.lt_mul_div_succ _ hN
      have e : (B + 1) * N = B * N + N := Nat.succ_mul ..
      omega
    obtain ⟨vs, h', parts, he, hp, hfl, hall, hlast, hlen⟩ := C09_splitView wf (b := (B : Int)) (by omega)
    rw [he]
    simp only [Int.toNat_natCast] at hall hlast hlen
    have hle : ∀ p ∈ parts, p.length ≤ B := by
      intro p hpm
      rcases List.eq_nil_or_concat parts with rfl | ⟨ini, last, rfl⟩
      · simp at hpm
      · simp only [List.concat_eq_append, List.mem_append, List.mem_singleton] at hpm
        simp only [List.concat_eq_append, List.dropLast_concat, List.getLast?_concat] at hall hlast
        rcases hpm with hm | rfl
        · exact Nat.le_of_eq (hall p hm)
        · exact (hlast p rfl).1
    have heven : EvenParts df.numRows N parts := by
      refine ⟨by rw [hB]; exact hle, by rw [hB]; exact hall, ?_⟩
      intro _ p hpm
      rcases List.eq_nil_or_concat parts with rfl | ⟨ini, last, rfl⟩
      · simp at hpm
      · simp only [List.concat_eq_append, List.mem_append, List.mem_singleton] at hpm
        simp only [List.concat_eq_append, List.dropLast_concat, List.getLast?_concat] at hall hlast
        rcases hpm with hm | rfl
        · have := hall p hm
          rintro rfl; simp at this; omega
        · have := (hlast p rfl).2 h0
          rintro rfl; simp at this
    rw [if_neg (by omega)] at hlen
    have hcount : parts.length ≤ N := by
      rw [hlen]
      have : (df.numRows + B - 1) / B < N + 1 := by
        apply (Nat.div_lt_iff_lt_mul hBpos).2
        have e : (N + 1) * B = B * N + B := by rw [Nat.add_mul, Nat.one_mul, Nat.mul_comm]
        omega
      omega
    have hvl := hp.length_eq
    simp only
    split
    · rename_i hlt
      generalize hem : emptyDataFrame h' 0 df.maxCPU = p
      obtain ⟨e, h2⟩ := p
      have hext : Heap.Ext h' h2 := by
        have : h2 = (emptyDataFrame h' 0 df.maxCPU).2 := by rw [hem]
        rw [this]; simp only [emptyDataFrame]
        exact Heap.newTab_ext ..
      have hemp : e.WF h2 ∧ (abs h2 e).nRows = 0 ∧ (∀ k c, (abs h2 e).col k c = none) ∧ ∀ c, (abs h2 e).isStr c = false := by
        have h1 : h2 = (emptyDataFrame h' 0 df.maxCPU).2 := by rw [hem]
        have h2' : e = (emptyDataFrame h' 0 df.maxCPU).1 := by rw [hem]
        subst h1; subst h2'
        simp only [emptyDataFrame]
        refine ⟨⟨⟨by simp, by simp, by simp, by simp [AMap.keys], ?_⟩, by simp, ⟨0, ?_, ?_, ?_⟩⟩, ?_, ?_, ?_⟩
        · intro k s hk; simp [Heap.newTab] at hk
        · intro k s hk; simp [Heap.newTab] at hk
        · intro i hi; simp [DF.rows, Idx.rows] at hi
        · intro _; rfl
        · rfl
        · intro k c; simp [abs, Heap.newTab]
        · intro c; simp [abs, hdrList]
      refine ⟨vs, List.replicate (N - vs.length) e, h2, parts, rfl, ?_, ?_, hfl, heven, ?_⟩
      · simp; omega
      · exact hp.imp (fun v is r => r.ext_right hext)
      · intro x hx
        rw [List.eq_of_mem_replicate hx]
        exact hemp
    · exact ⟨vs, [], h', parts, by simp, by simp; omega, hp, hfl, heven, by simp⟩

/-- **C10**. `SplitNView(0)` returns nothing and a negative count panics. -/
theorem C10_splitNView_other (df : DF) (h : Heap F) :
    df.splitNView 0 h = .ok ([], h) ∧ ∀ n, n < 0 → df.splitNView n h = .error .panic := by
  refine ⟨by simp [DF.splitNView], ?_⟩
  intro n hn
  unfold DF.splitNView; rw [if_pos hn]

/-- **C10** refuted for an empty dataframe: asked for any number of parts, it returns a single one. -/
theorem C10_refuted_empty (df : DF) (h : Heap F) (h0 : df.numRows = 0) (n : Int) (hn : 1 ≤ n) :
    df.splitNView n h = .ok ([df.view], h) := by
  unfold DF.splitNView
  rw [if_neg (by omega), if_neg (by omega), if_pos (Or.inr h0)]

example : ∃ vs pad h' parts, Demo.df.splitNView 3 Demo.h = .ok (vs ++ pad, h') ∧ (vs ++ pad).length = 3 ∧
    Parts Demo.h Demo.df h' vs parts ∧ parts.flatten = List.range 4 := by
  obtain ⟨vs, pad, h', parts, he, hl, hp, hf, _⟩ := C10_splitNView_partial Demo.df_wf (n := 3) (by decide) (by decide)
  exact ⟨vs, pad, h', parts, he, hl, hp, hf⟩

/-! ### C11 -/

/-- **C11**. Whenever `int(float64(NumRows) * ratio)` is a number of rows `t` with `0 ≤ t ≤ NumRows`,
`SplitTrainTestViews(ratio)` returns the first `NumRows - t` rows and the last `t` rows, in order. -/
theorem C11_splitTrainTest [GoFloat F] {df : DF} {h : Heap F} (wf : df.WF h) {ratio : F}
    (hr : GoFloat.lt ratio (GoFloat.zero : F) = false ∧ GoFloat.lt (GoFloat.one : F) ratio = false)
    (t : Nat) (ht : GoFloat.trunc (GoFloat.mul (GoFloat.ofInt df.numRows) ratio : F) = t)
    (hle : t ≤ df.numRows) :
    ∃ train test h', df.splitTrainTestViews ratio h = .ok ((train, test), h') ∧
      RowView h df h' train (rowRange 0 (df.numRows - t)) ∧
      RowView h df h' test (rowRange (df.numRows - t) df.numRows) := by
  unfold DF.splitTrainTestViews
  rw [hr.1, hr.2]
  simp only [Bool.or_self, Bool.false_eq_true, if_false]
  rw [ht]
  have cut : ∀ (h : Heap F) (wf : df.WF h) (a b : Nat), a ≤ b → b ≤ df.numRows →
      ∃ v h', df.sliceView a b h = .ok (v, h') ∧ RowView h df h' v (rowRange a b) ∧ Heap.Ext h h' := by
    intro h wf a b h1 h2
    unfold DF.sliceView
    simp only
    rw [if_neg (show ¬ (a : Int) < 0 by omega), if_neg (show ¬ (b : Int) < 0 by omega),
      if_neg (show ¬ (a : Int) > b by omega)]
    obtain ⟨v, h', he, r, ext, _⟩ := cut_rowView (df := df.view) (view_wf wf) rfl
      (a := (a : Int)) (b := (b : Int)) (by omega) (by omega) (show (b : Int) ≤ (df.numRows : Nat) by omega)
    exact ⟨v, h', he, by simpa using r.of_view, ext⟩
  have e1 : ((df.numRows : Int) - (t : Int)) = ((df.numRows - t : Nat) : Int) := by omega
  rw [e1]
  obtain ⟨tr, h1, he1, r1, x1⟩ := cut h wf 0 (df.numRows - t) (by omega) (by omega)
  rw [show (0 : Int) = ((0 : Nat) : Int) from rfl, he1]
  simp only
  obtain ⟨te, h2, he2, r2, x2⟩ := cut h1 (wf.ext x1) (df.numRows - t) df.numRows (by omega) (by omega)
  rw [he2]
  exact ⟨tr, te, h2, rfl, r1.ext_right x2, r2.ext_left wf x1⟩

/-- **C11**. Together the two row lists are all the rows, in order. -/
theorem C11_partition (n t : Nat) (hle : t ≤ n) :
    rowRange 0 (n - t) ++ rowRange (n - t) n = List.range n ∧ (rowRange (n - t) n).length = t := by
  refine ⟨?_, by simp [rowRange]; omega⟩
  rw [rowRange_append (by omega) (by omega)]
  simp [rowRange, List.range_eq_range']

/-- **C11**. A ratio below 0 or above 1 panics. -/
theorem C11_panics [GoFloat F] (df : DF) (h : Heap F) {ratio : F}
    (hr : GoFloat.lt ratio (GoFloat.zero : F) = true ∨ GoFloat.lt (GoFloat.one : F) ratio = true) :
    df.splitTrainTestViews ratio h = .error .panic := by
  unfold DF.splitTrainTestViews
  rw [if_pos]
  rcases hr with hr | hr <;> simp [hr]

example : ∃ train test h', Demo.df.splitTrainTestViews (F := Int) 1 Demo.h = .ok ((train, test), h') ∧
    RowView Demo.h Demo.df h' train [] ∧ RowView Demo.h Demo.df h' test [0, 1, 2, 3] :=
  C11_splitTrainTest Demo.df_wf (ratio := (1 : Int)) (by decide) 4 (by decide) (by decide)

/-! ### C52 -/

theorem insertNat_perm (x : Nat) (l : List Nat) : (insertNat x l).Perm (x :: l) := by
  induction l with
  | nil => exact .refl _
  | cons y ys ih =>
    unfold insertNat
    split
    · exact .refl _
    · exact (List.Perm.cons y ih).trans (List.Perm.swap x y ys)

theorem sortNat_perm (l : List Nat) : (sortNat l).Perm l := by
  induction l with
  | nil => exact .refl _
  | cons x xs ih => exact (insertNat_perm x _).trans (ih.cons x)

theorem insertNat_sorted (x : Nat) (l : List Nat) (h : l.Pairwise (· ≤ ·)) :
    (insertNat x l).Pairwise (· ≤ ·) := by
  induction l with
  | nil => simp [insertNat]
  | cons y ys ih =>
    unfold insertNat
    rw [List.pairwise_cons] at h
    split
    · rename_i hxy
      rw [List.pairwise_cons]
      refine ⟨?_, List.pairwise_cons.2 h⟩
      intro z hz
      rcases List.mem_cons.1 hz with rfl | hz
      · exact hxy
      · exact Nat.le_trans hxy (h.1 z hz)
    · rename_i hxy
      rw [List.pairwise_cons]
      refine ⟨?_, ih h.2⟩
      intro z hz
      rcases List.mem_cons.1 ((insertNat_perm x ys).mem_iff.1 hz) with rfl | hz
      · omega
      · exact h.1 z hz

theorem sortNat_sorted (l : List Nat) : (sortNat l).Pairwise (· ≤ ·) := by
  induction l with
  | nil => exact List.Pairwise.nil
  | cons x xs ih => exact insertNat_sorted x _ ih

theorem insertNat_of_le {x : Nat} {l : List Nat} (h : ∀ y ∈ l, x ≤ y) : insertNat x l = x :: l := by
  cases l with
  | nil => rfl
  | cons y ys => simp [insertNat, h y (by simp)]

theorem sortNat_of_sorted {l : List Nat} (h : l.Pairwise (· ≤ ·)) : sortNat l = l := by
  induction l with
  | nil => rfl
  | cons x xs ih =>
    rw [List.pairwise_cons] at h
    simp only [sortNat, ih h.2]
    exact insertNat_of_le h.1

/-- There is a list of the rows in backing order. -/
theorem exists_backingOrder (df : DF) : ∃ is, df.BackingOrder is ∧ sortNat df.rows = pick df.rows is := by
  obtain ⟨le, hle⟩ : ∃ le : Nat → Nat → Bool, le = fun r s =>
    decide (df.rows.getD r 0 < df.rows.getD s 0 ∨ (df.rows.getD r 0 = df.rows.getD s 0 ∧ r ≤ s)) := ⟨_, rfl⟩
  have hp : ((List.range df.numRows).mergeSort le).Perm (List.range df.numRows) := List.mergeSort_perm _ _
  have hs : ((List.range df.numRows).mergeSort le).Pairwise (fun a b => le a b = true) := by
    apply List.pairwise_mergeSort
    · intro a b c; rw [hle]; simp only [decide_eq_true_eq]; omega
    · intro a b; rw [hle]; simp only [Bool.or_eq_true, decide_eq_true_eq]; omega
  have hnd : ((List.range df.numRows).mergeSort le).Nodup := hp.nodup_iff.2 List.nodup_range
  refine ⟨_, ⟨hp, ?_⟩, ?_⟩
  · refine (hs.and hnd).imp ?_
    intro a b ⟨h1, h2⟩
    rw [hle] at h1; simp only [decide_eq_true_eq] at h1
    rcases h1 with h1 | h1
    · exact Or.inl h1
    · exact Or.inr ⟨h1.1, by omega⟩
  · have h1 : (pick df.rows ((List.range df.numRows).mergeSort le)).Pairwise (· ≤ ·) := by
      unfold pick
      rw [List.pairwise_map]
      refine hs.imp ?_
      intro a b h1
      rw [hle] at h1; simp only [decide_eq_true_eq] at h1
      omega
    have h2 : (pick df.rows ((List.range df.numRows).mergeSort le)).Perm df.rows := by
      have : (pick df.rows ((List.range df.numRows).mergeSort le)).Perm (pick df.rows (List.range df.rows.length)) := hp.map _
      rwa [pick_range] at this
    exact List.Perm.eq_of_pairwise (fun a b _ _ h1 h2 => Nat.le_antisymm h1 h2) (sortNat_sorted _) h1 ((sortNat_perm _).trans h2.symm)

/-- There is only one. -/
theorem backingOrder_unique {df : DF} {is js : List Nat} (h1 : df.BackingOrder is) (h2 : df.BackingOrder js) : is = js := by
  refine List.Perm.eq_of_pairwise (fun a b _ _ h3 h4 => ?_) h1.2 h2.2 (h1.1.trans h2.1.symm)
  omega

/-- A dataframe whose rows are in order already. -/
theorem backingOrder_sorted {df : DF} (hs : df.rows.Pairwise (· ≤ ·)) : df.BackingOrder (List.range df.numRows) := by
  refine ⟨List.Perm.refl _, ?_⟩
  rw [List.pairwise_iff_getElem]
  intro i j hi hj hij
  simp only [List.length_range] at hi hj
  have hi' : i < df.rows.length := hi
  have hj' : j < df.rows.length := hj
  have := (List.pairwise_iff_getElem.1 hs) i j hi' hj' hij
  simp only [List.getElem_range, List.getD_eq_getElem?_getD, List.getElem?_eq_getElem hi', List.getElem?_eq_getElem hj', Option.getD_some]
  omega

/-- **C52**. `ResetIndexView` is a view on a permutation of the rows, ordered by raw position (the only such permutation, up to
the order of rows that show the same underlying row: `backingOrder_unique`); nothing existing changes. -/
theorem C52_resetIndexView {df : DF} {h : Heap F} (wf : df.WF h) :
    ∃ is, df.BackingOrder is ∧ RowView h df h df.resetIndexView is ∧
      df.resetIndexView.rows.Pairwise (· ≤ ·) := by
  obtain ⟨is, hbo, he⟩ := exists_backingOrder df
  have hp := hbo.1
  have hin : ∀ i ∈ is, i < df.numRows := by
    intro i hi; have := (hp.mem_iff).1 hi; simpa [DF.numRows] using this
  have hrows : df.resetIndexView.rows = sortNat df.rows := by simp [DF.resetIndexView, DF.rows]
  refine ⟨is, hbo, ?_, by rw [hrows]; exact sortNat_sorted _⟩
  have hl : locs h df.resetIndexView = (locs h df).select is :=
    locs_pick (d := df) (d' := df.resetIndexView) rfl rfl rfl (hrows.trans he) hin
  refine ⟨abs_of_locs wf.toWF (fun _ _ => rfl) hl, hl, ?_, fun d wd => ⟨rfl, rfl, wd⟩⟩
  refine ⟨⟨wf.tab_lt, wf.shared_lt, wf.str_lt, wf.keys, wf.slices⟩, by simp [DF.resetIndexView, Idx.mk'], ?_⟩
  obtain ⟨N, h1, h2, h3⟩ := wf.rect
  refine ⟨N, h1, ?_, ?_⟩
  · intro i hi
    rw [hrows] at hi
    exact h2 i ((sortNat_perm _).mem_iff.1 hi)
  · intro hv
    rw [hrows, h3 hv]
    apply sortNat_of_sorted
    exact List.Pairwise.imp (fun h => Nat.le_of_lt h) List.pairwise_lt_range

/-- **C52**. Applying it twice is applying it once. -/
theorem C52_idempotent {df : DF} (h : Heap F) :
    abs h df.resetIndexView.resetIndexView = abs h df.resetIndexView := by
  have : df.resetIndexView.resetIndexView = df.resetIndexView := by
    have hrows : df.resetIndexView.rows = sortNat df.rows := by simp [DF.resetIndexView, DF.rows]
    show { df.resetIndexView.view with idx := Idx.mk' (sortNat df.resetIndexView.rows) } = _
    rw [hrows, sortNat_of_sorted (sortNat_sorted _)]
    rfl
  rw [this]

example : (match Demo.df.indexView [3, 1, 3, 0] Demo.h with
  | .ok (v, _) => v.resetIndexView.rows | .error _ => []) = [0, 1, 3, 3] := by decide

end Verif
