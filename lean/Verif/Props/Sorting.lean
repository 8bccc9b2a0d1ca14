import Verif.Props.RowViews
import Verif.Spec.Sort
import Mathlib.Data.List.Perm.Basic
import Mathlib.Data.List.Sort
import Mathlib.Algebra.Order.Ring.Int

/-! C07, C08: `SortedView` and `TopView`. -/

namespace Verif
open scoped Demo
variable {F : Type}

theorem gather_map {h : Heap F} {s : Slice} {is : List Nat} {vs : List (Val F)}
    (e : is.map (h.cell s) = vs.map some) : gather h s is = .ok vs := by
  induction is generalizing vs with
  | nil => cases vs <;> simp_all [gather]
  | cons i is ih =>
    cases vs with
    | nil => simp at e
    | cons v vs =>
      simp only [List.map_cons, List.cons.injEq] at e
      simp only [gather, e.1, ih e.2]

/-- Every element of a list of shape `some (f _)` comes from a list. -/
theorem exists_unmap {A B : Type} {l : List B} (f : A → B) (P : A → Prop)
    (hl : ∀ x ∈ l, ∃ a, x = f a ∧ P a) : ∃ as : List A, l = as.map f ∧ ∀ a ∈ as, P a := by
  induction l with
  | nil => exact ⟨[], rfl, by simp⟩
  | cons x l ih =>
    obtain ⟨a, rfl, pa⟩ := hl x (by simp)
    obtain ⟨as, rfl, pas⟩ := ih (fun y hy => hl y (by simp [hy]))
    exact ⟨a :: as, rfl, by simpa using ⟨pa, pas⟩⟩

/-! ### bool order -/

/-- The positions of `false`, then those of `true`, both increasing. -/
def falseTrue (bs : List Bool) : List Nat :=
  (List.range bs.length).filter (fun i => !bs.getD i false) ++
  (List.range bs.length).filter (fun i => bs.getD i false)

theorem zipIdx_filter {A : Type} (xs : List A) (p : A → Bool) (d : A) (k : Nat) :
    ((xs.zipIdx k).filter (fun e => p e.1)).map (·.2) =
    ((List.range xs.length).filter (fun i => p (xs.getD i d))).map (· + k) := by
  induction xs generalizing k with
  | nil => rfl
  | cons x xs ih =>
    simp only [List.zipIdx_cons, List.length_cons, List.range_succ_eq_map, List.filter_cons,
      List.filter_map]
    have e : ((fun i => p ((x :: xs).getD i d)) ∘ Nat.succ) = fun i => p (xs.getD i d) := by
      funext i; simp
    rw [e]
    have := ih (k + 1)
    simp only [List.getD_cons_zero]
    split
    · simp only [List.map_cons, this, List.map_map, Nat.zero_add, List.cons.injEq, true_and]
      apply List.map_congr_left; intro a _; simp only [Function.comp]; omega
    · rw [this, List.map_map]
      apply List.map_congr_left; intro a _; simp only [Function.comp]; omega

theorem boolOrder_eq (bs : List Bool) : boolOrder (bs.map (Val.bool : Bool → Val F)) = falseTrue bs := by
  unfold boolOrder falseTrue
  simp only
  have h1 := zipIdx_filter (bs.map (Val.bool : Bool → Val F))
    (fun v => !asBool v) (Val.bool false) 0
  have h2 := zipIdx_filter (bs.map (Val.bool : Bool → Val F))
    asBool (Val.bool false) 0
  simp only [Nat.add_zero, List.map_id_fun', id, List.length_map] at h1 h2
  rw [h1, h2]
  congr 1 <;>
  · apply List.filter_congr
    intro i hi
    have hi' : i < bs.length := by simpa using hi
    simp [List.getD_eq_getElem?_getD, List.getElem?_eq_getElem hi', asBool]

theorem falseTrue_perm (bs : List Bool) : (falseTrue bs).Perm (List.range bs.length) := by
  unfold falseTrue
  have := List.filter_append_perm (fun i => !bs.getD i false) (List.range bs.length)
  simpa only [Bool.not_not] using this

theorem falseTrue_pairwise (bs : List Bool) :
    (falseTrue bs).Pairwise fun p q => ¬ (bs.getD q false = false ∧ bs.getD p false = true) := by
  unfold falseTrue
  rw [List.pairwise_append]
  refine ⟨?_, ?_, ?_⟩
  · apply List.Pairwise.imp_of_mem _ (List.pairwise_of_forall (fun _ _ => trivial) : List.Pairwise (fun _ _ => True) _)
    intro p q hp _ _ hc
    rw [List.mem_filter, hc.2] at hp; simp at hp
  · apply List.Pairwise.imp_of_mem _ (List.pairwise_of_forall (fun _ _ => trivial) : List.Pairwise (fun _ _ => True) _)
    intro p q _ hq _ hc
    rw [List.mem_filter, hc.1] at hq; simp at hq
  · intro p hp q _ hc
    rw [List.mem_filter, hc.2] at hp; simp at hp

/-! ### the row order that `SortedView` computes -/

theorem view_lower [GoFloat F] {a : ADF (Val F)} {is : List Nat} {c : GoStr} {i j : Nat}
    (hl : (a.select is).lower c i j) : ∃ p q, is[i]? = some p ∧ is[j]? = some q ∧ a.lower c p q := by
  obtain ⟨l, x, y, hk, hx, hy, hlt⟩ := hl
  have hk' : ∃ l0, a.keyCol c = some l0 ∧ l = is.map fun i => (l0[i]?).join := by
    unfold ADF.keyCol at hk ⊢
    simp only [ADF.select] at hk
    cases hb : a.col .bool c with
    | some l0 => simp only [hb, Option.map_some, Option.some.injEq] at hk ⊢; exact ⟨l0, rfl, hk.symm⟩
    | none =>
      simp only [hb, Option.map_none] at hk ⊢
      cases hf : a.col .float c with
      | some l0 => simp only [hf, Option.map_some, Option.some.injEq] at hk ⊢; exact ⟨l0, rfl, hk.symm⟩
      | none =>
        simp only [hf, Option.map_none] at hk ⊢
        cases hi : a.col .int c with
        | some l0 => simp only [hi, Option.map_some, Option.some.injEq] at hk ⊢; exact ⟨l0, rfl, hk.symm⟩
        | none => simp [hi] at hk
  obtain ⟨l0, hk0, rfl⟩ := hk'
  simp only [List.getElem?_map, Option.map_eq_some_iff, Option.join_eq_some_iff] at hx hy
  obtain ⟨p, hp, hx⟩ := hx
  obtain ⟨q, hq, hy⟩ := hy
  exact ⟨p, q, hp, hq, l0, x, y, hk0, hx, hy, hlt⟩

theorem ascending_of_pairwise [GoFloat F] {a : ADF (Val F)} {is : List Nat} {c : GoStr}
    (hp : is.Pairwise fun p q => ¬ a.lower c q p) : (a.select is).Ascending c := by
  intro i j hij hl
  obtain ⟨q, p, hq, hp', hl'⟩ := view_lower hl
  obtain ⟨hj, rfl⟩ := List.getElem?_eq_some_iff.1 hq
  obtain ⟨hi, rfl⟩ := List.getElem?_eq_some_iff.1 hp'
  exact List.pairwise_iff_getElem.1 hp i j hi hj hij hl'

theorem descending_of_pairwise [GoFloat F] {a : ADF (Val F)} {is : List Nat} {c : GoStr}
    (hp : is.Pairwise fun p q => ¬ a.lower c p q) : (a.select is).Descending c := by
  intro i j hij hl
  obtain ⟨p, q, hp', hq, hl'⟩ := view_lower hl
  obtain ⟨hj, rfl⟩ := List.getElem?_eq_some_iff.1 hq
  obtain ⟨hi, rfl⟩ := List.getElem?_eq_some_iff.1 hp'
  exact List.pairwise_iff_getElem.1 hp i j hi hj hij hl'

theorem perm_range_lt {is : List Nat} {n : Nat} (hp : is.Perm (List.range n)) :
    ∀ i ∈ is.map Int.ofNat, 0 ≤ i ∧ i < n := by
  intro i hi
  obtain ⟨k, hk, rfl⟩ := List.mem_map.1 hi
  have := (hp.mem_iff).1 hk
  simp only [List.mem_range] at this
  simp only [Int.ofNat_eq_natCast]; omega

/-- `SortedView` is an `IndexView` on a permutation of the rows. -/
theorem sortedView_core [GoFloat F] {argsort : List F → List Nat} (hs : IsArgsort argsort) {df : DF}
    {h : Heap F} {c : GoStr} (hc : (abs h df).Sortable c) :
    ∃ is : List Nat, df.sortedView argsort c h = df.indexView (is.map Int.ofNat) h ∧
      is.Perm (List.range df.numRows) ∧ is.Pairwise (fun p q => ¬ (abs h df).lower c q p) ∧
      (∀ bs : List Bool, (abs h df).col .bool c = some (bs.map fun b => some (.bool b)) → is = falseTrue bs) := by
  cases hc with
  | bool l hl ty =>
    obtain ⟨bs, rfl, -⟩ := exists_unmap (fun b => some (Val.bool b : Val F)) (fun _ => True)
      (fun x hx => (ty x hx).imp fun b hb => ⟨hb, trivial⟩)
    have hl0 := hl
    simp only [abs, Option.map_eq_some_iff] at hl
    obtain ⟨s, hg, hm⟩ := hl
    have hlen : bs.length = df.numRows := by
      have := congrArg List.length hm; simpa [DF.numRows] using this.symm
    refine ⟨falseTrue bs, ?_, hlen ▸ falseTrue_perm bs, ?_, ?_⟩
    · unfold DF.sortedView
      simp only [hg]
      rw [gather_map (vs := bs.map Val.bool) (by rw [hm]; simp)]
      simp only [boolOrder_eq]
    · refine (falseTrue_pairwise bs).imp ?_
      rintro p q hno ⟨l, x, y, hk, hx, hy, hlt⟩
      simp only [ADF.keyCol, hl0, Option.some.injEq] at hk
      subst hk
      simp only [List.getElem?_map, Option.map_eq_some_iff, Option.some.injEq] at hx hy
      obtain ⟨bq, hq, rfl⟩ := hx
      obtain ⟨bp, hp, rfl⟩ := hy
      simp only [valLt, Bool.and_eq_true, Bool.not_eq_eq_eq_not, Bool.not_true] at hlt
      apply hno
      simp [hq, hp, hlt.1, hlt.2]
    · intro bs' hbs'
      rw [hl0] at hbs'
      have : bs = bs' := by
        have h1 := Option.some.inj hbs'
        have hinj : Function.Injective (fun b : Bool => some (Val.bool b : Val F)) := by
          intro a b hab; simpa using hab
        exact List.map_injective_iff.2 hinj h1
      rw [this]
  | float l hb hl ty =>
    obtain ⟨xs, rfl, hnan⟩ := exists_unmap (fun b => some (Val.float b : Val F)) (fun x => GoFloat.isNaN x = false) ty
    have hl0 := hl
    have hb0 := hb
    simp only [abs, Option.map_eq_some_iff] at hl
    obtain ⟨s, hg, hm⟩ := hl
    simp only [abs, Option.map_eq_none_iff] at hb
    have hlen : xs.length = df.numRows := by
      have := congrArg List.length hm; simpa [DF.numRows] using this.symm
    refine ⟨argsort xs, ?_, hlen ▸ hs.perm xs, ?_, ?_⟩
    · unfold DF.sortedView
      simp only [hg, hb]
      rw [gather_map (vs := xs.map Val.float) (by rw [hm]; simp)]
      simp only [List.map_map]
      congr 3
      simp [asFloat, Function.comp_def]
    · refine (hs.sorted xs hnan).imp ?_
      rintro p q hno ⟨l, x, y, hk, hx, hy, hlt⟩
      simp only [ADF.keyCol, hb0, hl0, Option.some.injEq] at hk
      subst hk
      simp only [List.getElem?_map, Option.map_eq_some_iff, Option.some.injEq] at hx hy
      obtain ⟨bq, hq, rfl⟩ := hx
      obtain ⟨bp, hp, rfl⟩ := hy
      simp only [valLt] at hlt
      rw [hno bp bq hp hq] at hlt; cases hlt
    · intro bs hbs; rw [hb0] at hbs; cases hbs
  | int l hb hf hl ty order =>
    obtain ⟨xs, rfl, hnan⟩ := exists_unmap (fun b => some (Val.int b : Val F))
      (fun x => GoFloat.isNaN (GoFloat.ofInt x : F) = false) ty
    have hl0 := hl
    have hb0 := hb
    have hf0 := hf
    simp only [abs, Option.map_eq_some_iff] at hl
    obtain ⟨s, hg, hm⟩ := hl
    simp only [abs, Option.map_eq_none_iff] at hb hf
    have hlen : xs.length = df.numRows := by
      have := congrArg List.length hm; simpa [DF.numRows] using this.symm
    refine ⟨argsort (xs.map GoFloat.ofInt), ?_, ?_, ?_, ?_⟩
    · unfold DF.sortedView
      simp only [hg, hb, hf]
      rw [gather_map (vs := xs.map Val.int) (by rw [hm]; simp)]
      simp only [List.map_map]
      congr 3
    · have := hs.perm (xs.map GoFloat.ofInt); rwa [List.length_map, hlen] at this
    · refine (hs.sorted (xs.map GoFloat.ofInt) ?_).imp ?_
      · intro x hx; obtain ⟨n, hn, rfl⟩ := List.mem_map.1 hx; exact hnan n hn
      rintro p q hno ⟨l, x, y, hk, hx, hy, hlt⟩
      simp only [ADF.keyCol, hb0, hf0, hl0, Option.some.injEq] at hk
      subst hk
      simp only [List.getElem?_map, Option.map_eq_some_iff, Option.some.injEq] at hx hy
      obtain ⟨bq, hq, rfl⟩ := hx
      obtain ⟨bp, hp, rfl⟩ := hy
      simp only [valLt, decide_eq_true_eq] at hlt
      have h1 := hno (GoFloat.ofInt bp) (GoFloat.ofInt bq) (by simp [hp]) (by simp [hq])
      have h2 := order bq bp (List.mem_map.2 ⟨bq, List.mem_of_getElem? hq, rfl⟩)
        (List.mem_map.2 ⟨bp, List.mem_of_getElem? hp, rfl⟩) hlt
      rw [h1] at h2; cases h2
    · intro bs hbs; rw [hb0] at hbs; cases hbs

theorem ofNat_toNat_map (is : List Nat) : (is.map Int.ofNat).map Int.toNat = is := by
  simp [List.map_map, Function.comp_def]

/-- C07: `SortedView` shows a permutation of the rows, kept whole, in ascending order of the column; rows
with equal bools keep their order. (For int columns: provided their conversion to float64 keeps the order
of the values; see `C07_refuted_large_ints`.) -/
theorem C07_sortedView_partial [GoFloat F] {argsort : List F → List Nat} (hs : IsArgsort argsort) {df : DF}
    {h : Heap F} (wf : df.WF h) {c : GoStr} (hc : (abs h df).Sortable c) :
    ∃ v h' is, df.sortedView argsort c h = .ok (v, h') ∧ RowView h df h' v is ∧
      is.Perm (List.range (abs h df).nRows) ∧ (abs h' v).Ascending c ∧
      (∀ bs : List Bool, (abs h df).col .bool c = some (bs.map fun b => some (.bool b)) →
        is = (List.range bs.length).filter (fun i => bs.getD i false = false) ++
             (List.range bs.length).filter (fun i => bs.getD i false = true)) := by
  obtain ⟨is, he, hp, hpw, hb⟩ := sortedView_core hs hc
  obtain ⟨v, h', hv, rv, _⟩ := indexView_rowView wf (perm_range_lt hp)
  rw [ofNat_toNat_map] at rv
  refine ⟨v, h', is, by rw [he, hv], rv, hp, ?_, ?_⟩
  · rw [rv.shows]; exact ascending_of_pairwise hpw
  · intro bs hbs
    rw [hb bs hbs]
    unfold falseTrue
    congr 1 <;>
    · apply List.filter_congr
      intro i _
      cases bs.getD i false <;> rfl

/-- C07: a column that is neither float, int nor bool panics. -/
theorem C07_sortedView_panics [GoFloat F] (argsort : List F → List Nat) (df : DF) (h : Heap F) (c : GoStr)
    (hc : (abs h df).keyCol c = none) : df.sortedView argsort c h = .error .panic := by
  unfold ADF.keyCol at hc
  unfold DF.sortedView
  simp only [abs] at hc
  cases hb : AMap.get (h.tab df.tab) (.bool, c) with
  | some s => simp [hb] at hc
  | none =>
    cases hf : AMap.get (h.tab df.tab) (.float, c) with
    | some s => simp [hb, hf] at hc
    | none =>
      cases hi : AMap.get (h.tab df.tab) (.int, c) with
      | some s => simp [hb, hf, hi] at hc
      | none => simp

/-- A float column that holds NaNs is still permuted, rows kept whole (no order is promised). -/
theorem C07_sortedView_nan [GoFloat F] {argsort : List F → List Nat} (hs : IsArgsort argsort) {df : DF}
    {h : Heap F} (wf : df.WF h) {c : GoStr} (hb : (abs h df).col .bool c = none) {xs : List F}
    (hf : (abs h df).col .float c = some (xs.map fun x => some (.float x))) :
    ∃ v h' is, df.sortedView argsort c h = .ok (v, h') ∧ RowView h df h' v is ∧
      is.Perm (List.range (abs h df).nRows) := by
  simp only [abs, Option.map_eq_some_iff, Option.map_eq_none_iff] at hf hb
  obtain ⟨s, hg, hm⟩ := hf
  have hlen : xs.length = df.numRows := by
    have := congrArg List.length hm; simpa [DF.numRows] using this.symm
  have hp : (argsort xs).Perm (List.range df.numRows) := hlen ▸ hs.perm xs
  obtain ⟨v, h', hv, rv, _⟩ := indexView_rowView wf (perm_range_lt hp)
  rw [ofNat_toNat_map] at rv
  refine ⟨v, h', argsort xs, ?_, rv, hp⟩
  unfold DF.sortedView
  simp only [hg, hb]
  rw [gather_map (vs := xs.map Val.float) (by rw [hm]; simp)]
  simp only [List.map_map]
  rw [← hv]
  congr 3
  simp [asFloat, Function.comp_def]

/-! ### TopView -/

/-- What `TopView` does with the row order that `SortedView` computes, in terms of the relation `R` ("lower") that the order
respects. -/
theorem topView_core [GoFloat F] {argsort : List F → List Nat} {df : DF} {h : Heap F} (wf : df.WF h) {c : GoStr} {is0 : List Nat}
    {R : Nat → Nat → Prop} (he : df.sortedView argsort c h = df.indexView (is0.map Int.ofNat) h)
    (hp : is0.Perm (List.range df.numRows)) (hpw : is0.Pairwise fun p q => ¬ R q p) (n : Nat) (asc sorted : Bool) :
    ∃ v h' is, df.topView argsort c n asc sorted h = .ok (v, h') ∧ RowView h df h' v is ∧
      is.Nodup ∧ is.length = min n (abs h df).nRows ∧ (∀ i ∈ is, i < (abs h df).nRows) ∧
      (∀ i ∈ is, ∀ j, j < (abs h df).nRows → j ∉ is → if asc then ¬ R j i else ¬ R i j) ∧
      (sorted = true → if asc then is.Pairwise (fun p q => ¬ R q p) else is.Pairwise (fun p q => ¬ R p q)) := by
  have hnr : (abs h df).nRows = df.numRows := rfl
  by_cases hall : (n : Int) ≥ df.numRows ∧ sorted = false
  · refine ⟨df, h, List.range df.numRows, ?_, ?_, List.nodup_range, ?_, ?_, ?_, ?_⟩
    · unfold DF.topView; simp only [hall, and_self, if_true]
    · exact ⟨by rw [select_range_abs], by rw [select_range_locs], wf, fun _ wd => ⟨rfl, rfl, wd⟩⟩
    · rw [hnr, List.length_range]; omega
    · intro i hi; exact List.mem_range.1 hi
    · intro i _ j hj hnot; exact absurd (List.mem_range.2 hj) hnot
    · intro hs'; rw [hall.2] at hs'; cases hs'
  · obtain ⟨is, his⟩ : ∃ is, is = is0 := ⟨_, rfl⟩
    subst his
    obtain ⟨v, h', hv, rv, hidx, hraw, hiv, -⟩ := indexView_rowView wf (perm_range_lt hp)
    rw [ofNat_toNat_map] at rv hidx
    have hlen : is.length = df.numRows := by have := hp.length_eq; simpa using this
    have hnd : is.Nodup := hp.nodup_iff.2 List.nodup_range
    have hmem : ∀ i, i ∈ is ↔ i < df.numRows := fun i => by rw [hp.mem_iff]; simp
    obtain ⟨m, hm⟩ : ∃ m : Nat, m = min n df.numRows := ⟨_, rfl⟩
    have hm' : (if (n : Int) ≥ df.numRows then (df.numRows : Int) else n) = m := by
      split <;> omega
    have hvrows : v.idx.rows.length = df.numRows := by
      rw [hidx, Idx.rows_mk', pick_length, hlen]
    have hvlen : v.idx.len ≤ v.idx.data.length := by rw [hidx]; simp [Idx.mk']
    have hnum : v.numRows = is.length := rv.numRows
    -- a re-sliced result is a row view of the sorted view
    have hres : ∀ a b : Nat, a ≤ b → b ≤ df.numRows → ∃ x, v.idx.reslice a b = .ok x ∧
        RowView h df h' { v with idx := x } ((is.drop a).take (b - a)) := by
      intro a b hab hb
      obtain ⟨x, hx, hrows, hxl, -⟩ := Idx.reslice_rows hvlen (a := a) (b := b) (by omega) (by omega)
        (by rw [hvrows]; omega)
      refine ⟨x, hx, ?_⟩
      have r1 : RowView h' v h' { v with idx := x } (rowRange a b) := by
        refine rowView_pick (v := { v with idx := x }) (M := Nope) (Heap.Frame.refl ..) rv.wf rfl hiv hxl ?_ ?_
        · simpa [DF.rows] using hrows
        · intro i hi; simp only [rowRange, List.mem_range'_1] at hi; omega
      refine (rv.trans r1 ?_).cast ?_
      · intro i hi; simp only [rowRange, List.mem_range'_1] at hi; omega
      · rw [rowRange, pick_range' _ _ _ (by omega)]
    have hunf : df.topView argsort c n asc sorted h =
        if asc then
          match v.idx.reslice 0 m with
          | .error e => .error e
          | .ok x => .ok ({ v with idx := x }, h')
        else
          match v.idx.reslice ((df.numRows : Int) - m) v.idx.len with
          | .error e => .error e
          | .ok x => .ok (if sorted then ({ v with idx := x } : DF).reverseView else { v with idx := x }, h') := by
      unfold DF.topView
      simp only
      rw [if_neg hall, if_neg (by omega), hm', he, hv]
      rfl
    have hvl : v.idx.len = df.numRows := by rw [hidx]; simp [Idx.mk', hlen]
    cases asc with
    | true =>
      obtain ⟨x, hx, rx⟩ := hres 0 m (by omega) (by omega)
      simp only [Nat.sub_zero, List.drop_zero] at rx
      refine ⟨{ v with idx := x }, h', is.take m, ?_, rx, hnd.sublist (List.take_sublist _ _), ?_, ?_, ?_, ?_⟩
      · rw [hunf]
        have : v.idx.reslice (0 : Int) m = .ok x := hx
        simp [this]
      · rw [List.length_take]; omega
      · intro i hi; exact (hmem i).1 (List.mem_of_mem_take hi)
      · intro i hi j hj hnot
        simp only [if_true]
        have hj2 : j ∈ is.drop m := by
          have : j ∈ is.take m ++ is.drop m := by rw [List.take_append_drop]; exact (hmem j).2 hj
          exact (List.mem_append.1 this).resolve_left hnot
        rw [← List.take_append_drop m is] at hpw
        exact (List.pairwise_append.1 hpw).2.2 i hi j hj2
      · intro _; simp only [if_true]
        exact hpw.sublist (List.take_sublist _ _)
    | false =>
      obtain ⟨x, hx, rx⟩ := hres (df.numRows - m) df.numRows (by omega) (by omega)
      have htk : (is.drop (df.numRows - m)).take (df.numRows - (df.numRows - m)) = is.drop (df.numRows - m) := by
        apply List.take_of_length_le; rw [List.length_drop]; omega
      rw [htk] at rx
      have hx' : v.idx.reslice ((df.numRows : Int) - m) v.idx.len = .ok x := by
        rw [hvl, ← hx]; congr 1; omega
      have hsub : (is.drop (df.numRows - m)).Sublist is := List.drop_sublist _ _
      have hout : ∀ i ∈ is.drop (df.numRows - m), ∀ j, j < (abs h df).nRows → j ∉ is.drop (df.numRows - m) →
          ¬ R i j := by
        intro i hi j hj hnot
        have hj2 : j ∈ is.take (df.numRows - m) := by
          have : j ∈ is.take (df.numRows - m) ++ is.drop (df.numRows - m) := by
            rw [List.take_append_drop]; exact (hmem j).2 hj
          exact (List.mem_append.1 this).resolve_right hnot
        rw [← List.take_append_drop (df.numRows - m) is] at hpw
        exact (List.pairwise_append.1 hpw).2.2 j hj2 i hi
      have hlen2 : (is.drop (df.numRows - m)).length = min n (abs h df).nRows := by
        rw [List.length_drop, hnr]; omega
      cases sorted with
      | false =>
        refine ⟨{ v with idx := x }, h', is.drop (df.numRows - m), ?_, rx, hnd.sublist hsub, hlen2, ?_, ?_, ?_⟩
        · rw [hunf]; simp [hx']
        · intro i hi; exact (hmem i).1 (hsub.mem hi)
        · intro i hi j hj hnot; simpa using hout i hi j hj hnot
        · intro hc'; cases hc'
      | true =>
        have r2 := rx.trans (reverseView_rowView rx.wf) (by
          intro j hj; rw [rx.numRows] at hj; simpa using hj)
        have hrev : pick (is.drop (df.numRows - m)) (List.range ({ v with idx := x } : DF).numRows).reverse =
            (is.drop (df.numRows - m)).reverse := by
          rw [rx.numRows, ← reverse_eq_pick]
        have r3 := r2.cast hrev
        refine ⟨_, h', (is.drop (df.numRows - m)).reverse, ?_, r3, ((List.reverse_perm _).nodup_iff.2 (hnd.sublist hsub)), ?_, ?_, ?_, ?_⟩
        · rw [hunf]; simp [hx']
        · rw [List.length_reverse]; exact hlen2
        · intro i hi; exact (hmem i).1 (hsub.mem (List.mem_reverse.1 hi))
        · intro i hi j hj hnot
          simpa using hout i (List.mem_reverse.1 hi) j hj (fun hm => hnot (List.mem_reverse.2 hm))
        · intro _
          simp only [Bool.false_eq_true, if_false]
          rw [List.pairwise_reverse]
          exact hpw.sublist hsub

/-- C08: for `n ≥ 0`, `TopView` shows `min(n, NumRows)` distinct rows; no omitted row is lower (higher when
not ascending) than a returned one; with `sorted` the rows come in the desired order. -/
theorem C08_topView_partial [GoFloat F] {argsort : List F → List Nat} (hs : IsArgsort argsort) {df : DF}
    {h : Heap F} (wf : df.WF h) {c : GoStr} (hc : (abs h df).Sortable c) (n : Nat) (asc sorted : Bool) :
    ∃ v h' is, df.topView argsort c n asc sorted h = .ok (v, h') ∧ RowView h df h' v is ∧
      is.Nodup ∧ is.length = min n (abs h df).nRows ∧ (∀ i ∈ is, i < (abs h df).nRows) ∧
      (∀ i ∈ is, ∀ j, j < (abs h df).nRows → j ∉ is →
        if asc then ¬ (abs h df).lower c j i else ¬ (abs h df).lower c i j) ∧
      (sorted = true → if asc then (abs h' v).Ascending c else (abs h' v).Descending c) := by
  obtain ⟨is0, he, hp, hpw, -⟩ := sortedView_core hs hc
  obtain ⟨v, h', is, h1, rv, h2, h3, h4, h5, h6⟩ := topView_core (R := (abs h df).lower c) wf he hp hpw n asc sorted
  refine ⟨v, h', is, h1, rv, h2, h3, h4, h5, fun hs' => ?_⟩
  have := h6 hs'
  rw [rv.shows]
  cases asc with
  | true => simp only [if_true] at this ⊢; exact ascending_of_pairwise this
  | false => simp only [Bool.false_eq_true, if_false] at this ⊢; exact descending_of_pairwise this

/-- C08: negative `n` panics (an empty dataframe too: `n < 0 = NumRows`). -/
theorem C08_topView_negative [GoFloat F] (argsort : List F → List Nat) (df : DF) (h : Heap F) (c : GoStr) (n : Int)
    (asc sorted : Bool) (hn : n < 0) : df.topView argsort c n asc sorted h = .error .panic := by
  unfold DF.topView
  simp only
  rw [if_neg (by omega), if_pos (by omega)]

/-! ### large ints -/

/-- C07 fails for large ints: float64 rounds 2^53 + 1 to 2^53, so that a correct float sort may leave the
two values in the wrong order. (For every float semantics that rounds this way, and some correct
`Argsort`.) -/
theorem C07_refuted_large_ints [GoFloat F] (as : List F → List Nat) (has : IsArgsort as)
    (hround : (GoFloat.ofInt (2 ^ 53 + 1) : F) = GoFloat.ofInt (2 ^ 53))
    (hirr : GoFloat.lt (GoFloat.ofInt (2 ^ 53) : F) (GoFloat.ofInt (2 ^ 53)) = false) (h0 : Heap F) :
    ∃ argsort : List F → List Nat, IsArgsort argsort ∧ ∃ (df : DF) (h : Heap F), df.WF h ∧
      (abs h df).col .int b!"a" = some [some (.int (2 ^ 53 + 1)), some (.int (2 ^ 53))] ∧
      ∃ v h', df.sortedView argsort b!"a" h = .ok (v, h') ∧ ¬ (abs h' v).Ascending b!"a" := by
  classical
  obtain ⟨f, hf⟩ : ∃ f : F, f = GoFloat.ofInt (2 ^ 53) := ⟨_, rfl⟩
  obtain ⟨ops, hops⟩ : ∃ ops : List (BOp F), ops = [.add .int b!"a" [.int (2 ^ 53 + 1), .int (2 ^ 53)]] := ⟨_, rfl⟩
  have hcol : ∀ k c, specCol ops k c = if Kind.int = k ∧ b!"a" = c then some [.int (2 ^ 53 + 1), .int (2 ^ 53)] else none := by
    intro k c; subst hops; simp [specCol, BOp.stepCol]
  obtain ⟨df, h, -, wf, -, hn, hc, -⟩ := C20_toDataFrame_ok ops h0 2
    (by intro k c l hl; rw [hcol] at hl; split at hl <;> simp at hl; subst hl; rfl)
    ⟨.int, b!"a", by rw [hcol]; simp⟩
  have hi : (abs h df).col .int b!"a" = some [some (.int (2 ^ 53 + 1)), some (.int (2 ^ 53))] := by
    rw [hc, hcol]; simp
  have hb : (abs h df).col .bool b!"a" = none := by rw [hc, hcol]; simp
  have hfl : (abs h df).col .float b!"a" = none := by rw [hc, hcol]; simp
  refine ⟨fun xs => if xs = [f, f] then [0, 1] else as xs, ⟨?_, ?_⟩, df, h, wf, hi, ?_⟩
  · intro xs
    split
    · subst_vars; exact List.Perm.refl _
    · exact has.perm xs
  · intro xs hx
    split
    · rename_i he
      subst he
      simp only [List.pairwise_cons, List.mem_singleton, forall_eq, List.not_mem_nil, false_implies, implies_true,
        List.Pairwise.nil, and_true]
      intro x y h1 h2
      simp at h1 h2; subst h1; subst h2; rw [hf]; exact hirr
    · exact has.sorted xs hx
  · have hr : df.numRows = 2 := hn
    obtain ⟨v, h', hv, rv, -⟩ := indexView_rowView wf (is := [0, 1]) (by rw [hr]; simp)
    refine ⟨v, h', ?_, ?_⟩
    · rw [← hv]
      have hi' := hi
      simp only [abs, Option.map_eq_some_iff, Option.map_eq_none_iff] at hi' hb hfl
      obtain ⟨s, hg, hm⟩ := hi'
      unfold DF.sortedView
      simp only [hg, hb, hfl]
      rw [gather_map (vs := [.int (2 ^ 53 + 1), .int (2 ^ 53)]) (by rw [hm]; simp)]
      simp only [List.map_cons, List.map_nil, intAsFloat, hround, ← hf, if_true]
      rfl
    · rw [rv.shows]
      intro ha
      apply ha 0 1 (by omega)
      refine ⟨[some (.int (2 ^ 53 + 1)), some (.int (2 ^ 53))], .int (2 ^ 53), .int (2 ^ 53 + 1), ?_, rfl, rfl, ?_⟩
      · simp [ADF.keyCol, ADF.select, hb, hfl, hi]
      · simp [valLt]

/-! ### the hypotheses are met -/

namespace Demo

/-- An argsort for the demo floats. -/
def argsort (xs : List Int) : List Nat :=
  (List.range xs.length).insertionSort (fun p q => xs.getD p 0 ≤ xs.getD q 0)

theorem argsort_ok : IsArgsort argsort where
  perm xs := List.perm_insertionSort _ _
  sorted xs _ := by
    have : (argsort xs).Pairwise (fun p q => xs.getD p 0 ≤ xs.getD q 0) := by
      have : Std.Total (fun p q : Nat => xs.getD p 0 ≤ xs.getD q 0) := ⟨fun a b => by omega⟩
      have : IsTrans Nat (fun p q : Nat => xs.getD p 0 ≤ xs.getD q 0) := ⟨fun a b c h1 h2 => by omega⟩
      exact List.pairwise_insertionSort _ _
    refine this.imp ?_
    intro p q hle x y hx hy
    simp only [List.getD_eq_getElem?_getD, hx, hy, Option.getD_some] at hle
    simp only [GoFloat.lt, decide_eq_false_iff_not]; omega

theorem sortable_x : (abs h df).Sortable b!"x" :=
  .float [some (.float 5), some (.float 3), some (.float 9), some (.float 1)] (by decide) (by decide) (by
    intro x hx; simp only [List.mem_cons, List.not_mem_nil, or_false] at hx
    rcases hx with rfl | rfl | rfl | rfl <;> exact ⟨_, rfl, by decide⟩)

theorem sortable_b : (abs h df).Sortable b!"b" :=
  .bool [some (.bool true), some (.bool false), some (.bool true), some (.bool false)] (by decide) (by
    intro x hx; simp only [List.mem_cons, List.not_mem_nil, or_false] at hx
    rcases hx with rfl | rfl | rfl | rfl <;> exact ⟨_, rfl⟩)

theorem sortable_a : (abs h df).Sortable b!"a" :=
  .int [some (.int 10), some (.int 20), some (.int 30), some (.int 40)] (by decide) (by decide) (by decide) (by
    intro x hx; simp only [List.mem_cons, List.not_mem_nil, or_false] at hx
    rcases hx with rfl | rfl | rfl | rfl <;> exact ⟨_, rfl, by decide⟩)
    (by intro m n _ _ hmn; simpa [GoFloat.lt, GoFloat.ofInt] using hmn)

example : ∃ v h' is, df.sortedView argsort b!"x" h = .ok (v, h') ∧ RowView h df h' v is ∧ (abs h' v).Ascending b!"x" := by
  obtain ⟨v, h', is, h1, h2, _, h3, _⟩ := C07_sortedView_partial argsort_ok df_wf sortable_x
  exact ⟨v, h', is, h1, h2, h3⟩
example : okAnd (df.sortedView argsort b!"x" h) (fun p => decide (p.1.rows = [3, 1, 0, 2])) = true := by decide
example : okAnd (df.sortedView argsort b!"b" h) (fun p => decide (p.1.rows = [1, 3, 0, 2])) = true := by decide
example : okAnd (df.topView argsort b!"x" 2 false true h) (fun p => decide (p.1.rows = [2, 0])) = true := by decide
example : okAnd (df.topView argsort b!"x" 2 true true h) (fun p => decide (p.1.rows = [3, 1])) = true := by decide
example : ∃ v h' is, df.topView argsort b!"a" (2 : Nat) false true h = .ok (v, h') ∧ RowView h df h' v is ∧
    is.length = min 2 (abs h df).nRows := by
  obtain ⟨v, h', is, h1, h2, _, h3, _⟩ := C08_topView_partial argsort_ok df_wf sortable_a 2 false true
  exact ⟨v, h', is, h1, h2, h3⟩
example : (abs h df).keyCol b!"s" = none := by decide

end Demo

end Verif
