import Verif.Props.Copies
import Mathlib.Data.List.Nodup

/-! C27: `LabelToInt`. -/

namespace Verif
open scoped Demo
variable {F : Type}

/-- The mapping after the strings `fs` have been met for the first time, in that order. -/
def labelMap (fs : List GoStr) : AMap GoStr Nat := fs.zipIdx

theorem labelMap_get_aux (fs : List GoStr) (k : Nat) (hn : fs.Nodup) (v : GoStr) (o : Nat) :
    AMap.get (fs.zipIdx k) v = some o ↔ ∃ i, fs[i]? = some v ∧ o = k + i := by
  induction fs generalizing k with
  | nil => simp
  | cons f fs ih =>
    obtain ⟨h1, h2⟩ := List.nodup_cons.1 hn
    simp only [List.zipIdx_cons, AMap.get]
    by_cases hf : f = v
    · rw [if_pos hf]
      subst hf
      constructor
      · rintro h; cases h; exact ⟨0, by simp, by omega⟩
      · rintro ⟨i, hi, rfl⟩
        cases i with
        | zero => simp
        | succ i =>
          exfalso; apply h1
          simp only [List.getElem?_cons_succ] at hi
          exact List.mem_of_getElem? hi
    · rw [if_neg hf, ih (k + 1) h2]
      constructor
      · rintro ⟨i, hi, rfl⟩; exact ⟨i + 1, by simpa using hi, by omega⟩
      · rintro ⟨i, hi, rfl⟩
        cases i with
        | zero => simp at hi; exact absurd hi hf
        | succ i => exact ⟨i, by simpa using hi, by omega⟩

theorem labelMap_get {fs : List GoStr} (hn : fs.Nodup) (v : GoStr) (o : Nat) :
    AMap.get (labelMap fs) v = some o ↔ fs[o]? = some v := by
  rw [labelMap, labelMap_get_aux fs 0 hn]
  constructor
  · rintro ⟨i, hi, rfl⟩; simpa using hi
  · intro h; exact ⟨o, h, by omega⟩

theorem labelMap_none {fs : List GoStr} (hn : fs.Nodup) {v : GoStr} : AMap.get (labelMap fs) v = none ↔ v ∉ fs := by
  constructor
  · intro h hv
    obtain ⟨o, ho⟩ := List.getElem?_of_mem hv
    rw [(labelMap_get hn v o).2 ho] at h; cases h
  · intro hv
    cases hg : AMap.get (labelMap fs) v with
    | none => rfl
    | some o => exact absurd (List.mem_of_getElem? ((labelMap_get hn v o).1 hg)) hv

theorem labelMap_snoc {fs : List GoStr} {v : GoStr} (hv : v ∉ fs) (k : Nat) :
    AMap.set (fs.zipIdx k) v (k + fs.length) = (fs ++ [v]).zipIdx k := by
  induction fs generalizing k with
  | nil => simp [AMap.set]
  | cons f fs ih =>
    simp only [List.mem_cons, not_or] at hv
    simp only [List.zipIdx_cons, List.cons_append, AMap.set]
    rw [if_neg (fun h => hv.1 h.symm), ← ih hv.2 (k + 1)]
    simp only [List.length_cons]
    congr 2; omega

/-- One cell's label, given the final list of distinct strings. -/
def labelOK (fs : List GoStr) (c : Option (Val F)) (l : Int) : Prop :=
  (c = some .nil ∧ l = -1) ∨ ∃ v o, c = some (.str v) ∧ fs[o]? = some v ∧ l = (o : Nat)

theorem labelOK.mono {fs gs : List GoStr} (hp : fs <+: gs) {c : Option (Val F)} {l : Int} (h : labelOK fs c l) :
    labelOK gs c l := by
  rcases h with h | ⟨v, o, h1, h2, h3⟩
  · exact Or.inl h
  · refine Or.inr ⟨v, o, h1, ?_, h3⟩
    obtain ⟨t, rfl⟩ := hp
    rw [List.getElem?_append_left (List.getElem?_eq_some_iff.1 h2).1]; exact h2

theorem labelLoop_spec (h : Heap F) (s : Slice) (is : List Nat) (fs : List GoStr) (hn : fs.Nodup)
    (hok : ∀ i ∈ is, h.cell s i = some .nil ∨ ∃ v, h.cell s i = some (.str v)) :
    ∃ L gs, labelLoop h s is (labelMap fs) = .ok (L, labelMap gs) ∧ gs.Nodup ∧ fs <+: gs ∧
      List.Forall₂ (labelOK gs) (is.map (h.cell s)) L ∧
      (∀ v, v ∈ gs → v ∈ fs ∨ some (Val.str v : Val F) ∈ is.map (h.cell s)) ∧
      (∀ (i : Nat) (v : GoStr), (is.map (h.cell s))[i]? = some (some (Val.str v : Val F)) → v ∉ fs →
        (∀ j : Nat, j < i → (is.map (h.cell s))[j]? ≠ some (some (Val.str v : Val F))) →
        ∃ o : Nat, gs[o]? = some v ∧ fs.length ≤ o ∧
          ∀ (j : Nat) (x : Int), j < i → L[j]? = some x → x < (o : Int)) := by
  induction is generalizing fs with
  | nil =>
    exact ⟨[], fs, rfl, hn, List.prefix_refl _, .nil, fun v hv => Or.inl hv, by simp⟩
  | cons i is ih =>
    have hok' := fun j hj => hok j (List.mem_cons_of_mem i hj)
    rcases hok i (by simp) with hc | ⟨v, hc⟩
    · obtain ⟨L, gs, e, g1, g2, g3, g4, g5⟩ := ih fs hn hok'
      refine ⟨-1 :: L, gs, by simp only [labelLoop, hc, e], g1, g2, ?_, ?_, ?_⟩
      · rw [List.map_cons]; exact .cons (Or.inl ⟨hc, rfl⟩) g3
      · intro v hv; rcases g4 v hv with h1 | h1
        · exact Or.inl h1
        · exact Or.inr (by simp only [List.map_cons, List.mem_cons]; exact Or.inr h1)
      · intro j w hj hw hfirst
        cases j with
        | zero => simp [hc] at hj
        | succ j =>
          obtain ⟨o, o1, o2, o3⟩ := g5 j w (by simpa using hj) hw (fun k hk => by have := hfirst (k + 1) (by omega); simpa using this)
          refine ⟨o, o1, o2, fun k x hk hx => ?_⟩
          cases k with
          | zero => simp at hx; subst hx; omega
          | succ k => exact o3 k x (by omega) (by simpa using hx)
    · cases hg : AMap.get (labelMap fs) v with
      | some o =>
        have ho := (labelMap_get hn v o).1 hg
        have hvfs : v ∈ fs := List.mem_of_getElem? ho
        obtain ⟨L, gs, e, g1, g2, g3, g4, g5⟩ := ih fs hn hok'
        refine ⟨(o : Int) :: L, gs, by simp only [labelLoop, hc, hg, e], g1, g2, ?_, ?_, ?_⟩
        · rw [List.map_cons]
          exact .cons (labelOK.mono g2 (Or.inr ⟨v, o, hc, ho, rfl⟩)) g3
        · intro w hw; rcases g4 w hw with h1 | h1
          · exact Or.inl h1
          · exact Or.inr (by simp only [List.map_cons, List.mem_cons]; exact Or.inr h1)
        · intro j w hj hw hfirst
          cases j with
          | zero =>
            simp only [List.map_cons, List.getElem?_cons_zero, hc, Option.some.injEq, Val.str.injEq] at hj
            subst hj; exact absurd hvfs hw
          | succ j =>
            obtain ⟨o', o1, o2, o3⟩ := g5 j w (by simpa using hj) hw (fun k hk => by have := hfirst (k + 1) (by omega); simpa using this)
            refine ⟨o', o1, o2, fun k x hk hx => ?_⟩
            cases k with
            | zero =>
              simp at hx; subst hx
              have := (List.getElem?_eq_some_iff.1 ho).1
              exact_mod_cast Nat.lt_of_lt_of_le this o2
            | succ k => exact o3 k x (by omega) (by simpa using hx)
      | none =>
        have hvfs := (labelMap_none hn).1 hg
        have hn' : (fs ++ [v]).Nodup := by
          rw [List.nodup_append]
          refine ⟨hn, by simp, ?_⟩
          intro a ha b hb
          simp only [List.mem_singleton] at hb
          subst hb
          intro hab; subst hab; exact hvfs ha
        obtain ⟨L, gs, e, g1, g2, g3, g4, g5⟩ := ih (fs ++ [v]) hn' hok'
        have hset : AMap.set (labelMap fs) v (labelMap fs).length = labelMap (fs ++ [v]) := by
          have := labelMap_snoc hvfs 0
          simp only [Nat.zero_add] at this
          rw [labelMap, List.length_zipIdx]; exact this
        have hlen : (labelMap fs).length = fs.length := by simp [labelMap]
        have hgv : gs[fs.length]? = some v := by
          obtain ⟨t, rfl⟩ := g2
          rw [List.append_assoc, List.getElem?_append_right (Nat.le_refl _)]; simp
        refine ⟨(fs.length : Int) :: L, gs, ?_, g1, (List.prefix_append _ _).trans g2, ?_, ?_, ?_⟩
        · rw [hlen] at hset
          simp only [labelLoop, hc, hg, hlen]
          rw [hset, e]
        · rw [List.map_cons]
          exact .cons (Or.inr ⟨v, fs.length, hc, hgv, rfl⟩) g3
        · intro w hw; rcases g4 w hw with h1 | h1
          · simp only [List.mem_append, List.mem_singleton] at h1
            rcases h1 with h1 | rfl
            · exact Or.inl h1
            · exact Or.inr (by simp [hc])
          · exact Or.inr (by simp only [List.map_cons, List.mem_cons]; exact Or.inr h1)
        · intro j w hj hw hfirst
          cases j with
          | zero =>
            simp only [List.map_cons, List.getElem?_cons_zero, hc, Option.some.injEq, Val.str.injEq] at hj
            subst hj
            exact ⟨fs.length, hgv, Nat.le_refl _, fun k x hk => by omega⟩
          | succ j =>
            have hwv : w ≠ v := by
              intro hwv; subst hwv
              exact hfirst 0 (by omega) (by simp [hc])
            obtain ⟨o', o1, o2, o3⟩ := g5 j w (by simpa using hj) (by simp [hw, hwv]) (fun k hk => by have := hfirst (k + 1) (by omega); simpa using this)
            simp only [List.length_append, List.length_singleton] at o2
            refine ⟨o', o1, by omega, fun k x hk hx => ?_⟩
            cases k with
            | zero => simp at hx; subst hx; exact_mod_cast o2
            | succ k => exact o3 k x (by omega) (by simpa using hx)

theorem forall₂_get {A B : Type} {R : A → B → Prop} {as : List A} {bs : List B} (hx : List.Forall₂ R as bs) (i : Nat) :
    (∀ a, as[i]? = some a → ∃ b, bs[i]? = some b ∧ R a b) ∧ as.length = bs.length := by
  induction hx generalizing i with
  | nil => simp
  | cons hp _ ih =>
    refine ⟨?_, by simp [(ih 0).2]⟩
    cases i with
    | zero => intro a ha; simp at ha; subst ha; exact ⟨_, by simp, hp⟩
    | succ i => intro a ha; obtain ⟨b, hb, hr⟩ := (ih i).1 a (by simpa using ha); exact ⟨b, by simpa using hb, hr⟩

/-- C27: for a string column holding only strings and missing values, `LabelToInt` returns one label per row and
a mapping such that
- a missing value gets -1, a string gets the number the mapping gives it;
- the mapping lists exactly the strings present, each with its own number;
- the numbers are 0, 1, ..., k-1;
- a string met for the first time gets a higher number than all the labels before. -/
theorem C27_labelToInt {df : DF} {h : Heap F} {c : GoStr} {col : List (Option (Val F))}
    (hc : (abs h df).col .obj c = some col) (hs : (abs h df).isStr c = true)
    (hv : ∀ x ∈ col, x = some .nil ∨ ∃ v, x = some (.str v)) :
    ∃ L M, df.labelToInt h c = .ok (L, M) ∧ L.length = (abs h df).nRows ∧
      (∀ i : Nat, col[i]? = some (some .nil) → L[i]? = some (-1)) ∧
      (∀ (i : Nat) (v : GoStr), col[i]? = some (some (.str v)) →
        ∃ o : Nat, L[i]? = some (o : Int) ∧ AMap.get M v = some o) ∧
      (∀ v : GoStr, (AMap.get M v).isSome ↔ some (.str v) ∈ col) ∧
      (∀ (v w : GoStr) (o : Nat), AMap.get M v = some o → AMap.get M w = some o → v = w) ∧
      (∀ o : Nat, (∃ v, AMap.get M v = some o) ↔ o < M.length) ∧
      (∀ (i : Nat) (v : GoStr), col[i]? = some (some (.str v)) →
        (∀ j : Nat, j < i → col[j]? ≠ some (some (.str v))) →
        ∀ (x y : Int) (j : Nat), j < i → L[i]? = some x → L[j]? = some y → y < x) := by
  simp only [abs, Option.map_eq_some_iff] at hc
  obtain ⟨s, hget, rfl⟩ := hc
  have hok : ∀ i ∈ df.rows, h.cell s i = some .nil ∨ ∃ v, h.cell s i = some (.str v) :=
    fun i hi => hv _ (List.mem_map.2 ⟨i, hi, rfl⟩)
  obtain ⟨L, gs, e, g1, g2, g3, g4, g5⟩ := labelLoop_spec h s df.rows [] (by simp) hok
  have hL := (forall₂_get g3 0).2
  simp only [List.length_map] at hL
  refine ⟨L, labelMap gs, ?_, hL.symm, ?_, ?_, ?_, ?_, ?_, ?_⟩
  · unfold DF.labelToInt
    rw [if_pos (by simpa [abs, hdrContains] using hs)]
    rw [tabCol, hget, Option.getD_some]
    exact e
  · intro i hi
    obtain ⟨l, hl, hr⟩ := (forall₂_get g3 i).1 _ hi
    rcases hr with ⟨_, rfl⟩ | ⟨v, o, h1, _⟩
    · exact hl
    · cases h1
  · intro i v hi
    obtain ⟨l, hl, hr⟩ := (forall₂_get g3 i).1 _ hi
    rcases hr with ⟨h1, _⟩ | ⟨v', o, h1, h2, rfl⟩
    · cases h1
    · cases h1
      exact ⟨o, hl, (labelMap_get g1 v o).2 h2⟩
  · intro v
    constructor
    · intro hv'
      obtain ⟨o, ho⟩ := Option.isSome_iff_exists.1 hv'
      rcases g4 v (List.mem_of_getElem? ((labelMap_get g1 v o).1 ho)) with h1 | h1
      · simp at h1
      · exact h1
    · intro hm
      obtain ⟨i, hi⟩ := List.getElem?_of_mem hm
      obtain ⟨l, hl, hr⟩ := (forall₂_get g3 i).1 _ hi
      rcases hr with ⟨h1, _⟩ | ⟨v', o, h1, h2, rfl⟩
      · cases h1
      · cases h1
        rw [(labelMap_get g1 v o).2 h2]; rfl
  · intro v w o h1 h2
    rw [labelMap_get g1] at h1 h2
    rw [h1] at h2; cases h2; rfl
  · intro o
    simp only [labelMap_get g1]
    rw [labelMap, List.length_zipIdx]
    constructor
    · rintro ⟨v, hv'⟩; exact (List.getElem?_eq_some_iff.1 hv').1
    · intro ho; exact ⟨gs[o], List.getElem?_eq_getElem ho⟩
  · intro i v hi hfirst x y j hj hx hy
    obtain ⟨o, o1, _, o3⟩ := g5 i v hi (by simp) hfirst
    obtain ⟨l, hl, hr⟩ := (forall₂_get g3 i).1 _ hi
    rw [hx] at hl; cases hl
    rcases hr with ⟨h1, _⟩ | ⟨v', o', h1, h2, rfl⟩
    · cases h1
    · cases h1
      have : o = o' := by
        have h3 := (labelMap_get g1 v o).2 o1
        have h4 := (labelMap_get g1 v o').2 h2
        rw [h3] at h4; exact Option.some.inj h4
      subst this
      exact o3 j y hj hy

/-- C27: a column that is not marked as string panics. -/
theorem C27_labelToInt_panics {df : DF} {h : Heap F} {c : GoStr} (hs : (abs h df).isStr c = false) :
    df.labelToInt h c = .error .panic := by
  unfold DF.labelToInt
  rw [if_neg (by simpa [abs, hdrContains] using hs)]

example : Demo.df.labelToInt Demo.h b!"s" = .ok ([0, 1, 0, -1], [(b!"u", 0), (b!"v", 1)]) := by decide
example : ∃ L M, Demo.df.labelToInt Demo.h b!"s" = .ok (L, M) ∧ L.length = (abs Demo.h Demo.df).nRows := by
  obtain ⟨L, M, h1, h2, _⟩ := C27_labelToInt (df := Demo.df) (h := Demo.h) (c := b!"s")
    (col := [some (.str b!"u"), some (.str b!"v"), some (.str b!"u"), some .nil]) (by decide) (by decide)
    (by intro x hx; simp only [List.mem_cons, List.not_mem_nil, or_false] at hx; rcases hx with rfl | rfl | rfl | rfl <;> simp)
  exact ⟨L, M, h1, h2⟩

end Verif
