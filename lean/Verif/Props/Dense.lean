import Verif.Proofs.Dense
import Verif.Props.Iter

/-! C29: `Dense64Batching`. The full claim ("any sequence of batches") is false: the buffer grows by
`dim * (nRows - len(data))` where `len(data)` is already `dim` times a number of rows, so with two columns or
more a batch larger than the first one does not fit. Proved: any sequence with one column, and any sequence
whose batches are not larger than the first. -/

namespace Verif
open scoped Demo
variable {F : Type}

/-- The batches that may follow a first batch of `n1` rows. -/
def DenseEv.Legal (kind : GoStr → Kind) (cols : List GoStr) (n1 : Nat) : DenseEv F → Prop
  | .batch h df => df.WF h ∧ (∀ c ∈ cols, ((abs h df).col (kind c) c).isSome) ∧ 0 < (abs h df).nRows ∧
      (cols.length = 1 ∨ (abs h df).nRows ≤ n1)
  | .scribble _ => True

/-- Every pair of a batch and the matrix returned for it. -/
def AllMatrices [GoFloat F] (kind : GoStr → Kind) (cols : List GoStr) (bs : List (Heap F × DF)) (ms : List (Matrix F)) :
    Prop := ms.length = bs.length ∧ ∀ (i : Nat) (b : Heap F × DF) (m : Matrix F), bs[i]? = some b → ms[i]? = some m →
      IsMatrixOf kind cols b.1 b.2 m

theorem AllMatrices.cons [GoFloat F] {kind : GoStr → Kind} {cols : List GoStr} {bs : List (Heap F × DF)} {ms : List (Matrix F)}
    {b : Heap F × DF} {m : Matrix F} (h : IsMatrixOf kind cols b.1 b.2 m) (hs : AllMatrices kind cols bs ms) :
    AllMatrices kind cols (b :: bs) (m :: ms) := by
  refine ⟨by simp [hs.1], ?_⟩
  intro i b' m' h1 h2
  cases i with
  | zero => simp at h1 h2; subst h1; subst h2; exact h
  | succ i => exact hs.2 i b' m' (by simpa using h1) (by simpa using h2)

theorem runDense_spec [GoFloat F] {kind : GoStr → Kind} {cols : List GoStr} {n1 : Nat} (hd : 0 < cols.length)
    (es : List (DenseEv F)) (hl : ∀ e ∈ es, e.Legal kind cols n1) (bat : Dense64Batching F)
    (inv : DenseInv kind cols bat n1) :
    ∃ ms, runDense es bat = .ok ms ∧ AllMatrices kind cols (batches es) ms := by
  induction es generalizing bat with
  | nil => exact ⟨[], rfl, rfl, by simp [batches]⟩
  | cons e es ih =>
    have hl' := fun e he => hl e (List.mem_cons_of_mem _ he)
    cases e with
    | batch h df =>
      obtain ⟨wf, hc, hn, hle⟩ := hl _ (List.mem_cons_self ..)
      have ei : bat.toFloatBatching.initialize (h.tab df.tab) bat.columns = .ok bat.toFloatBatching := by
        simp [FloatBatching.initialize, inv.ini]
      obtain ⟨m, bat', e1, e2, e3, e4⟩ := denseMatrix_core ei inv.cl inv.ini ⟨wf, hc⟩ inv.le hd hn (by
        rcases hle with h | h
        · exact Or.inr (Or.inl h)
        · exact Or.inr (Or.inr (Nat.le_trans (Nat.mul_le_mul_left _ h) inv.len)))
      obtain ⟨ms, e5, e6⟩ := ih hl' bat' ⟨e4.cl, e4.ini, e4.le, Nat.le_trans inv.len e3⟩
      exact ⟨m :: ms, by simp only [runDense, e1, e5], AllMatrices.cons e2 e6⟩
    | scribble data =>
      simp only [runDense]
      have : DenseInv kind cols (if data.length = bat.data.length then { bat with data := data } else bat) n1 := by
        split
        · exact ⟨inv.cl, inv.ini, by simp only; rw [‹data.length = _›]; exact inv.le, inv.len⟩
        · exact inv
      exact ih hl' _ this

/-- C29, partial. A batching object over the numeric columns `cols`, used on a first non-empty batch and then on
any sequence of non-empty batches with these columns that are not larger than the first one (or of any sizes
when there is one column), with the user changing the matrices he got in any way: no call panics and every
call returns the matrix of the values of its batch. Missing: batches larger than the first one with two columns
or more (see `C29_growing_batch_panics`), and empty batches (gonum panics). -/
theorem C29_batches_partial [GoFloat F] {kind : GoStr → Kind} {cols : List GoStr} (hne : cols ≠ []) {h : Heap F} {df : DF}
    (wf : df.WF h) (hk : ∀ c ∈ cols, (abs h df).numKind c = some (kind c)) (hn : 0 < (abs h df).nRows)
    (es : List (DenseEv F)) (hl : ∀ e ∈ es, e.Legal kind cols (abs h df).nRows) :
    ∃ ms, runDense (.batch h df :: es) (newDense64Batching cols) = .ok ms ∧
      AllMatrices kind cols ((h, df) :: batches es) ms := by
  have hd : 0 < cols.length := List.length_pos_iff.2 hne
  obtain ⟨b, ei, cl, hb⟩ := initialize_spec (t := h.tab df.tab) (b := (newDense64Batching cols : Dense64Batching F).toFloatBatching)
    (fun c hc => by rw [← numKind_abs]; exact hk c hc) rfl
  have hc : HasCols h df kind cols := by
    refine ⟨wf, fun c hm => ?_⟩
    have := hk c hm
    simp only [ADF.numKind] at this
    split at this
    · rw [← Option.some.inj this]; assumption
    · split at this
      · rw [← Option.some.inj this]; assumption
      · split at this
        · rw [← Option.some.inj this]; assumption
        · cases this
  obtain ⟨m, bat', e1, e2, e3, e4⟩ := denseMatrix_core (bat := newDense64Batching cols) ei cl hb hc (Nat.le_refl _) hd hn (Or.inl rfl)
  obtain ⟨ms, e5, e6⟩ := runDense_spec hd es hl bat' e4
  exact ⟨m :: ms, by simp only [runDense, e1, e5], AllMatrices.cons e2 e6⟩

/-- Against C29. With two columns or more, and a runtime whose `append` reserves no spare room, a batch larger than
the first one always panics, whatever the dataframes are. -/
theorem C29_growing_batch_panics [GoFloat F] {h : Heap F} {cols : List GoStr} (hd : 2 ≤ cols.length)
    (hs : ∀ n, h.rt.spare n = 0) {df df2 : DF} {m : Matrix F} {bat' : Dense64Batching F}
    (e : (newDense64Batching cols).denseMatrix df h = .ok (m, bat')) {h2 : Heap F} (hs2 : ∀ n, h2.rt.spare n = 0)
    (hlt : df.numRows < df2.numRows) : bat'.denseMatrix df2 h2 = .error .panic := by
  -- the state after the first batch
  have st : bat'.len = bat'.data.length ∧ bat'.len = cols.length * df.numRows ∧ bat'.columns = cols ∧
      bat'.initialized = true ∧ 0 < df.numRows := by
    unfold Dense64Batching.denseMatrix at e
    cases ei : (newDense64Batching cols : Dense64Batching F).toFloatBatching.initialize (h.tab df.tab)
      (newDense64Batching cols : Dense64Batching F).columns with
    | error x => simp [ei] at e
    | ok b =>
      have hb : b.columns = cols ∧ b.initialized = true := by
        simp only [FloatBatching.initialize, newDense64Batching, Bool.false_eq_true, if_false] at ei
        by_cases hall : ∀ c ∈ cols, (tabNumKind (h.tab df.tab) c).isSome
        · obtain ⟨b', e', h1, h2, _⟩ := (classify_spec (h.tab df.tab) cols 0 _).1 hall
          rw [ei] at e'; cases e'; exact ⟨h1, h2⟩
        · have : ∃ c ∈ cols, tabNumKind (h.tab df.tab) c = none := by
            refine Classical.byContradiction fun hc => hall fun c hm => ?_
            cases hk : tabNumKind (h.tab df.tab) c with
            | none => exact absurd ⟨c, hm, hk⟩ hc
            | some k => rfl
          rw [(classify_spec (h.tab df.tab) cols 0 _).2 this] at ei; cases ei
      simp only [ei, hb.1] at e
      obtain ⟨q, hq⟩ : ∃ q, q = (if (cols.length : Int) * ((df.numRows : Int) - ((newDense64Batching cols : Dense64Batching F).len : Int)) > 0 then
        appendZeros h.rt (newDense64Batching cols : Dense64Batching F).data (newDense64Batching cols : Dense64Batching F).len
          ((cols.length : Int) * ((df.numRows : Int) - ((newDense64Batching cols : Dense64Batching F).len : Int))).toNat
        else ((newDense64Batching cols : Dense64Batching F).data, (newDense64Batching cols : Dense64Batching F).len)) := ⟨_, rfl⟩
      rw [← hq] at e
      have hq1 : q.1.length = q.2 ∧ q.2 = cols.length * df.numRows := by
        rw [hq]
        have z : (newDense64Batching cols : Dense64Batching F).len = 0 := rfl
        have z2 : (newDense64Batching cols : Dense64Batching F).data = [] := rfl
        rw [z, z2]
        have hcast : ((cols.length : Int) * ((df.numRows : Int) - ((0 : Nat) : Int))) = ((cols.length * df.numRows : Nat) : Int) := by simp
        rw [hcast]
        split
        · obtain ⟨a1, a2, a3⟩ := appendZeros_length h.rt ([] : List F) 0 ((cols.length * df.numRows : Nat) : Int).toNat (Nat.le_refl _)
          rw [hs] at a3
          simp only [Int.toNat_natCast] at a1 a2 a3 ⊢
          refine ⟨?_, by omega⟩
          rcases a3 with a3 | a3
          · simp only [List.length_nil] at a3; omega
          · omega
        · simp only [List.length_nil]
          refine ⟨trivial, ?_⟩
          omega
      split at e
      · cases e
      · rename_i d1 e1
        split at e
        · cases e
        · rename_i d2 e2
          split at e
          · cases e
          · rename_i d3 e3
            have l1 := denseKind_length _ _ (by omega) e1
            have l2 := denseKind_length _ _ (by omega) e2
            have l3 := denseKind_length _ _ (by omega) e3
            split at e
            · split at e
              · cases e
              · rename_i hz
                simp only [Except.ok.injEq, Prod.mk.injEq] at e
                obtain ⟨rfl, rfl⟩ := e
                refine ⟨?_, hq1.2, hb.1, hb.2, by omega⟩
                show q.2 = d3.length
                omega
            · cases e
  obtain ⟨s1, s2, s3, s4, s5⟩ := st
  unfold Dense64Batching.denseMatrix
  simp only [FloatBatching.initialize, s4, if_true, s3]
  obtain ⟨missing, hmis⟩ : ∃ m : Int, m = (cols.length : Int) * ((df2.numRows : Int) - (bat'.len : Int)) := ⟨_, rfl⟩
  rw [← hmis]
  obtain ⟨q, hq⟩ : ∃ q, q = (if missing > 0 then appendZeros h2.rt bat'.data bat'.len missing.toNat else (bat'.data, bat'.len)) := ⟨_, rfl⟩
  rw [← hq]
  have hml : missing = ((cols.length * df2.numRows : Nat) : Int) - ((cols.length * bat'.len : Nat) : Int) := by
    rw [hmis, Int.mul_sub]; simp
  have hbig : 2 * bat'.len ≤ cols.length * bat'.len := Nat.mul_le_mul_right _ hd
  have hlen0 : 0 < bat'.len := by rw [s2]; exact Nat.mul_pos (by omega) s5
  have hgt : bat'.len < cols.length * df2.numRows := by
    rw [s2]; exact Nat.mul_lt_mul_of_pos_left hlt (by omega)
  have hq1 : q.1.length = q.2 ∧ q.2 < df2.numRows * cols.length := by
    rw [Nat.mul_comm df2.numRows, hq]
    split
    · obtain ⟨a1, a2, a3⟩ := appendZeros_length h2.rt bat'.data bat'.len missing.toNat (by omega)
      rw [hs2] at a3
      refine ⟨?_, by omega⟩
      rcases a3 with a3 | a3 <;> omega
    · exact ⟨by simp only; omega, hgt⟩
  have err : ∀ x : Abort, (∃ k ps d, denseKind h2 bat'.toFloatBatching df2 k q.2 ps d = .error x) → x = .panic := by
    rintro x ⟨k, ps, d, he⟩
    induction ps generalizing d with
    | nil => cases he
    | cons p ps ih =>
      simp only [denseKind] at he
      split at he
      · rename_i y e1
        cases he
        unfold denseCol at e1
        simp only at e1
        split at e1
        · cases e1; rfl
        · split at e1
          · rename_i e2
            cases e1
            unfold FloatBatching.name at e2
            split at e2
            · cases e2
            · cases e2; rfl
          · split at e1
            · cases e1
            · have : ∀ (js : List Nat) (i : Nat) (d : List F) (s : Slice) (off : Nat), denseLoop h2 k s off q.2 js i d = .error x → x = .panic := by
                intro js
                induction js with
                | nil => intro i d s off h; cases h
                | cons j js ih =>
                  intro i d s off h
                  simp only [denseLoop] at h
                  split at h
                  · cases h; rfl
                  · split at h
                    · exact ih _ _ _ _ h
                    · cases h; rfl
              exact this _ _ _ _ _ e1
      · exact ih _ he
  cases e1 : denseKind h2 bat'.toFloatBatching df2 .float q.2 bat'.fColumns q.1 with
  | error x => simp only []; rw [err x ⟨_, _, _, e1⟩]
  | ok d1 =>
    have l1 := denseKind_length _ _ (by omega) e1
    simp only []
    cases e2 : denseKind h2 bat'.toFloatBatching df2 .int q.2 bat'.iColumns d1 with
    | error x => simp only []; rw [err x ⟨_, _, _, e2⟩]
    | ok d2 =>
      have l2 := denseKind_length _ _ (by omega) e2
      simp only []
      cases e3 : denseKind h2 bat'.toFloatBatching df2 .bool q.2 bat'.bColumns d2 with
      | error x => simp only []; rw [err x ⟨_, _, _, e3⟩]
      | ok d3 =>
        have l3 := denseKind_length _ _ (by omega) e3
        simp only []
        rw [if_neg (by omega)]

end Verif

namespace Verif.Demo

-- the hypotheses of C29_batches_partial: the demo dataframe, then its reverse, then two of its rows
example : okAnd (df.indexView [3, 1] h) (fun p =>
    okAnd (runDense [.batch h df, .scribble (List.replicate 12 0), .batch h df.reverseView, .batch p.2 p.1]
      (newDense64Batching [b!"x", b!"b", b!"a"]))
      (fun ms => decide (ms = [⟨4, 3, [5, 3, 9, 1, 1, 0, 1, 0, 10, 20, 30, 40]⟩,
        ⟨4, 3, [1, 9, 3, 5, 0, 1, 0, 1, 40, 30, 20, 10]⟩, ⟨2, 3, [1, 3, 0, 0, 40, 20]⟩]))) = true := by
  decide +kernel

-- a larger batch after a smaller one panics (here with spare capacity in the runtime, too)
example : okAnd (df.indexView [3, 1] h) (fun p =>
    match runDense [.batch p.2 p.1, .batch h df] (newDense64Batching [b!"x", b!"a"]) with
    | .error .panic => true | _ => false) = true := by
  decide +kernel

/-- Two float columns of `n` rows, all ones. -/
def ones (n : Nat) : DF × Heap Int :=
  match (build [.add .float b!"x" (List.replicate n (.float 1)), .add .float b!"y" (List.replicate n (.float 1))] heap0).1.toDataFrame
    (build [.add .float b!"x" (List.replicate n (.float 1)), .add .float b!"y" (List.replicate n (.float 1))] heap0).2 with
  | .ok p => p
  | .error _ => (df, h)

/-- Against C29: when `append` has reserved spare room, the larger batch may go through with a wrong matrix: the
second column of ones comes back as zeros. -/
theorem C29_growing_batch_wrong :
    (match runDense [.batch (ones 2).2 (ones 2).1, .batch (ones 4).2 (ones 4).1] (newDense64Batching [b!"x", b!"y"]) with
    | .ok ms => ms
    | .error _ => []) = [⟨2, 2, [1, 1, 1, 1]⟩, ⟨4, 2, [1, 1, 1, 1, 0, 0, 0, 0]⟩] ∧
    (abs (ones 4).2 (ones 4).1).col .float b!"y" = some (List.replicate 4 (some (.float 1))) := by
  decide +kernel

end Verif.Demo
