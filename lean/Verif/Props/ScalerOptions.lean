import Verif.Props.ScalerIdeal
import Verif.Model.Internals

/-! C42, each option on its own: what a scaler made with `NewScaler(options)` does to the columns it was trained on. And
C75: the memory that `GetMask` returns. -/

namespace Verif
open Ideal

section
variable {df : DF} {h : Heap Ideal}

theorem stdScale_eq (xs : List ℝ) (hne : xs ≠ []) : stdScale xs = if variance xs = 0 then Real.sqrt (xs.length + 1) else 1 / Real.sqrt (variance xs) := by
  have hl : (xs.length : ℝ) ≠ 0 := by simpa using hne
  unfold stdScale variance
  by_cases hz : (xs.map fun x => (x - mean xs) ^ 2).sum = 0
  · rw [if_pos hz, if_pos (by rw [hz]; simp)]
  · rw [if_neg hz, if_neg (by intro h0; rw [div_eq_zero_iff] at h0; exact h0.elim hz hl), ← Real.sqrt_one,
      ← Real.sqrt_div (by norm_num)]
    congr 1
    field_simp

/-- **C42**, the options one by one. A scaler made by `NewScaler` without MinMax, trained on a dataframe and applied
to it: Centering subtracts the mean of the column's numbers, Scaling divides by their standard deviation (a column with
variance 0 is multiplied by `√(n+1)`), and neither of them happens unless it was asked for. Missing values stay
missing. -/
theorem C42_each_option (o : ScalerOptions) (ho : o.minMax = false) {vals : GoStr → List Ideal}
    (wf : df.WF h) (hv : FloatCols (abs h df) vals)
    (hpl : ∀ c, ((abs h df).col .float c).isSome → ∀ v ∈ vals c, Plain v) (hr : df.rows.Nodup)
    (hu : Unaliased h df (namesOf (h.tab df.tab) .float)) (hcpu : 0 < df.maxCPU) (hemp : (abs h df).col .float [] = none)
    {order : List GoStr} (hp : order.Perm (namesOf (h.tab df.tab) .float)) :
    ∃ sc', (newScaler o : Scaler Ideal).fit df order h = .ok sc' ∧ ∀ order', order'.Perm sc'.transformedColumns →
      ∃ h', sc'.transformInplace df order' h = .ok h' ∧ ∀ c, ((abs h df).col .float c).isSome → reals (vals c) ≠ [] →
        (abs h' df).floats c = some ((vals c).map fun v => match v with
          | .real x => .real ((if o.centering then x - mean (reals (vals c)) else x) *
              (if o.scaling then (if variance (reals (vals c)) = 0 then Real.sqrt ((reals (vals c)).length + 1)
                else 1 / Real.sqrt (variance (reals (vals c)))) else 1))
          | v => v) := by
  obtain ⟨sc', e, _, n1, n2, g1, g2⟩ := scaler_fit (sc := (newScaler o : Scaler Ideal)) hv (Or.inr hcpu) hemp hp
  obtain ⟨sc'', e', nd, hcols⟩ := C41_fit_columns (sc := (newScaler o : Scaler Ideal)) hv (Or.inr hcpu) hemp hp
  rw [e] at e'; cases e'
  have hno : (newScaler o : Scaler Ideal).options = o := rfl
  rw [hno] at g1 g2 hcols
  refine ⟨sc', e, ?_⟩
  intro order' hp'
  obtain ⟨h', e2, tr⟩ := C41_transform (sc := sc') wf nd (fun c hc => ((hcols c).1 hc).1) hr
    (fun c h1 c' h2 => hu c (mem_namesOf_iff.2 ((hcols c).1 h1).1) c' (mem_namesOf_iff.2 ((hcols c').1 h2).1)) (Or.inr hcpu)
    (by rw [hcols, hemp]; simp) hp'
  refine ⟨h', e2, ?_⟩
  intro c hc hne
  have hplc := hpl c hc
  have hfit := std_fit (o := o) (l := vals c) ho hplc hne
  rw [← stdScale_eq _ hne]
  by_cases hin : c ∈ sc'.transformedColumns
  · rw [tr.floats hin (hv c hc)]
    congr 1
    refine List.map_congr_left fun v hvm => ?_
    rw [g1, g2, if_pos hc, if_pos hc, hfit]
    cases v with
    | nan => simp only [ideal_nan_add, ideal_nan_mul]
    | real x =>
      cases o.centering <;> cases o.scaling <;>
        simp only [Bool.false_eq_true, if_false, if_true, Option.getD_none, Option.getD_some, ideal_zero, ideal_one, ideal_add, ideal_mul,
          add_zero, mul_one, sub_eq_add_neg]
    | posInf => exact (hplc _ hvm).elim
    | negInf => exact (hplc _ hvm).elim
  · -- neither option
    have hnone : o.centering = false ∧ o.scaling = false := by
      rw [hcols] at hin
      simp only [hc, ho, true_and, Bool.false_eq_true, false_or, not_or, Bool.not_eq_true] at hin
      exact hin
    have hsame : sc'.transformedColumns = [] := by
      refine List.eq_nil_iff_forall_not_mem.2 fun c' hc' => ?_
      have := ((hcols c').1 hc').2
      rw [ho, hnone.1, hnone.2] at this
      simp at this
    have hget : ∀ (k : Kind) (c' : GoStr) (j : Nat), df.get h' k c' j = df.get h k c' j := by
      intro k c' j
      refine tr.miss df k c' j ?_
      rw [hsame]; simp
    have hfl : (abs h' df).floats c = some (vals c) := by
      have h0 := hv c hc
      rw [floats_iff] at h0 ⊢
      obtain ⟨a1, a2, a3⟩ := h0
      refine ⟨?_, a2, fun i x hi => by rw [hget]; exact a3 i x hi⟩
      have hs := congrArg (fun a => (a.col Kind.float c).isSome) (tr.shape df)
      simp only [abs, locs, Option.isSome_map] at hs a1 ⊢
      rw [hs]; exact a1
    rw [hfl, hnone.1, hnone.2]
    congr 1
    conv_lhs => rw [← List.map_id (vals c)]
    refine List.map_congr_left fun v hvm => ?_
    cases v <;> simp
end

-- the demo dataframe of Props/ScalerIdeal, Centering only
open Demo in
example : ∃ sc', (newScaler ⟨false, true, false⟩ : Scaler Ideal).fit idf [b!"x", b!"y"] ih = .ok sc' := by
  obtain ⟨sc', e, _⟩ := C42_each_option ⟨false, true, false⟩ rfl (order := [b!"x", b!"y"]) idf_wf idf_cols idf_plain
    (by rw [idf_rows]; decide) idf_unaliased (by decide +kernel) (by decide +kernel) (by rw [idf_names])
  exact ⟨sc', e⟩

/-! ### C75: GetMask -/

variable {F : Type}

/-- **C75**: without thread-safe masking, the mask that `ZeroMask` or `EmptyMask` hands out is the beginning of
what `GetMask` returns: same memory, first `NumRows` elements. -/
theorem C75_getMask {df : DF} {h h1 : Heap F} {m : Slice} (hts : df.mThreadSafe = false)
    (e : df.zeroMask h = .ok (m, h1) ∨ df.emptyMask h = .ok (m, h1)) :
    m.arr = df.internalMask.arr ∧ m.off = df.internalMask.off ∧ m.len = df.numRows ∧
      (df.numRows ≤ df.internalMask.len → ∀ hh : Heap F, hh.readMask m = (hh.readMask df.internalMask).take df.numRows) := by
  have key : df.mask.reslice 0 df.numRows = .ok m := by
    rcases e with e | e
    · unfold DF.zeroMask at e
      rw [hts] at e
      simp only [Bool.false_eq_true, if_false] at e
      split at e
      · cases e
      · split at e
        · cases e
        · rename_i hx; cases e; exact hx
    · unfold DF.emptyMask at e
      rw [hts] at e
      simp only [Bool.false_eq_true, if_false] at e
      split at e
      · cases e
      · rename_i hx; cases e; exact hx
  unfold Slice.reslice at key
  split at key
  · cases key
    refine ⟨rfl, by simp [DF.internalMask], by simp, ?_⟩
    intro hl hh
    simp only [DF.internalMask] at hl
    simp only [Heap.readMask, DF.internalMask, List.take_take]
    simp only [Int.toNat_zero, Nat.add_zero, Int.sub_zero, Int.toNat_natCast]
    rw [Nat.min_eq_left hl]
  · cases key

example : ∃ m h1, Demo.df.zeroMask Demo.h = .ok (m, h1) ∧ Demo.df.mThreadSafe = false ∧ Demo.df.numRows ≤ Demo.df.internalMask.len := by
  have hd : okAnd (Demo.df.zeroMask Demo.h) (fun _ => decide (Demo.df.mThreadSafe = false ∧ Demo.df.numRows ≤ Demo.df.internalMask.len)) = true := by
    decide +kernel
  obtain ⟨⟨m, h1⟩, e, h2⟩ := okAnd_iff.1 hd
  simp only [decide_eq_true_eq] at h2
  exact ⟨m, h1, e, h2⟩

end Verif
