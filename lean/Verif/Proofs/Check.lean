import Verif.Proofs.View
import Verif.Proofs.AMap

/-! A decidable sufficient condition for the consistency of a concrete dataframe, used by the examples
and the refutations. -/

namespace Verif
variable {F : Type}

instance (h : Heap F) (s : Slice) : Decidable (s.Valid h) := by unfold Slice.Valid; infer_instance

/-- Checks `DF.WF` with `N` allocated rows. -/
def DF.checkWF (h : Heap F) (df : DF) (N : Nat) : Bool :=
  decide (df.tab < h.next) && decide (∀ i ∈ df.shared, i < h.next) && decide (∀ i ∈ df.strHdr, i < h.next) &&
  decide ((AMap.keys (h.tab df.tab)).Nodup) && decide (∀ e ∈ h.tab df.tab, e.2.Valid h ∧ e.2.len = N) &&
  decide (df.idx.len ≤ df.idx.data.length) && decide (∀ i ∈ df.rows, i < N) &&
  (df.indexViewed || decide (df.rows = List.range N))

theorem DF.wf_of_check {h : Heap F} {df : DF} (N : Nat) (hc : df.checkWF h N = true) : df.WF h := by
  simp only [DF.checkWF, Bool.and_eq_true, decide_eq_true_eq, Bool.or_eq_true] at hc
  obtain ⟨⟨⟨⟨⟨⟨⟨h1, h2⟩, h3⟩, h4⟩, h5⟩, h6⟩, h7⟩, h8⟩ := hc
  refine ⟨⟨h1, fun i hi => h2 i hi, fun i hi => h3 i hi, h4, fun k s hk => (h5 _ (AMap.mem_of_get hk)).1⟩,
    h6, N, fun k s hk => (h5 _ (AMap.mem_of_get hk)).2, h7, ?_⟩
  intro hv
  rw [hv] at h8
  simpa using h8

/-- Checks `DF.MaskWF`. -/
def DF.checkMask (h : Heap F) (df : DF) : Bool :=
  decide (df.numRows ≤ df.mask.len) && decide (df.mask.len ≤ df.mask.cap) &&
  decide (df.mask.cap = 0 ∨ df.mask.arr < h.next ∧ df.mask.off + df.mask.cap ≤ (h.msk df.mask.arr).length)

theorem DF.mwf_of_check {h : Heap F} {df : DF} (hc : df.checkMask h = true) : df.MaskWF h := by
  simp only [DF.checkMask, Bool.and_eq_true, decide_eq_true_eq] at hc
  exact ⟨hc.1.1, hc.1.2, hc.2⟩

end Verif
