import Verif.Proofs.Iter

/-! Proofs about `Dense64Batching`. -/

namespace Verif
variable {F : Type}

theorem cell64_fun [GoFloat F] (k : Kind) : (cell64 k : Val F → F) = num64 k := by
  funext v
  cases k <;> cases v <;> try rfl
  rename_i b; cases b <;> rfl

/-- Position `i` of column `j` in a column-major buffer with `n` rows. -/
theorem mul_add_inj {n j j' i i' : Nat} (hi : i < n) (hi' : i' < n) (h : n * j + i = n * j' + i') : j = j' ∧ i = i' := by
  rcases Nat.lt_trichotomy j j' with hlt | rfl | hlt
  · have : n * (j + 1) ≤ n * j' := Nat.mul_le_mul_left n hlt
    rw [Nat.mul_add, Nat.mul_one] at this; omega
  · exact ⟨rfl, by omega⟩
  · have : n * (j' + 1) ≤ n * j := Nat.mul_le_mul_left n hlt
    rw [Nat.mul_add, Nat.mul_one] at this; omega

theorem denseLoop_length [GoFloat F] {h : Heap F} {k : Kind} {s : Slice} {off len : Nat} (js : List Nat) (i : Nat)
    (data : List F) {data' : List F} (e : denseLoop h k s off len js i data = .ok data') : data'.length = data.length := by
  induction js generalizing i data with
  | nil => simp only [denseLoop, Except.ok.injEq] at e; rw [e]
  | cons j js ih =>
    simp only [denseLoop] at e
    split at e
    · cases e
    · split at e
      · rw [ih _ _ e]; simp
      · cases e

theorem denseLoop_spec [GoFloat F] {h : Heap F} {k : Kind} {s : Slice} {off len : Nat} (js : List Nat) (i : Nat)
    (data : List F) (hj : off + i + js.length ≤ len) (hd : len ≤ data.length) (hv : ∀ j ∈ js, (h.cell s j).isSome) :
    ∃ data', denseLoop h k s off len js i data = .ok data' ∧
      ∀ p, data'[p]? = if off + i ≤ p ∧ p < off + i + js.length then
        (js[p - (off + i)]?).bind (fun j => (h.cell s j).map (num64 k)) else data[p]? := by
  induction js generalizing i data with
  | nil => exact ⟨data, rfl, fun p => by rw [if_neg]; simp⟩
  | cons j js ih =>
    obtain ⟨v, hv0⟩ := Option.isSome_iff_exists.1 (hv j (by simp))
    simp only [List.length_cons] at hj
    obtain ⟨d', e, g⟩ := ih (i + 1) (data.set (off + i) (cell64 k v)) (by omega) (by simpa using hd)
      (fun x hx => hv x (by simp [hx]))
    refine ⟨d', ?_, ?_⟩
    · simp only [denseLoop, hv0]
      rw [if_pos (by omega)]; exact e
    · intro p
      rw [g, List.getElem?_set]
      by_cases hp : p = off + i
      · subst hp
        rw [if_neg (by omega), if_pos rfl, if_pos (by omega), if_pos ⟨by omega, by simp⟩]
        simp [hv0, cell64_fun]
      · rw [if_neg (c := off + i = p) (fun h => hp h.symm)]
        by_cases hle : off + i ≤ p ∧ p < off + i + (j :: js).length
        · rw [if_pos hle, if_pos ⟨by omega, by have := hle.2; simp at this; omega⟩]
          rw [show p - (off + i) = (p - (off + (i + 1))) + 1 by omega]; simp
        · rw [if_neg hle, if_neg (by simp only [List.length_cons] at hle; omega)]

theorem denseCopy_length (data : List F) (off len : Nat) (src : List F) (h1 : off ≤ len) (h2 : len ≤ data.length) :
    (denseCopy data off len src).length = data.length := by
  simp only [denseCopy, List.length_append, List.length_take, List.length_drop]; omega

theorem denseCopy_spec (data : List F) (off len : Nat) (src : List F) (h1 : off + src.length ≤ len) (h2 : len ≤ data.length)
    (p : Nat) : (denseCopy data off len src)[p]? =
      if off ≤ p ∧ p < off + src.length then src[p - off]? else data[p]? := by
  have ht : src.take (len - off) = src := List.take_of_length_le (by omega)
  have hm : min (len - off) src.length = src.length := by omega
  simp only [denseCopy, ht, hm, List.getElem?_append, List.length_append, List.length_take]
  rw [show min off data.length = off by omega]
  by_cases hp : p < off
  · rw [if_pos (by omega), if_pos hp, if_neg (by omega), List.getElem?_take_of_lt hp]
  · by_cases hq : p < off + src.length
    · rw [if_pos hq, if_neg hp, if_pos ⟨by omega, hq⟩]
    · rw [if_neg hq, if_neg (by omega), List.getElem?_drop]; congr 1; omega

/-- One column. -/
theorem denseCol_spec [GoFloat F] {h : Heap F} {b : FloatBatching} {kind : GoStr → Kind} {cols : List GoStr}
    (cl : Classified b kind cols) {df : DF} (hc : HasCols h df kind cols) {colIx len : Nat} {c : GoStr}
    (hcol : cols[colIx]? = some c) (data : List F) (hl : df.numRows * colIx + df.numRows ≤ len) (hd : len ≤ data.length) :
    ∃ data', denseCol h b df (kind c) len colIx data = .ok data' ∧ data'.length = data.length ∧
      ∀ i j, i < df.numRows → data'[df.numRows * j + i]? =
        if j = colIx then ((abs h df).cell (kind c) c i).map (num64 (kind c)) else data[df.numRows * j + i]? := by
  have hm := List.mem_of_getElem? hcol
  have hn : b.name colIx = .ok c := by simp [FloatBatching.name, cl.columns, hcol]
  have hpos : ∀ i j, i < df.numRows → ((df.numRows * colIx ≤ df.numRows * j + i ∧
      df.numRows * j + i < df.numRows * colIx + df.numRows) ↔ j = colIx) := by
    intro i j hi
    constructor
    · rintro ⟨h1, h2⟩
      exact (mul_add_inj hi (i' := df.numRows * j + i - df.numRows * colIx) (by omega) (by omega)).1
    · rintro rfl; omega
  unfold denseCol
  simp only [hn]
  rw [if_neg (by omega)]
  by_cases hcopy : kind c = .float ∧ df.indexViewed = false
  · rw [if_pos hcopy]
    have hh := hc.has c hm
    simp only [abs, Option.isSome_map] at hh
    obtain ⟨s, hs⟩ := Option.isSome_iff_exists.1 hh
    obtain ⟨N, n1, n2, n3⟩ := hc.wf.rect
    have hsv := hc.wf.slices _ _ hs
    have hrows := n3 hcopy.2
    have hNr : df.numRows = N := by unfold DF.numRows; rw [hrows]; simp
    have htc : tabCol (h.tab df.tab) (kind c, c) = s := by simp [tabCol, hs]
    have hslen : ((h.read s).map (num64 (kind c))).length = df.numRows := by
      rw [List.length_map, hsv.read_length, n1 _ _ hs, hNr]
    refine ⟨_, rfl, denseCopy_length _ _ _ _ (by omega) hd, ?_⟩
    intro i j hi
    rw [htc, cell64_fun, denseCopy_spec _ _ _ _ (by rw [hslen]; exact hl) hd, hslen]
    by_cases hj : j = colIx
    · rw [if_pos ((hpos i j hi).2 hj), if_pos hj]
      subst hj
      rw [show df.numRows * j + i - df.numRows * j = i by omega]
      have hri : df.rows[i]? = some i := by
        rw [hrows, List.getElem?_range (by omega)]
      rw [hc.expected hm hri, htc, Heap.cell_eq_read, List.getElem?_map]
    · rw [if_neg (fun x => hj ((hpos i j hi).1 x)), if_neg hj]
  · rw [if_neg hcopy]
    obtain ⟨d', e, g⟩ := denseLoop_spec (k := kind c) (s := tabCol (h.tab df.tab) (kind c, c)) (off := df.numRows * colIx)
      df.rows 0 data (by simpa [DF.numRows] using hl) hd (fun i hi => hc.cell hm hi)
    refine ⟨d', e, denseLoop_length _ _ _ e, ?_⟩
    intro i j hi
    rw [g, Nat.add_zero]
    have hlen : df.rows.length = df.numRows := rfl
    rw [hlen]
    by_cases hj : j = colIx
    · rw [if_pos ((hpos i j hi).2 hj), if_pos hj]
      subst hj
      rw [show df.numRows * j + i - df.numRows * j = i by omega]
      have hri : df.rows[i]? = some df.rows[i] := List.getElem?_eq_getElem hi
      rw [hc.expected hm hri, hri]; rfl
    · rw [if_neg (fun x => hj ((hpos i j hi).1 x)), if_neg hj]

/-- The columns of one kind. -/
theorem denseKind_spec [GoFloat F] {h : Heap F} {b : FloatBatching} {kind : GoStr → Kind} {cols : List GoStr}
    (cl : Classified b kind cols) {df : DF} (hc : HasCols h df kind cols) {len : Nat} (k : Kind)
    (hl : df.numRows * cols.length ≤ len) (ps : List Nat) (hps : ∀ p ∈ ps, p ∈ b.cols k) (data : List F)
    (hd : len ≤ data.length) :
    ∃ data', denseKind h b df k len ps data = .ok data' ∧ data'.length = data.length ∧
      ∀ i j c, i < df.numRows → cols[j]? = some c → data'[df.numRows * j + i]? =
        if j ∈ ps then ((abs h df).cell (kind c) c i).map (num64 (kind c)) else data[df.numRows * j + i]? := by
  induction ps generalizing data with
  | nil => exact ⟨data, rfl, rfl, fun _ _ _ _ _ => by simp⟩
  | cons p ps ih =>
    obtain ⟨c, h1, rfl⟩ := (cl.mem k p).1 (hps p (by simp))
    have hp : p + 1 ≤ cols.length := (List.getElem?_eq_some_iff.1 h1).1
    have := Nat.mul_le_mul_left df.numRows hp
    rw [Nat.mul_add, Nat.mul_one] at this
    obtain ⟨d1, e1, l1, g1⟩ := denseCol_spec cl hc h1 data (len := len) (by omega) hd
    obtain ⟨d2, e2, l2, g2⟩ := ih (fun q hq => hps q (by simp [hq])) d1 (by omega)
    refine ⟨d2, by simp only [denseKind, e1]; exact e2, by omega, ?_⟩
    intro i j c' hi hj
    rw [g2 i j c' hi hj, g1 i j hi]
    by_cases hjp : j = p
    · subst hjp
      rw [h1] at hj; cases hj
      simp
    · rw [if_neg hjp]
      by_cases hjm : j ∈ ps
      · simp [hjm]
      · simp [hjm, hjp]

/-- Lengths never change while the columns are copied. -/
theorem denseKind_length [GoFloat F] {h : Heap F} {b : FloatBatching} {df : DF} {k : Kind} {len : Nat} (ps : List Nat)
    (data : List F) (hd : len ≤ data.length) {data' : List F} (e : denseKind h b df k len ps data = .ok data') :
    data'.length = data.length := by
  induction ps generalizing data with
  | nil => simp only [denseKind, Except.ok.injEq] at e; rw [e]
  | cons p ps ih =>
    simp only [denseKind] at e
    split at e
    · cases e
    · rename_i d1 e1
      have : d1.length = data.length := by
        unfold denseCol at e1
        simp only at e1
        split at e1
        · cases e1
        · split at e1
          · cases e1
          · split at e1
            · simp only [Except.ok.injEq] at e1; rw [← e1]; exact denseCopy_length _ _ _ _ (by omega) hd
            · exact denseLoop_length _ _ _ e1
      rw [ih d1 (by omega) e, this]

theorem appendZeros_length [GoFloat F] (rt : Runtime) (data : List F) (len n : Nat) (hd : len ≤ data.length) :
    len + n ≤ (appendZeros rt data len n).1.length ∧ (appendZeros rt data len n).2 = len + n ∧
      ((appendZeros rt data len n).1.length = data.length ∨
        (appendZeros rt data len n).1.length = len + n + rt.spare (len + n)) := by
  unfold appendZeros
  split <;> simp <;> omega

/-- The object before its first batch, or with a buffer for at least one batch. -/
structure DenseInv (kind : GoStr → Kind) (cols : List GoStr) (bat : Dense64Batching F) (n1 : Nat) : Prop where
  cl : Classified bat.toFloatBatching kind cols
  ini : bat.initialized = true
  le : bat.len ≤ bat.data.length
  len : cols.length * n1 ≤ bat.len

theorem denseMatrix_core [GoFloat F] {h : Heap F} {kind : GoStr → Kind} {cols : List GoStr} {bat : Dense64Batching F}
    {df : DF} {b : FloatBatching} (ei : bat.toFloatBatching.initialize (h.tab df.tab) bat.columns = .ok b)
    (cl : Classified b kind cols) (hb : b.initialized = true) (hc : HasCols h df kind cols) (hle : bat.len ≤ bat.data.length) (hd : 0 < cols.length)
    (hn : 0 < df.numRows) (hfit : bat.len = 0 ∨ cols.length = 1 ∨ cols.length * df.numRows ≤ bat.len) :
    ∃ m bat', bat.denseMatrix df h = .ok (m, bat') ∧ IsMatrixOf kind cols h df m ∧ bat.len ≤ bat'.len ∧
      DenseInv kind cols bat' df.numRows := by
  unfold Dense64Batching.denseMatrix
  simp only [ei, cl.columns]
  obtain ⟨missing, hmis⟩ : ∃ m : Int, m = (cols.length : Int) * ((df.numRows : Int) - (bat.len : Int)) := ⟨_, rfl⟩
  rw [← hmis]
  obtain ⟨q, hq⟩ : ∃ q, q = (if missing > 0 then appendZeros h.rt bat.data bat.len missing.toNat else (bat.data, bat.len)) := ⟨_, rfl⟩
  rw [← hq]
  have hq1 : cols.length * df.numRows ≤ q.2 ∧ q.2 ≤ q.1.length ∧ bat.len ≤ q.2 := by
    rw [hq]
    have hml : (missing = (cols.length : Int) * df.numRows - (cols.length : Int) * bat.len) := by
      rw [hmis, Int.mul_sub]
    split
    · rename_i hpos
      obtain ⟨a1, a2, _⟩ := appendZeros_length h.rt bat.data bat.len missing.toNat hle
      refine ⟨?_, by omega, by omega⟩
      rw [a2]
      rcases hfit with h0 | h1 | h2
      · rw [h0] at hml; simp at hml
        have : ((cols.length * df.numRows : Nat) : Int) = missing := by rw [hml]; simp
        omega
      · rw [h1] at hml ⊢; omega
      · omega
    · rename_i hpos
      refine ⟨?_, hle, Nat.le_refl _⟩
      rcases hfit with h0 | h1 | h2
      · exfalso
        rw [h0] at hml; simp at hml
        have h3 : 0 < cols.length * df.numRows := Nat.mul_pos hd hn
        have : ((cols.length * df.numRows : Nat) : Int) = missing := by rw [hml]; simp
        omega
      · rw [h1] at hml ⊢; omega
      · exact h2
  obtain ⟨g1, g2, g3⟩ := hq1
  have g1' : df.numRows * cols.length ≤ q.2 := by rw [Nat.mul_comm]; exact g1
  obtain ⟨d1, e1, l1, v1⟩ := denseKind_spec cl hc .float g1' b.fColumns (fun p hp => hp) q.1 g2
  obtain ⟨d2, e2, l2, v2⟩ := denseKind_spec cl hc .int g1' b.iColumns (fun p hp => hp) d1 (by omega)
  obtain ⟨d3, e3, l3, v3⟩ := denseKind_spec cl hc .bool g1' b.bColumns (fun p hp => hp) d2 (by omega)
  simp only [e1, e2, e3]
  rw [if_pos (by omega), if_neg (by omega)]
  refine ⟨_, _, rfl, ⟨rfl, rfl, ?_⟩, g3, ⟨?_, hb, ?_, g1⟩⟩
  · intro i j c hi hj
    have hj' : j + 1 ≤ cols.length := (List.getElem?_eq_some_iff.1 hj).1
    have hmul := Nat.mul_le_mul_left df.numRows hj'
    rw [Nat.mul_add, Nat.mul_one] at hmul
    simp only at hi
    have hat : (Matrix.mk df.numRows cols.length (d3.take (df.numRows * cols.length))).at i j =
        d3[df.numRows * j + i]? := by
      simp only [Matrix.at]
      rw [if_pos ⟨hi, hj'⟩, Nat.mul_comm j, List.getElem?_take_of_lt (by omega)]
    rw [hat]
    constructor
    · rw [List.getElem?_eq_getElem (by omega)]; rfl
    · rw [v3 i j c hi hj, v2 i j c hi hj, v1 i j c hi hj]
      have inn : ∀ k, j ∈ b.cols k ↔ kind c = k := by
        intro k; rw [cl.mem, hj]; simp
      have mb := inn .bool
      have mi := inn .int
      have mf := inn .float
      simp only [FloatBatching.cols] at mb mi mf
      cases hk : kind c with
      | obj => exact absurd hk (cl.num _ (List.mem_of_getElem? hj))
      | float => rw [if_neg (by rw [mb, hk]; simp), if_neg (by rw [mi, hk]; simp), if_pos (mf.2 hk)]
      | int => rw [if_neg (by rw [mb, hk]; simp), if_pos (mi.2 hk)]
      | bool => rw [if_pos (mb.2 hk)]
  · exact cl
  · simp only; omega

end Verif
