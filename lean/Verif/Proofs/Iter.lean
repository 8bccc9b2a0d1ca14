import Verif.Spec.Batching
import Verif.Proofs.Copy
import Verif.Proofs.EditAbs

/-! Proofs about the row iterator. -/

namespace Verif
variable {F R : Type}

theorem cell32_eq [GoFloat32 F R] (k : Kind) (v : Val F) : cell32 (R := R) k v = num32 k v := by
  cases k <;> cases v <;> try rfl
  rename_i b; cases b <;> rfl

/-! ### classification of the columns -/

/-- The store of a column, in a table. -/
def tabNumKind (t : Table) (c : GoStr) : Option Kind :=
  if (AMap.get t (.float, c)).isSome then some .float
  else if (AMap.get t (.bool, c)).isSome then some .bool
  else if (AMap.get t (.int, c)).isSome then some .int
  else none

theorem numKind_abs (h : Heap F) (df : DF) (c : GoStr) : (abs h df).numKind c = tabNumKind (h.tab df.tab) c := by
  simp [ADF.numKind, tabNumKind, abs]

/-- The list of positions of one kind. -/
def FloatBatching.cols (b : FloatBatching) : Kind → List Nat
  | .float => b.fColumns
  | .bool => b.bColumns
  | .int => b.iColumns
  | .obj => []

theorem classify_spec (t : Table) (cs : List GoStr) (i : Nat) (b : FloatBatching) :
    ((∀ c ∈ cs, (tabNumKind t c).isSome) →
      ∃ b', FloatBatching.classify t cs i b = .ok b' ∧ b'.columns = b.columns ∧ b'.initialized = b.initialized ∧
        ∀ k p, p ∈ b'.cols k ↔ p ∈ b.cols k ∨ ∃ q c, p = i + q ∧ cs[q]? = some c ∧ tabNumKind t c = some k) ∧
    ((∃ c ∈ cs, tabNumKind t c = none) → FloatBatching.classify t cs i b = .error .panic) := by
  induction cs generalizing i b with
  | nil => simp [FloatBatching.classify]
  | cons c cs ih =>
    have step : ∀ k (b1 : FloatBatching), tabNumKind t c = some k → b1.columns = b.columns →
        b1.initialized = b.initialized →
        (∀ k' p, p ∈ b1.cols k' ↔ p ∈ b.cols k' ∨ (k' = k ∧ p = i)) →
        FloatBatching.classify t (c :: cs) i b = FloatBatching.classify t cs (i + 1) b1 →
        ((∀ d ∈ c :: cs, (tabNumKind t d).isSome) →
          ∃ b', FloatBatching.classify t (c :: cs) i b = .ok b' ∧ b'.columns = b.columns ∧ b'.initialized = b.initialized ∧
            ∀ k p, p ∈ b'.cols k ↔ p ∈ b.cols k ∨ ∃ q d, p = i + q ∧ (c :: cs)[q]? = some d ∧ tabNumKind t d = some k) ∧
        ((∃ d ∈ c :: cs, tabNumKind t d = none) → FloatBatching.classify t (c :: cs) i b = .error .panic) := by
      intro k b1 hk hc hin hb1 he
      rw [he]
      constructor
      · intro hall
        obtain ⟨b', e, g1, g2, g3⟩ := (ih (i + 1) b1).1 (fun d hd => hall d (by simp [hd]))
        refine ⟨b', e, g1.trans hc, g2.trans hin, ?_⟩
        intro k' p
        rw [g3, hb1]
        constructor
        · rintro ((h | ⟨rfl, rfl⟩) | ⟨q, d, rfl, h1, h2⟩)
          · exact Or.inl h
          · exact Or.inr ⟨0, c, by simp, by simp, hk⟩
          · exact Or.inr ⟨q + 1, d, by omega, by simpa using h1, h2⟩
        · rintro (h | ⟨q, d, rfl, h1, h2⟩)
          · exact Or.inl (Or.inl h)
          · cases q with
            | zero =>
              simp at h1; subst h1
              rw [hk] at h2; cases h2
              exact Or.inl (Or.inr ⟨rfl, rfl⟩)
            | succ q => exact Or.inr ⟨q, d, by omega, by simpa using h1, h2⟩
      · rintro ⟨d, hd, hn⟩
        rcases List.mem_cons.1 hd with rfl | hd
        · rw [hk] at hn; cases hn
        · exact (ih (i + 1) b1).2 ⟨d, hd, hn⟩
    by_cases h1 : (AMap.get t (.float, c)).isSome
    · refine step .float { b with fColumns := b.fColumns ++ [i] } (by simp [tabNumKind, h1]) rfl rfl ?_ ?_
      · intro k' p; cases k' <;> simp [FloatBatching.cols]
      · simp [FloatBatching.classify, h1]
    by_cases h2 : (AMap.get t (.bool, c)).isSome
    · refine step .bool { b with bColumns := b.bColumns ++ [i] } (by simp [tabNumKind, h1, h2]) rfl rfl ?_ ?_
      · intro k' p; cases k' <;> simp [FloatBatching.cols]
      · simp [FloatBatching.classify, h1, h2]
    by_cases h3 : (AMap.get t (.int, c)).isSome
    · refine step .int { b with iColumns := b.iColumns ++ [i] } (by simp [tabNumKind, h1, h2, h3]) rfl rfl ?_ ?_
      · intro k' p; cases k' <;> simp [FloatBatching.cols]
      · simp [FloatBatching.classify, h1, h2, h3]
    have hn : tabNumKind t c = none := by simp [tabNumKind, h1, h2, h3]
    constructor
    · intro hall; have := hall c (by simp); rw [hn] at this; cases this
    · intro _; simp [FloatBatching.classify, h1, h2, h3]

/-- The positions of the columns are sorted out by kind. -/
structure Classified (b : FloatBatching) (kind : GoStr → Kind) (cols : List GoStr) : Prop where
  columns : b.columns = cols
  mem : ∀ k p, p ∈ b.cols k ↔ ∃ c, cols[p]? = some c ∧ kind c = k
  num : ∀ c ∈ cols, kind c ≠ .obj

theorem initialize_spec {t : Table} {cols : List GoStr} {kind : GoStr → Kind}
    (hk : ∀ c ∈ cols, tabNumKind t c = some (kind c)) {b : FloatBatching} (hb : b.initialized = false) :
    ∃ b', b.initialize t cols = .ok b' ∧ Classified b' kind cols ∧ b'.initialized = true := by
  obtain ⟨b', e, h1, h2, h3⟩ := (classify_spec t cols 0
    { initialized := true, columns := cols, fColumns := [], bColumns := [], iColumns := [] }).1
    (fun c hc => by rw [hk c hc]; rfl)
  refine ⟨b', by simp [FloatBatching.initialize, hb, e], ⟨h1, ?_, ?_⟩, h2⟩
  · intro k p
    rw [h3]
    constructor
    · rintro (h | ⟨q, c, rfl, g1, g2⟩)
      · cases k <;> simp [FloatBatching.cols] at h
      · rw [hk c (List.mem_of_getElem? g1)] at g2
        exact ⟨c, by simpa using g1, by simpa using g2⟩
    · rintro ⟨c, g1, rfl⟩
      exact Or.inr ⟨p, c, by simp, g1, hk c (List.mem_of_getElem? g1)⟩
  · intro c hc ho
    have := hk c hc
    rw [ho] at this
    simp only [tabNumKind] at this
    split at this
    · cases this
    · split at this
      · cases this
      · split at this <;> cases this

theorem initialize_panics {t : Table} {cols : List GoStr} (hk : ∃ c ∈ cols, tabNumKind t c = none)
    {b : FloatBatching} (hb : b.initialized = false) : b.initialize t cols = .error .panic := by
  simp only [FloatBatching.initialize, hb, Bool.false_eq_true, if_false]
  exact (classify_spec t cols 0 _).2 hk

/-! ### filling the buffer -/

/-- Element `q` of row `p`. -/
def at2 (rows : List (List R)) (p q : Nat) : Option R := (rows[p]?).bind (·[q]?)

/-- A column value by raw position. -/
def rawVal [GoFloat32 F R] (h : Heap F) (s : Slice) (k : Kind) (i : Nat) : Option R := (h.cell s i).map (num32 k)

/-- Every row of the buffer has `m` elements. -/
def Shape (rows : List (List R)) (n m : Nat) : Prop := rows.length = n ∧ ∀ (p : Nat) (row : List R), rows[p]? = some row → row.length = m

theorem Shape.set {rows : List (List R)} {n m j : Nat} (sh : Shape rows n m) {row : List R} (hr : row.length = m) :
    Shape (rows.set j row) n m := by
  refine ⟨by simp [sh.1], ?_⟩
  intro p r hp
  rw [List.getElem?_set] at hp
  split at hp
  · split at hp
    · cases hp; exact hr
    · cases hp
  · exact sh.2 p r hp

theorem fillRows_spec [GoFloat32 F R] {h : Heap F} {k : Kind} {s : Slice} {colIx n m : Nat} (hc : colIx < m)
    (is : List Nat) (j : Nat) (rows : List (List R)) (sh : Shape rows n m) (hj : j + is.length ≤ n)
    (hv : ∀ i ∈ is, (h.cell s i).isSome) :
    ∃ rows', fillRows h k s colIx is j rows = .ok rows' ∧ Shape rows' n m ∧
      ∀ p q, at2 rows' p q = if q = colIx ∧ j ≤ p ∧ p < j + is.length then
        (is[p - j]?).bind (rawVal h s k) else at2 rows p q := by
  induction is generalizing j rows with
  | nil => exact ⟨rows, rfl, sh, fun p q => by simp; intro _ _ _; omega⟩
  | cons i is ih =>
    obtain ⟨v, hv0⟩ := Option.isSome_iff_exists.1 (hv i (by simp))
    have hjl : j < rows.length := by rw [sh.1]; simp at hj; omega
    have hrow : rows[j]? = some rows[j] := List.getElem?_eq_getElem hjl
    have hrl := sh.2 j _ hrow
    have sh' : Shape (rows.set j (rows[j].set colIx (cell32 k v))) n m := sh.set (by simpa using hrl)
    obtain ⟨rows', e, sh2, h2⟩ := ih (j + 1) _ sh' (by simp at hj; omega) (fun i hi => hv i (by simp [hi]))
    refine ⟨rows', ?_, sh2, ?_⟩
    · simp only [fillRows, hv0, hrow, hrl, hc, if_true]; exact e
    · intro p q
      rw [h2]
      have h0 : at2 (rows.set j (rows[j].set colIx (cell32 k v))) p q =
          if p = j ∧ q = colIx then some (cell32 k v) else at2 rows p q := by
        unfold at2
        by_cases hp : p = j
        · subst hp
          simp only [List.getElem?_set_self hjl, Option.bind_some, true_and]
          by_cases hq : q = colIx
          · subst hq; simp [hrl, hc]
          · rw [List.getElem?_set_ne (fun h => hq h.symm), hrow]; simp [hq]
        · rw [List.getElem?_set_ne (fun h => hp h.symm)]; simp [hp]
      rw [h0]
      by_cases hq : q = colIx
      · by_cases hp : p = j
        · subst hp
          rw [if_neg (by omega), if_pos ⟨rfl, hq⟩, if_pos ⟨hq, by omega, by simp⟩]
          simp [rawVal, hv0, cell32_eq]
        · by_cases hle : j ≤ p ∧ p < j + (i :: is).length
          · rw [if_pos ⟨hq, by omega, by have := hle.2; simp at this; omega⟩, if_pos ⟨hq, hle⟩]
            have : p - j = (p - (j + 1)) + 1 := by omega
            rw [this]; simp
          · rw [if_neg (by simp only [List.length_cons] at hle; omega), if_neg (by grind), if_neg (fun h => hle h.2)]
      · rw [if_neg (by grind), if_neg (by grind), if_neg (by grind)]

theorem fillKind_spec [GoFloat32 F R] {h : Heap F} {ite : Float32Iterator R} {k : Kind} {is : List Nat} {n m : Nat}
    (hm : ite.columns.length = m)
    (hl : is.length ≤ n) (cs : List Nat) (hcs : ∀ p ∈ cs, ∃ c, ite.columns[p]? = some c ∧
      ∀ i ∈ is, (h.cell (tabCol (h.tab ite.df.tab) (k, c)) i).isSome)
    (rows : List (List R)) (sh : Shape rows n m) :
    ∃ rows', fillKind h ite k is cs rows = .ok rows' ∧ Shape rows' n m ∧
      (∀ p q, q ∉ cs ∨ is.length ≤ p → at2 rows' p q = at2 rows p q) ∧
      (∀ p q c i, q ∈ cs → ite.columns[q]? = some c → is[p]? = some i →
        at2 rows' p q = rawVal h (tabCol (h.tab ite.df.tab) (k, c)) k i) := by
  induction cs generalizing rows with
  | nil => exact ⟨rows, rfl, sh, fun _ _ _ => rfl, by simp⟩
  | cons x cs ih =>
    obtain ⟨c, hc, hv⟩ := hcs x (by simp)
    have hx : x < m := by rw [← hm]; exact (List.getElem?_eq_some_iff.1 hc).1
    obtain ⟨r1, e1, sh1, g1⟩ := fillRows_spec (k := k) hx is 0 rows sh (by omega) hv
    obtain ⟨r2, e2, sh2, g2, g3⟩ := ih (fun p hp => hcs p (by simp [hp])) r1 sh1
    refine ⟨r2, ?_, sh2, ?_, ?_⟩
    · simp only [fillKind, FloatBatching.name, hc, e1]; exact e2
    · intro p q h
      rw [g2 p q (by rcases h with h | h
                     · left; simp at h; grind
                     · right; exact h), g1, if_neg]
      rintro ⟨rfl, _, h2⟩
      rcases h with h | h
      · simp at h
      · omega
    · intro p q d i hq hd hi
      by_cases hqc : q ∈ cs
      · exact g3 p q d i hqc hd hi
      · have hqx : q = x := by simp at hq; grind
        subst hqx
        rw [hc] at hd; cases hd
        rw [g2 p q (Or.inl hqc), g1, if_pos ⟨rfl, by omega, by have := (List.getElem?_eq_some_iff.1 hi).1; omega⟩]
        simp [hi]

/-- The row at raw position `i`. -/
def rawRow [GoFloat32 F R] (h : Heap F) (t : Table) (kind : GoStr → Kind) (cols : List GoStr) (i : Nat) :
    List (Option R) :=
  cols.map fun c => rawVal h (tabCol t (kind c, c)) (kind c) i

theorem Idx.reslice_take {x : Idx} (hx : x.len ≤ x.data.length) {a b : Nat} (h1 : a ≤ b) (h2 : b ≤ x.len) :
    ∃ y, x.reslice a b = .ok y ∧ y.rows = (x.rows.drop a).take (b - a) := by
  refine ⟨⟨x.data.drop a, b - a⟩, ?_, ?_⟩
  · unfold Idx.reslice
    rw [if_pos ⟨by omega, by omega, by omega⟩]
    simp
  · simp only [Idx.rows, List.drop_take, List.take_take]
    congr 1; omega

/-- `df` is consistent and has the columns. -/
structure HasCols (h : Heap F) (df : DF) (kind : GoStr → Kind) (cols : List GoStr) : Prop where
  wf : df.WF h
  has : ∀ c ∈ cols, ((abs h df).col (kind c) c).isSome

theorem HasCols.cell {h : Heap F} {df : DF} {kind : GoStr → Kind} {cols : List GoStr} (hc : HasCols h df kind cols)
    {c : GoStr} (hm : c ∈ cols) {i : Nat} (hi : i ∈ df.rows) :
    (h.cell (tabCol (h.tab df.tab) (kind c, c)) i).isSome := by
  have := hc.has c hm
  simp only [abs, Option.isSome_map] at this
  obtain ⟨s, hs⟩ := Option.isSome_iff_exists.1 this
  obtain ⟨N, h1, h2, _⟩ := hc.wf.rect
  obtain ⟨v, hv⟩ := (hc.wf.slices _ _ hs).cell_some (i := i) (by rw [h1 _ _ hs]; exact h2 i hi)
  simp [tabCol, hs, hv]

theorem HasCols.expected {h : Heap F} {df : DF} {kind : GoStr → Kind} {cols : List GoStr} (hc : HasCols h df kind cols)
    {c : GoStr} (hm : c ∈ cols) {r i : Nat} (hr : df.rows[r]? = some i) :
    (abs h df).cell (kind c) c r = h.cell (tabCol (h.tab df.tab) (kind c, c)) i := by
  have := hc.has c hm
  simp only [abs, Option.isSome_map] at this
  obtain ⟨s, hs⟩ := Option.isSome_iff_exists.1 this
  simp [ADF.cell, abs, hs, tabCol, hr]

theorem refill_spec [GoFloat32 F R] {h : Heap F} {ite : Float32Iterator R} {kind : GoStr → Kind} {cols : List GoStr}
    (cl : Classified ite.toFloatBatching kind cols) (hc : HasCols h ite.df kind cols)
    (hr : ite.dfIndex ≤ ite.df.numRows) (sh : Shape ite.rows 128 cols.length) :
    ∃ rows', ite.refill h = .ok { ite with subInds := (ite.df.rows.drop ite.dfIndex).take 128, rows := rows' } ∧
      Shape rows' 128 cols.length ∧
      ∀ j i, j < 128 → ite.df.rows[ite.dfIndex + j]? = some i →
        ∃ row, rows'[j]? = some row ∧ row.map some = rawRow h (h.tab ite.df.tab) kind cols i := by
  have hlen : ite.df.idx.rows.length = ite.df.numRows := rfl
  have hil : ite.df.idx.rows.length = ite.df.idx.len := by
    have := hc.wf.idx_len; simp [Idx.rows]; omega
  have hni : ite.nextIndices = .ok ((ite.df.rows.drop ite.dfIndex).take 128) := by
    obtain ⟨y, e1, e2⟩ := Idx.reslice_take hc.wf.idx_len (a := ite.dfIndex)
      (b := if ite.dfIndex + 128 > ite.df.numRows then ite.df.numRows else ite.dfIndex + 128)
      (by split <;> omega) (by split <;> omega)
    unfold Float32Iterator.nextIndices
    simp only [e1]
    simp only [e2]
    congr 1
    split
    · rw [List.take_of_length_le (by simp; omega), List.take_of_length_le (by simp [DF.rows]; omega)]; rfl
    · rw [show ite.dfIndex + 128 - ite.dfIndex = 128 by omega]; rfl
  obtain ⟨is, his⟩ : ∃ is, is = (ite.df.rows.drop ite.dfIndex).take 128 := ⟨_, rfl⟩
  rw [← his] at hni ⊢
  have hisl : is.length ≤ 128 := by rw [his]; simp; omega
  have hmem : ∀ i ∈ is, i ∈ ite.df.rows := by
    intro i hi; rw [his] at hi; exact List.drop_subset _ _ (List.take_subset _ _ hi)
  obtain ⟨ite', hite'⟩ : ∃ x : Float32Iterator R, x = { ite with subInds := is } := ⟨_, rfl⟩
  have hcs : ∀ k, ∀ p ∈ ite.toFloatBatching.cols k, ∃ c, ite'.columns[p]? = some c ∧
      ∀ i ∈ is, (h.cell (tabCol (h.tab ite'.df.tab) (k, c)) i).isSome := by
    intro k p hp
    obtain ⟨c, h1, rfl⟩ := (cl.mem k p).1 hp
    refine ⟨c, by rw [hite']; simp only [cl.columns]; exact h1, ?_⟩
    intro i hi
    rw [hite']
    exact hc.cell (List.mem_of_getElem? h1) (hmem i hi)
  have hm : ite'.columns.length = cols.length := by rw [hite']; simp [cl.columns]
  obtain ⟨r1, e1, sh1, a1, b1⟩ := fillKind_spec hm hisl (ite.bColumns) (hcs .bool) ite.rows sh
  obtain ⟨r2, e2, sh2, a2, b2⟩ := fillKind_spec hm hisl (ite.iColumns) (hcs .int) r1 sh1
  obtain ⟨r3, e3, sh3, a3, b3⟩ := fillKind_spec hm hisl (ite.fColumns) (hcs .float) r2 sh2
  refine ⟨r3, ?_, sh3, ?_⟩
  · unfold Float32Iterator.refill
    simp only [hni]
    rw [hite'] at e1 e2 e3
    simp only [e1, e2, e3]
  · intro j i hj hi
    have hij : is[j]? = some i := by
      rw [his, List.getElem?_take_of_lt hj, List.getElem?_drop]; exact hi
    have hjr : j < r3.length := by rw [sh3.1]; exact hj
    refine ⟨r3[j], List.getElem?_eq_getElem hjr, ?_⟩
    have hrl := sh3.2 j _ (List.getElem?_eq_getElem hjr)
    apply List.ext_getElem?
    intro q
    by_cases hq : q < cols.length
    · have hcq : cols[q]? = some cols[q] := List.getElem?_eq_getElem hq
      have hmq := List.getElem_mem hq
      have hval : at2 r3 j q = rawVal h (tabCol (h.tab ite.df.tab) (kind cols[q], cols[q])) (kind cols[q]) i := by
        have hcol : ite'.columns[q]? = some cols[q] := by rw [hite']; simp only [cl.columns]; exact hcq
        have hdf : ite'.df = ite.df := by rw [hite']
        have inn : ∀ k, q ∈ ite.toFloatBatching.cols k ↔ kind cols[q] = k := by
          intro k; rw [cl.mem, hcq]; simp
        have mb := inn .bool
        have mi := inn .int
        have mf := inn .float
        simp only [FloatBatching.cols] at mb mi mf
        cases hk : kind cols[q] with
        | obj => exact absurd hk (cl.num _ hmq)
        | float =>
          rw [b3 j q _ i (mf.2 hk) hcol hij, hdf]
        | int =>
          rw [a3 j q (Or.inl (by rw [mf, hk]; simp)), b2 j q _ i (mi.2 hk) hcol hij, hdf]
        | bool =>
          rw [a3 j q (Or.inl (by rw [mf, hk]; simp)), a2 j q (Or.inl (by rw [mi, hk]; simp)),
            b1 j q _ i (mb.2 hk) hcol hij, hdf]
      simp only [at2, List.getElem?_eq_getElem hjr, Option.bind_some] at hval
      rw [List.getElem?_map, hval]
      simp only [rawRow, List.getElem?_map, hcq, Option.map_some]
      have hin : i ∈ ite.df.rows := List.mem_of_getElem? hi
      obtain ⟨v, hv⟩ := Option.isSome_iff_exists.1 (hc.cell hmq hin)
      simp [rawVal, hv]
    · rw [List.getElem?_eq_none (by simp; omega), List.getElem?_eq_none (by simp [rawRow]; omega)]

/-- The state of an iterator of which `r` rows of `df` have been delivered; `last` is the buffer row that was
delivered last. -/
structure IterInv [GoFloat32 F R] (h : Heap F) (kind : GoStr → Kind) (cols : List GoStr) (ite : Float32Iterator R)
    (df : DF) (r last : Nat) : Prop where
  cl : Classified ite.toFloatBatching kind cols
  hc : HasCols h df kind cols
  dfe : ite.df = df
  idx : ite.dfIndex = r
  le : r ≤ df.numRows
  off : ite.rowOffset = r % 128
  shape : Shape ite.rows 128 cols.length
  buf : ite.rowOffset ≠ 0 → ite.subInds = (df.rows.drop (r - r % 128)).take 128 ∧
    ∀ j i, r % 128 ≤ j → j < 128 → df.rows[r - r % 128 + j]? = some i →
      ∃ row, ite.rows[j]? = some row ∧ row.map some = rawRow h (h.tab df.tab) kind cols i
  last : ite.rowOffset = 0 ∨ last < ite.rowOffset

theorem alloc_eq {h : Heap F} {df : DF} (wf : df.WF h) : numAllocatedRows (h.tab df.tab) = allocRows h df := by
  unfold allocRows
  cases ht : h.tab df.tab with
  | nil => rfl
  | cons e es =>
    obtain ⟨N, h1, _, _⟩ := wf.rect
    have := wf.numAllocated (by rw [ht]; simp) h1
    rw [ht] at this
    rw [this]
    exact (h1 e.1 e.2 (AMap.get_of_mem wf.keys (by rw [ht]; simp))).symm

theorem nextRow_spec [GoFloat32 F R] {h : Heap F} {kind : GoStr → Kind} {cols : List GoStr} {ite : Float32Iterator R}
    {df : DF} {r last : Nat} (inv : IterInv h kind cols ite df r last) :
    ∃ o ite', ite.nextRow h = .ok (o, ite') ∧
      (o.1.map (·.map some), o.2.1, o.2.2) = expectedRow h kind cols df r ∧
      IterInv h kind cols ite' df (min (r + 1) df.numRows) (if o.1.isSome then ite.rowOffset else last) := by
  unfold Float32Iterator.nextRow
  rw [inv.idx, inv.dfe]
  by_cases hr : r = df.numRows
  · rw [if_pos hr]
    refine ⟨_, _, rfl, ?_, ?_⟩
    · have : df.rows[r]? = none := List.getElem?_eq_none (by rw [hr]; exact Nat.le_refl _)
      simp only [expectedRow, this, Option.map_none]
      rw [alloc_eq inv.hc.wf]; rfl
    · rw [show min (r + 1) df.numRows = r by omega]; exact inv
  · rw [if_neg hr]
    have hlt : r < df.numRows := by have := inv.le; omega
    have hlt' : r < df.rows.length := hlt
    obtain ⟨i, hi⟩ : ∃ i, df.rows[r]? = some i := ⟨_, List.getElem?_eq_getElem hlt'⟩
    -- the iterator once its buffer holds row `r`
    have key : ∃ ite1 : Float32Iterator R, (if ite.rowOffset = 0 then ite.refill h else .ok ite) = .ok ite1 ∧
        ite1.toFloatBatching = ite.toFloatBatching ∧ ite1.df = df ∧ ite1.dfIndex = r ∧ ite1.rowOffset = r % 128 ∧
        Shape ite1.rows 128 cols.length ∧ ite1.subInds = (df.rows.drop (r - r % 128)).take 128 ∧
        ∀ j i, r % 128 ≤ j → j < 128 → df.rows[r - r % 128 + j]? = some i →
          ∃ row, ite1.rows[j]? = some row ∧ row.map some = rawRow h (h.tab df.tab) kind cols i := by
      by_cases h0 : ite.rowOffset = 0
      · have hm : r % 128 = 0 := by rw [← inv.off]; exact h0
        rw [if_pos h0]
        obtain ⟨rows', e, sh', hb⟩ := refill_spec inv.cl (by rw [inv.dfe]; exact inv.hc)
          (by rw [inv.idx, inv.dfe]; omega) inv.shape
        refine ⟨_, e, rfl, inv.dfe, inv.idx, inv.off, sh', ?_, ?_⟩
        · simp only [inv.dfe, inv.idx, hm, Nat.sub_zero]
        · intro j i _ hj hi
          rw [inv.dfe, inv.idx] at hb
          rw [hm, Nat.sub_zero] at hi
          exact hb j i hj hi
      · rw [if_neg h0]
        obtain ⟨b1, b2⟩ := inv.buf h0
        exact ⟨ite, rfl, rfl, inv.dfe, inv.idx, inv.off, inv.shape, b1, b2⟩
    obtain ⟨ite1, e1, k1, k2, k3, k4, k5, k6, k7⟩ := key
    rw [e1]
    have hsum : r - r % 128 + r % 128 = r := by have := Nat.mod_le r 128; omega
    have hmod : r % 128 < 128 := Nat.mod_lt _ (by decide)
    obtain ⟨row, hrow, hrv⟩ := k7 (r % 128) i (Nat.le_refl _) hmod (by rw [hsum]; exact hi)
    have hsub : ite1.subInds[ite1.rowOffset]? = some i := by
      rw [k4, k6, List.getElem?_take_of_lt hmod, List.getElem?_drop, hsum]; exact hi
    rw [← k4] at hrow
    simp only [hrow, hsub]
    refine ⟨_, _, rfl, ?_, ?_⟩
    · simp only [expectedRow, hi, Option.map_some, Prod.mk.injEq, Option.some.injEq]
      refine ⟨?_, by omega, trivial⟩
      rw [hrv]
      apply List.map_congr_left
      intro c hc
      rw [inv.hc.expected hc hi]; rfl
    · have hro : (ite1.rowOffset + 1) % ite1.rows.length = (r + 1) % 128 := by
        rw [k5.1, k4]; omega
      have hmin : min (r + 1) df.numRows = r + 1 := by omega
      rw [hmin]
      refine ⟨by simp only [k1]; exact inv.cl, inv.hc, k2, by simp only [k3], hlt, hro, k5, ?_, ?_⟩
      · simp only [hro]
        intro hne
        have h1 : (r + 1) % 128 = r % 128 + 1 := by omega
        have h2 : r + 1 - (r + 1) % 128 = r - r % 128 := by omega
        rw [h2]
        exact ⟨k6, fun j i hj => k7 j i (by omega)⟩
      · simp only [hro, Option.isSome_some, if_true, inv.off]
        omega

theorem reset_checked {h : Heap F} {ite : Float32Iterator R} {kind : GoStr → Kind} {cols : List GoStr} {df : DF}
    (cl : Classified ite.toFloatBatching kind cols) (k : Kind) (ps : List Nat) (hps : ∀ p ∈ ps, p ∈ ite.toFloatBatching.cols k) :
    (checkCols ite.toFloatBatching (h.tab df.tab) k ps = .ok () ↔
      ∀ p ∈ ps, ∀ c, cols[p]? = some c → ((abs h df).col k c).isSome) ∧
    (checkCols ite.toFloatBatching (h.tab df.tab) k ps ≠ .ok () →
      checkCols ite.toFloatBatching (h.tab df.tab) k ps = .error .panic) := by
  induction ps with
  | nil => simp [checkCols]
  | cons p ps ih =>
    obtain ⟨c, hc, hk⟩ := (cl.mem k p).1 (hps p (by simp))
    have hn : ite.toFloatBatching.name p = .ok c := by simp [FloatBatching.name, cl.columns, hc]
    have ih := ih (fun q hq => hps q (by simp [hq]))
    simp only [checkCols, hn]
    by_cases hs : (AMap.get (h.tab df.tab) (k, c)).isSome
    · rw [if_pos hs]
      refine ⟨?_, ih.2⟩
      rw [ih.1]
      constructor
      · intro hh q hq d hd
        rcases List.mem_cons.1 hq with rfl | hq
        · rw [hc] at hd; cases hd; simpa [abs] using hs
        · exact hh q hq d hd
      · intro hh q hq; exact hh q (by simp [hq])
    · rw [if_neg hs]
      refine ⟨?_, fun _ => rfl⟩
      constructor
      · intro h; cases h
      · intro hh
        have := hh p (by simp) c hc
        simp only [abs, Option.isSome_map] at this
        exact absurd this hs

/-- `Reset` with or without the check. -/
theorem reset_spec [GoFloat32 F R] {h : Heap F} {kind : GoStr → Kind} {cols : List GoStr} {ite : Float32Iterator R}
    {d0 df : DF} {r last : Nat} (inv : IterInv h kind cols ite d0 r last) (hc : HasCols h df kind cols) (check : Bool) :
    ∃ ite', ite.reset df check h = .ok ite' ∧ IterInv h kind cols ite' df 0 last := by
  have hok : ∀ k, checkCols ite.toFloatBatching (h.tab df.tab) k (ite.toFloatBatching.cols k) = .ok () := by
    intro k
    refine (reset_checked inv.cl k _ (fun p hp => hp)).1.2 ?_
    intro p hp c hpc
    obtain ⟨c', h1, rfl⟩ := (inv.cl.mem k p).1 hp
    rw [hpc] at h1; cases h1
    exact hc.has c (List.mem_of_getElem? hpc)
  have hb := hok .bool
  have hi := hok .int
  have hf := hok .float
  simp only [FloatBatching.cols] at hb hi hf
  refine ⟨{ ite with rowOffset := 0, dfIndex := 0, df := df }, ?_, ?_⟩
  · unfold Float32Iterator.reset
    cases check <;> simp [hb, hi, hf]
  · exact ⟨inv.cl, hc, rfl, rfl, Nat.zero_le _, rfl, inv.shape, fun h => absurd rfl h, Or.inl rfl⟩

theorem scribble_spec [GoFloat32 F R] {h : Heap F} {kind : GoStr → Kind} {cols : List GoStr} {ite : Float32Iterator R}
    {df : DF} {r last : Nat} (inv : IterInv h kind cols ite df r last) (new : List R) :
    IterInv h kind cols { ite with rows := scribbleRow ite.rows last new } df r last := by
  refine ⟨inv.cl, inv.hc, inv.dfe, inv.idx, inv.le, inv.off, ?_, ?_, inv.last⟩
  · refine ⟨by simp [scribbleRow, inv.shape.1], ?_⟩
    intro p row hp
    simp only [scribbleRow, List.getElem?_modify, Option.map_eq_map, Option.map_eq_some_iff] at hp
    obtain ⟨old, ho, rfl⟩ := hp
    have := inv.shape.2 p old ho
    split <;> (try split) <;> simp_all
  · intro hne
    obtain ⟨b1, b2⟩ := inv.buf hne
    refine ⟨b1, ?_⟩
    intro j i hj hj2 hi
    obtain ⟨row, h1, h2⟩ := b2 j i hj hj2 hi
    refine ⟨row, ?_, h2⟩
    have hlast := inv.last
    have hoff := inv.off
    simp only at hne
    simp only [scribbleRow, List.getElem?_modify]
    rw [h1]
    simp only [Option.map_eq_map, Option.map_some]
    rw [if_neg (by omega)]

theorem runIter_spec [GoFloat32 F R] {h : Heap F} {kind : GoStr → Kind} {cols : List GoStr} (es : List (IterEv R))
    (hl : ∀ e ∈ es, e.Legal h kind cols) {ite : Float32Iterator R} {df : DF} {r last : Nat}
    (inv : IterInv h kind cols ite df r last) :
    ∃ os, runIter h es last ite = .ok os ∧
      os.map (fun o => (o.1.map (·.map some), o.2.1, o.2.2)) = expectedRows h kind cols es df r := by
  induction es generalizing ite df r last with
  | nil => exact ⟨[], rfl, rfl⟩
  | cons e es ih =>
    have hl' := fun e he => hl e (List.mem_cons_of_mem _ he)
    cases e with
    | next =>
      obtain ⟨o, ite', e1, e2, inv'⟩ := nextRow_spec inv
      obtain ⟨os, e3, e4⟩ := ih hl' inv'
      refine ⟨o :: os, ?_, ?_⟩
      · simp only [runIter, e1, e3]
      · simp only [List.map_cons, expectedRows, e2, e4]; rfl
    | reset d c =>
      have := hl _ (List.mem_cons_self ..)
      obtain ⟨ite', e1, inv'⟩ := reset_spec inv ⟨this.1, this.2⟩ c
      obtain ⟨os, e3, e4⟩ := ih hl' inv'
      exact ⟨os, by simp only [runIter, e1, e3], e4⟩
    | scribble row =>
      obtain ⟨os, e3, e4⟩ := ih hl' (scribble_spec inv row)
      exact ⟨os, by simp only [runIter]; exact e3, e4⟩

end Verif
