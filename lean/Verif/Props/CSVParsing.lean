import Verif.Proofs.CSVParsing
import Verif.Proofs.Literals
import Verif.Props.Demo

/-! C30, C31: reading CSV. -/

namespace Verif
open scoped Demo
variable {F : Type}

theorem rowByRow_iff {p : GoStr → Val F → Prop} {f : GoStr → Val F} {cells : List GoStr}
    (hp : ∀ v ∈ cells, ∀ x, p v x ↔ x = f v) (vs : List (Val F)) : RowByRow p cells vs ↔ vs = cells.map f := by
  induction cells generalizing vs with
  | nil => simp [RowByRow]
  | cons v cs ih =>
    cases vs with
    | nil => simp [RowByRow]
    | cons x xs =>
      have := ih (fun w hw => hp w (by simp [hw])) xs
      simp only [RowByRow, List.forall₂_cons, List.map_cons, List.cons.injEq] at this ⊢
      rw [hp v (by simp), this]

theorem zip_map_self {α β γ : Type} (l : List α) (g : α → β) (f : α × β → γ) :
    (l.zip (l.map g)).map f = l.map fun a => f (a, g a) := by
  induction l with
  | nil => rfl
  | cons a l ih => simp [ih]

theorem zip_all_self {α β : Type} (l : List α) (g : α → β) (f : α × β → Bool) :
    (l.zip (l.map g)).all f = l.all fun a => f (a, g a) := by
  induction l with
  | nil => rfl
  | cons a l ih => simp [ih]

theorem isBool_iff {cells : List GoStr} : isBool cells = true ↔ ∀ v ∈ cells, BoolCell v := by
  simp [isBool, BoolCell, ← parseBool_iff, Option.isSome_iff_exists]

theorem isBinary_iff {cells : List GoStr} : isBinary cells = true ↔ ∀ v ∈ cells, v = b!"0" ∨ v = b!"1" := by
  unfold isBinary
  simp only [List.all_eq_true]
  constructor
  · intro h v hv
    have := h v hv
    grind
  · intro h v hv
    have := h v hv
    grind

theorem binary_bool {v : GoStr} (h : v = b!"0" ∨ v = b!"1") : BoolCell v := by
  rcases h with rfl | rfl
  · exact ⟨false, .zero⟩
  · exact ⟨true, .one⟩

theorem isInt_iff {spec : CSVReadingSpec} {cells : List GoStr} :
    isInt cells (missOf spec cells) = true ↔ ∀ v ∈ cells, IntCell spec.missingValues v := by
  unfold isInt missOf
  rw [zip_all_self]
  simp [IntCell, ← parseInt_iff, Option.isSome_iff_exists]

theorem isFloat_iff {pf : GoStr → Option F} {spec : CSVReadingSpec} {cells : List GoStr} :
    isFloat pf cells (missOf spec cells) = true ↔ ∀ v ∈ cells, FloatCell pf spec.missingValues v := by
  unfold isFloat missOf
  rw [zip_all_self]
  simp [FloatCell, Option.isSome_iff_exists]

theorem toBool_iff {cells : List GoStr} (h : ∀ v ∈ cells, BoolCell v) (vs : List (Val F)) :
    RowByRow AsBool cells vs ↔ vs = toBool cells := by
  apply rowByRow_iff
  intro v hv x
  obtain ⟨b, hb⟩ := h v hv
  have hb' := parseBool_iff.2 hb
  simp [AsBool, ← parseBool_iff, hb']

theorem toInt_iff {spec : CSVReadingSpec} {cells : List GoStr} (h : ∀ v ∈ cells, IntCell spec.missingValues v)
    (vs : List (Val F)) : RowByRow (AsInt spec.missingValues) cells vs ↔ vs = toInt cells (missOf spec cells) := by
  unfold toInt missOf
  rw [zip_map_self]
  apply rowByRow_iff
  intro v hv x
  by_cases hm : v ∈ spec.missingValues
  · simp [AsInt, hm]
  · rcases h v hv with h | ⟨n, hn⟩
    · exact absurd h hm
    · have hn' := parseInt_iff.2 hn
      simp [AsInt, ← parseInt_iff, hm, hn']

theorem toFloat_iff [GoFloat F] {pf : GoStr → Option F} {spec : CSVReadingSpec} {cells : List GoStr}
    (h : ∀ v ∈ cells, FloatCell pf spec.missingValues v) (vs : List (Val F)) :
    RowByRow (AsFloat pf spec.missingValues) cells vs ↔ vs = toFloat pf cells (missOf spec cells) := by
  unfold toFloat missOf
  rw [zip_map_self]
  apply rowByRow_iff
  intro v hv x
  by_cases hm : v ∈ spec.missingValues
  · simp [AsFloat, hm]
  · rcases h v hv with h | ⟨n, hn⟩
    · exact absurd h hm
    · simp [AsFloat, hm, hn]

theorem toStrings_iff {spec : CSVReadingSpec} {cells : List GoStr} (vs : List (Val F)) :
    RowByRow (AsString spec.missingValues) cells vs ↔ vs = toStrings cells (missOf spec cells) := by
  unfold toStrings missOf
  rw [zip_map_self]
  apply rowByRow_iff
  intro v hv x
  by_cases hm : v ∈ spec.missingValues <;> simp [AsString, hm]

/-- The conversion options are the default ones. -/
def CSVReadingSpec.Default (spec : CSVReadingSpec) : Prop :=
  spec.intAsFloat = false ∧ spec.boolAsFloat = false ∧ spec.binaryAsFloat = false

theorem csvKind_default [GoFloat F] {pf : GoStr → Option F} {spec : CSVReadingSpec} (hd : spec.Default) {cells : List GoStr}
    {k : Kind} {vs : List (Val F)} : csvKind pf spec cells = (k, vs) ↔ Inferred pf spec.missingValues cells k vs := by
  obtain ⟨h1, h2, h3⟩ := hd
  unfold csvKind
  simp only [h1, h2, h3, Bool.not_false, Bool.true_and]
  have hb : (isBinary cells || isBool cells) = true ↔ ∀ v ∈ cells, BoolCell v := by
    rw [Bool.or_eq_true, isBinary_iff, isBool_iff]
    exact ⟨fun h => h.elim (fun h v hv => binary_bool (h v hv)) id, Or.inr⟩
  by_cases hB : ∀ v ∈ cells, BoolCell v
  · rw [if_pos (hb.2 hB)]
    constructor
    · intro e; cases e; exact .bool hB ((toBool_iff hB _).2 rfl)
    · intro h
      cases h with
      | bool _ r => rw [(toBool_iff hB _).1 r]
      | int h _ _ => exact absurd hB h
      | float h _ _ _ => exact absurd hB h
      | str h _ _ _ => exact absurd hB h
  · rw [if_neg (fun h => hB (hb.1 h))]
    by_cases hI : ∀ v ∈ cells, IntCell spec.missingValues v
    · rw [if_pos (isInt_iff.2 hI)]
      constructor
      · intro e; cases e; exact .int hB hI ((toInt_iff hI _).2 rfl)
      · intro h
        cases h with
        | bool h _ => exact absurd h hB
        | int _ _ r => rw [(toInt_iff hI _).1 r]
        | float _ h _ _ => exact absurd hI h
        | str _ h _ _ => exact absurd hI h
    · rw [if_neg (fun h => hI (isInt_iff.1 h))]
      by_cases hF : ∀ v ∈ cells, FloatCell pf spec.missingValues v
      · rw [if_pos (isFloat_iff.2 hF)]
        constructor
        · intro e; cases e; exact .float hB hI hF ((toFloat_iff hF _).2 rfl)
        · intro h
          cases h with
          | bool h _ => exact absurd h hB
          | int _ h _ => exact absurd h hI
          | float _ _ _ r => rw [(toFloat_iff hF _).1 r]
          | str _ _ h _ => exact absurd hF h
      · rw [if_neg (fun h => hF (isFloat_iff.1 h))]
        constructor
        · intro e; cases e; exact .str hB hI hF ((toStrings_iff _).2 rfl)
        · intro h
          cases h with
          | bool h _ => exact absurd h hB
          | int _ h _ => exact absurd h hI
          | float _ _ h _ => exact absurd h hF
          | str _ _ _ r => rw [(toStrings_iff _).1 r]

/-- The documented rule gives every column exactly one kind and one list of values. -/
theorem Inferred.unique [GoFloat F] (pf : GoStr → Option F) (missing cells : List GoStr) :
    ∃ (k : Kind) (vs : List (Val F)), Inferred pf missing cells k vs ∧ vs.length = cells.length ∧
      ∀ k' vs', Inferred pf missing cells k' vs' → k' = k ∧ vs' = vs := by
  let spec : CSVReadingSpec := ⟨0, [], [], missing, false, false, false, none⟩
  have hd : spec.Default := ⟨rfl, rfl, rfl⟩
  have key := fun k (vs : List (Val F)) => csvKind_default (pf := pf) hd (cells := cells) (k := k) (vs := vs)
  generalize csvKind pf spec cells = p at key
  obtain ⟨k, vs⟩ := p
  refine ⟨k, vs, (key k vs).1 rfl, ?_, fun k' vs' h => ?_⟩
  · have h : Inferred pf missing cells k vs := (key k vs).1 rfl
    cases h with
    | bool _ r => exact r.length_eq.symm
    | int _ _ r => exact r.length_eq.symm
    | float _ _ _ r => exact r.length_eq.symm
    | str _ _ _ r => exact r.length_eq.symm
  · have := (key k' vs').2 h
    cases this
    exact ⟨rfl, rfl⟩

/-- **C30**. With the default conversion options `FromCSV` stores exactly the columns of the header that are not
excluded, each with the kind and the values given by the documented rule applied to its cells, and marks
exactly the fallback columns as string columns. It does so in whatever order and on whatever goroutines the
columns are parsed. Nothing that existed before is altered. -/
theorem C30_fromCSV [GoFloat F] (pf : GoStr → Option F) {jobs : List GoStr → List GoStr} (hj : ∀ l, (jobs l).Perm l)
    (who : GoStr → Nat) {inp : CsvInput} {spec : CSVReadingSpec} (hd : spec.Default) {header : List GoStr}
    {records : List (List GoStr)} (hh : Holds spec inp header records) (hemp : [] ∈ header → [] ∈ spec.exclude) (h : Heap F) :
    ∃ r h', fromCSV pf jobs who inp spec h = .ok (some r, h') ∧ r.WF h' ∧ Heap.Ext h h' ∧ r.enc = spec.encoding ∧
      (∀ c ∈ header, c ∉ spec.exclude → ∀ k vs,
        rawCol h' r k c = some vs ↔ Inferred pf spec.missingValues (cellsUnder header records c) k vs) ∧
      (∀ c, ¬ (c ∈ header ∧ c ∉ spec.exclude) → ∀ k, rawCol h' r k c = none) ∧
      (∀ c, rawStr h' r c = true ↔ (rawCol h' r .obj c).isSome) := by
  obtain ⟨r, h', e, wf, ext, enc, _, col, str⟩ := fromCSV_spec pf hj who hh hemp h
  refine ⟨r, h', e, wf, ext, enc, ?_, ?_, ?_⟩
  · intro c hc hx k vs
    rw [← csvKind_default hd, col]
    generalize csvKind pf spec (cellsUnder header records c) = p
    obtain ⟨k', vs'⟩ := p
    by_cases hk : k' = k
    · simp [hc, hx, hk]
    · simp [hk]
  · intro c hc k
    rw [col, if_neg (fun h => hc ⟨h.1, h.2.1⟩)]
  · intro c
    rw [str, col]
    simp only [decide_eq_true_eq]
    split
    · rename_i hx; simp [hx]
    · rename_i hx; simp only [hx, Option.isSome_none]; simp

/-- **C30**, the dataframe. When at least one column is read, the structure converts to a dataframe with one row
per record, showing the columns of the documented rule. -/
theorem C30_dataframe [GoFloat F] (pf : GoStr → Option F) {jobs : List GoStr → List GoStr} (hj : ∀ l, (jobs l).Perm l)
    (who : GoStr → Nat) {inp : CsvInput} {spec : CSVReadingSpec} (hd : spec.Default) {header : List GoStr}
    {records : List (List GoStr)} (hh : Holds spec inp header records) (hemp : [] ∈ header → [] ∈ spec.exclude)
    (hone : ∃ c ∈ header, c ∉ spec.exclude) (h : Heap F) :
    ∃ r h1 df h2, fromCSV pf jobs who inp spec h = .ok (some r, h1) ∧ r.toDataFrame h1 = .ok (df, h2) ∧ df.WF h2 ∧
      (abs h2 df).nRows = records.length ∧ (abs h2 df).enc = spec.encoding ∧
      (∀ c ∈ header, c ∉ spec.exclude → ∀ k vs, (abs h2 df).col k c = some (vs.map some) ↔
        Inferred pf spec.missingValues (cellsUnder header records c) k vs) ∧
      (∀ c, ¬ (c ∈ header ∧ c ∉ spec.exclude) → ∀ k, (abs h2 df).col k c = none) ∧
      (∀ c, (abs h2 df).isStr c = true ↔ ((abs h2 df).col .obj c).isSome) := by
  obtain ⟨r, h1, e, wf, _, enc, col, ncol, str⟩ := C30_fromCSV pf hj who hd hh hemp h
  -- every column has as many values as there are records
  have hlen : ∀ k c vs, rawCol h1 r k c = some vs → vs.length = records.length := by
    intro k c vs hv
    by_cases hc : c ∈ header ∧ c ∉ spec.exclude
    · obtain ⟨k', vs', _, hl, hu⟩ := Inferred.unique pf spec.missingValues (cellsUnder header records c)
      obtain ⟨_, rfl⟩ := hu _ _ ((col c hc.1 hc.2 k vs).1 hv)
      rw [hl]; simp [cellsUnder]
    · rw [ncol c hc k] at hv; cases hv
  have hN : ∀ k s, AMap.get (h1.tab r.tab) k = some s → s.len = records.length := by
    intro ⟨k, c⟩ s hs
    rw [← (wf.slices _ _ hs).read_length]
    exact hlen k c _ (by unfold rawCol; rw [hs]; rfl)
  have hne : h1.tab r.tab ≠ [] := by
    obtain ⟨c, hc, hx⟩ := hone
    obtain ⟨k, vs, hi, _⟩ := Inferred.unique pf spec.missingValues (cellsUnder header records c)
    have := (col c hc hx k vs).2 hi
    intro h0
    unfold rawCol at this
    rw [h0] at this
    cases this
  obtain ⟨df, h2, e2, wf2, _, _, hrows, _, htab, hstr, henc, _, t1, t2, t3⟩ := toDataFrame_ok wf hN hne
  have habs : ∀ k c, (abs h2 df).col k c = (rawCol h1 r k c).map (fun vs => vs.map some) := by
    intro k c
    unfold abs rawCol
    simp only [htab, t1, Option.map_map]
    cases hg : AMap.get (h1.tab r.tab) (k, c) with
    | none => rfl
    | some s =>
      simp only [Option.map_some, Function.comp, Option.some.injEq]
      have hl := (wf.slices _ _ hg).read_length
      have hs := hN _ _ hg
      rw [hrows]
      apply List.ext_getElem
      · simp [hl, hs]
      · intro i hi1 hi2
        simp only [List.getElem_map, List.getElem_range]
        rw [Heap.cell_eq_read]
        have : h2.read s = h1.read s := by unfold Heap.read; rw [t2]
        rw [this]
        simp at hi2
        exact List.getElem?_eq_getElem _
  refine ⟨r, h1, df, h2, e, e2, wf2, ?_, ?_, ?_, ?_, ?_⟩
  · show df.numRows = _
    rw [DF.numRows, hrows, List.length_range]
  · show df.enc = _
    rw [henc, enc]
  · intro c hc hx k vs
    rw [habs, ← col c hc hx k vs]
    cases rawCol h1 r k c with
    | none => simp
    | some ws =>
      simp only [Option.map_some, Option.some.injEq]
      exact ⟨fun h => List.map_injective_iff.2 (fun _ _ e => Option.some.inj e) h, fun h => by rw [h]⟩
  · intro c hc k
    rw [habs, ncol c hc k]; rfl
  · intro c
    rw [habs, Option.isSome_map, ← str c]
    unfold abs rawStr
    simp only [hstr]
    unfold hdrList
    rw [t3]

theorem readTable_bad {inp : CsvInput} {spec : CSVReadingSpec}
    (hb : inp.fails = true ∨ (∃ a ∈ inp.records, ∃ b ∈ inp.records, a.length ≠ b.length) ∨
      (spec.header = [] ∧ inp.records = [])) :
    readTable spec inp = none := by
  unfold readTable
  have hr : (inp.fails = true ∨ (∃ a ∈ inp.records, ∃ b ∈ inp.records, a.length ≠ b.length)) → readAll inp = none := by
    intro hx
    unfold readAll
    split
    · rename_i h0
      rcases hx with hx | ⟨a, ha, _⟩
      · simp [hx]
      · rw [h0] at ha; cases ha
    · rename_i r rs h0
      rw [if_neg]
      rintro ⟨hf, hall⟩
      rcases hx with hx | ⟨a, ha, b, hb, hne⟩
      · rw [hx] at hf; cases hf
      · rw [h0] at ha hb
        have hl : ∀ x ∈ r :: rs, x.length = r.length := by
          intro x hx
          rcases List.mem_cons.1 hx with rfl | hx
          · rfl
          · simpa using List.all_eq_true.1 hall x hx
        exact hne ((hl a ha).trans (hl b hb).symm)
  split
  · split
    · rfl
    · rename_i h0 r rs h1
      rw [hr]
      rcases hb with hb | hb | ⟨_, hb⟩
      · exact Or.inl hb
      · exact Or.inr hb
      · rw [h1] at hb; cases hb
  · rename_i h0
    rw [hr]
    · rfl
    · rcases hb with hb | hb | ⟨hb, _⟩
      · exact Or.inl hb
      · exact Or.inr hb
      · rw [hb] at h0; exact absurd rfl h0

/-- C30, the errors. A syntax error, records of different lengths and an empty text without a header are
reported, and nothing is altered. -/
theorem C30_errors [GoFloat F] (pf : GoStr → Option F) (jobs : List GoStr → List GoStr) (who : GoStr → Nat)
    {inp : CsvInput} {spec : CSVReadingSpec} (h : Heap F)
    (hb : inp.fails = true ∨ (∃ a ∈ inp.records, ∃ b ∈ inp.records, a.length ≠ b.length) ∨
      (spec.header = [] ∧ inp.records = [])) :
    fromCSV pf jobs who inp spec h = .ok (none, h) := by
  unfold fromCSV
  rw [readTable_bad hb]

/-- C30 does not hold of a header with an empty name (for instance the index column that other tools write):
`FromCSV` never returns. -/
theorem C30_empty_name_hangs [GoFloat F] (pf : GoStr → Option F) (jobs : List GoStr → List GoStr) (who : GoStr → Nat)
    {inp : CsvInput} {spec : CSVReadingSpec} {header : List GoStr} {records : List (List GoStr)}
    (hh : Holds spec inp header records) (hemp : [] ∈ header) (hx : [] ∉ spec.exclude) (h : Heap F) :
    fromCSV pf jobs who inp spec h = .error .hang := by
  unfold fromCSV
  rw [readTable_ok hh]
  simp only
  generalize csvWorkers records.length _ h = p
  obtain ⟨ws, h1⟩ := p
  have hm : ([] : GoStr) ∈ csvColumns header spec.exclude := mem_csvColumns.2 ⟨hemp, hx⟩
  unfold runQueue
  rw [if_neg (by intro h0; rw [h0] at hm; cases hm), if_pos (Or.inr hm)]

/-! #### C31 -/

/-- **C31** (ints). With `IntAsFloat` no int column is produced. -/
theorem C31_no_ints [GoFloat F] (pf : GoStr → Option F) {jobs : List GoStr → List GoStr} (hj : ∀ l, (jobs l).Perm l)
    (who : GoStr → Nat) {inp : CsvInput} {spec : CSVReadingSpec} (hi : spec.intAsFloat = true) {header : List GoStr}
    {records : List (List GoStr)} (hh : Holds spec inp header records) (hemp : [] ∈ header → [] ∈ spec.exclude) (h : Heap F) :
    ∃ r h', fromCSV pf jobs who inp spec h = .ok (some r, h') ∧ ∀ c, rawCol h' r .int c = none := by
  obtain ⟨r, h', e, _, _, _, _, col, _⟩ := fromCSV_spec pf hj who hh hemp h
  refine ⟨r, h', e, fun c => ?_⟩
  rw [col, if_neg]
  rintro ⟨_, _, hk⟩
  revert hk
  unfold csvKind
  rw [hi]
  simp only [Bool.not_true, Bool.false_and, Bool.false_eq_true, if_false]
  split
  · simp
  · split <;> simp

/-- **C31** (binary). With `BinaryAsFloat` and `IntAsFloat` a column of 0 and 1 is read as floats. (Without
`IntAsFloat` it is not: `C31_binary_refuted`.) -/
theorem C31_binary_partial [GoFloat F] (pf : GoStr → Option F) {jobs : List GoStr → List GoStr} (hj : ∀ l, (jobs l).Perm l)
    (who : GoStr → Nat) {inp : CsvInput} {spec : CSVReadingSpec} (hb : spec.binaryAsFloat = true) (hi : spec.intAsFloat = true)
    (h0 : pf b!"0" = some GoFloat.zero) (h1 : pf b!"1" = some GoFloat.one)
    {header : List GoStr} {records : List (List GoStr)} (hh : Holds spec inp header records)
    (hemp : [] ∈ header → [] ∈ spec.exclude) (h : Heap F) :
    ∃ r h', fromCSV pf jobs who inp spec h = .ok (some r, h') ∧
      ∀ c ∈ header, c ∉ spec.exclude → (∀ v ∈ cellsUnder header records c, v = b!"0" ∨ v = b!"1") →
        b!"0" ∉ spec.missingValues → b!"1" ∉ spec.missingValues →
        rawCol h' r .float c = some ((cellsUnder header records c).map fun v =>
          .float (if v = b!"1" then GoFloat.one else GoFloat.zero)) ∧
        ∀ k, k ≠ .float → rawCol h' r k c = none := by
  obtain ⟨r, h', e, _, _, _, _, col, _⟩ := fromCSV_spec pf hj who hh hemp h
  refine ⟨r, h', e, fun c hc hx hv hm0 hm1 => ?_⟩
  have hF : ∀ v ∈ cellsUnder header records c, FloatCell pf spec.missingValues v := by
    intro v hv'
    rcases hv v hv' with rfl | rfl
    · exact Or.inr ⟨_, h0⟩
    · exact Or.inr ⟨_, h1⟩
  have hk : csvKind pf spec (cellsUnder header records c) =
      (.float, (cellsUnder header records c).map fun v => .float (if v = b!"1" then GoFloat.one else GoFloat.zero)) := by
    unfold csvKind
    rw [hb, hi]
    simp only [Bool.not_true, Bool.false_and, Bool.and_false, Bool.or_self, Bool.false_eq_true, if_false]
    rw [if_pos (isFloat_iff.2 hF), Prod.mk.injEq]
    refine ⟨rfl, ?_⟩
    unfold toFloat missOf
    rw [zip_map_self]
    apply List.map_congr_left
    intro v hv'
    rcases hv v hv' with rfl | rfl
    · rw [decide_eq_false hm0, h0]; rfl
    · rw [decide_eq_false hm1, h1]; rfl
  refine ⟨?_, fun k hk' => ?_⟩
  · rw [col, hk, if_pos ⟨hc, hx, rfl⟩]
  · rw [col, hk, if_neg]
    rintro ⟨_, _, hx⟩
    exact hk' hx.symm

/-- What the code does with a column of 0 and 1 under `BinaryAsFloat` alone: ints. -/
theorem C31_binary_ints [GoFloat F] (pf : GoStr → Option F) {jobs : List GoStr → List GoStr} (hj : ∀ l, (jobs l).Perm l)
    (who : GoStr → Nat) {inp : CsvInput} {spec : CSVReadingSpec} (hb : spec.binaryAsFloat = true) (hi : spec.intAsFloat = false)
    {header : List GoStr} {records : List (List GoStr)} (hh : Holds spec inp header records)
    (hemp : [] ∈ header → [] ∈ spec.exclude) (h : Heap F) :
    ∃ r h', fromCSV pf jobs who inp spec h = .ok (some r, h') ∧
      ∀ c ∈ header, c ∉ spec.exclude → (∀ v ∈ cellsUnder header records c, v = b!"0" ∨ v = b!"1") →
        (rawCol h' r .int c).isSome ∧ rawCol h' r .float c = none := by
  obtain ⟨r, h', e, _, _, _, _, col, _⟩ := fromCSV_spec pf hj who hh hemp h
  refine ⟨r, h', e, fun c hc hx hv => ?_⟩
  have hI : ∀ v ∈ cellsUnder header records c, IntCell spec.missingValues v := by
    intro v hv'
    rcases hv v hv' with rfl | rfl
    · exact Or.inr ⟨0, parseInt_iff.1 (by decide)⟩
    · exact Or.inr ⟨1, parseInt_iff.1 (by decide)⟩
  have hk : (csvKind pf spec (cellsUnder header records c)).1 = .int := by
    unfold csvKind
    rw [hb, hi]
    simp only [Bool.not_true, Bool.false_and, Bool.and_false, Bool.or_self, Bool.false_eq_true, if_false, Bool.not_false,
      Bool.true_and]
    rw [if_pos (isInt_iff.2 hI)]
  refine ⟨?_, ?_⟩
  · rw [col, if_pos ⟨hc, hx, hk⟩]; rfl
  · rw [col, hk, if_neg]
    rintro ⟨_, _, hx⟩
    cases hx

namespace Demo

/-- A float parser for the demonstrations: an integer, or an integer followed by ".5". -/
def pf (s : GoStr) : Option Int :=
  match parseInt s with
  | some n => some n
  | none => if s.length > 2 ∧ s.drop (s.length - 2) = b!".5" then parseInt (s.take (s.length - 2)) else none

def csvSpec : CSVReadingSpec := ⟨2, [], [b!"skip"], [b!"NA"], false, false, false, none⟩

def csvHeader : List GoStr := [b!"b", b!"i", b!"f", b!"s", b!"skip"]

def csvRecords : List (List GoStr) :=
  [[b!"true", b!"12", b!"1.5", b!"x", b!"1"],
   [b!"0", b!"NA", b!"NA", b!"NA", b!"1"],
   [b!"F", b!"-3", b!"2", b!"7", b!"1"]]

theorem csv_holds : Holds csvSpec ⟨csvHeader :: csvRecords, false⟩ csvHeader csvRecords :=
  ⟨Or.inl ⟨rfl, rfl⟩, by decide⟩

theorem csv_default : csvSpec.Default := ⟨rfl, rfl, rfl⟩

example : Inferred pf [b!"NA"] (cellsUnder csvHeader csvRecords b!"i") .int [.int 12, .int (-1), .int (-3)] :=
  (csvKind_default csv_default).1 (by decide +kernel)

example : Inferred pf [b!"NA"] (cellsUnder csvHeader csvRecords b!"b") .bool [.bool true, .bool false, .bool false] :=
  (csvKind_default csv_default).1 (by decide +kernel)

example : Inferred pf [b!"NA"] (cellsUnder csvHeader csvRecords b!"f") .float [.float 1, .float (-999), .float 2] :=
  (csvKind_default csv_default).1 (by decide +kernel)

example : Inferred pf [b!"NA"] (cellsUnder csvHeader csvRecords b!"s") .obj [.str b!"x", .nil, .str b!"7"] :=
  (csvKind_default csv_default).1 (by decide +kernel)

example : ∃ r h1 df h2, fromCSV pf id (fun _ => 0) ⟨csvHeader :: csvRecords, false⟩ csvSpec heap0 = .ok (some r, h1) ∧
    r.toDataFrame h1 = .ok (df, h2) ∧ df.WF h2 ∧ (abs h2 df).nRows = 3 := by
  obtain ⟨r, h1, df, h2, a, b, c, d, _⟩ := C30_dataframe pf (jobs := id) (fun l => List.Perm.refl l) (fun _ => 0) csv_default
    csv_holds (by decide) ⟨b!"b", by decide, by decide⟩ heap0
  exact ⟨r, h1, df, h2, a, b, c, d⟩

end Demo

/-- C31 is false of the code for `BoolAsFloat`: a column of true and false is read as strings. -/
theorem C31_bool_refuted : ∃ (spec : CSVReadingSpec) (inp : CsvInput) (r : Raw) (h' : Heap Int), spec.boolAsFloat = true ∧
    Holds spec inp [b!"x"] [[b!"true"], [b!"false"]] ∧
    fromCSV Demo.pf id (fun _ => 0) inp spec Demo.heap0 = .ok (some r, h') ∧ rawCol h' r .float b!"x" = none ∧
    rawCol h' r .obj b!"x" = some [.str b!"true", .str b!"false"] := by
  let spec : CSVReadingSpec := ⟨0, [], [], [], false, true, false, none⟩
  have hh : Holds spec ⟨[[b!"x"], [b!"true"], [b!"false"]], false⟩ [b!"x"] [[b!"true"], [b!"false"]] :=
    ⟨Or.inl ⟨rfl, rfl⟩, by decide⟩
  obtain ⟨r, h', e, _, _, _, _, col, _⟩ := fromCSV_spec Demo.pf (jobs := id) (fun l => List.Perm.refl l) (fun _ => 0) hh
    (by decide) Demo.heap0
  exact ⟨spec, _, r, h', rfl, hh, e, by rw [col]; decide +kernel, by rw [col]; decide +kernel⟩

/-- C31 is false of the code for `BoolAsFloat` on 0 and 1 as well: they are read as bools. -/
theorem C31_bool01_refuted : ∃ (spec : CSVReadingSpec) (inp : CsvInput) (r : Raw) (h' : Heap Int), spec.boolAsFloat = true ∧
    Holds spec inp [b!"x"] [[b!"0"], [b!"1"]] ∧
    fromCSV Demo.pf id (fun _ => 0) inp spec Demo.heap0 = .ok (some r, h') ∧ rawCol h' r .float b!"x" = none ∧
    rawCol h' r .bool b!"x" = some [.bool false, .bool true] := by
  let spec : CSVReadingSpec := ⟨0, [], [], [], false, true, false, none⟩
  have hh : Holds spec ⟨[[b!"x"], [b!"0"], [b!"1"]], false⟩ [b!"x"] [[b!"0"], [b!"1"]] :=
    ⟨Or.inl ⟨rfl, rfl⟩, by decide⟩
  obtain ⟨r, h', e, _, _, _, _, col, _⟩ := fromCSV_spec Demo.pf (jobs := id) (fun l => List.Perm.refl l) (fun _ => 0) hh
    (by decide) Demo.heap0
  exact ⟨spec, _, r, h', rfl, hh, e, by rw [col]; decide +kernel, by rw [col]; decide +kernel⟩

/-- C31 is false of the code for `BinaryAsFloat` alone: 0 and 1 are read as ints. -/
theorem C31_binary_refuted : ∃ (spec : CSVReadingSpec) (inp : CsvInput) (r : Raw) (h' : Heap Int), spec.binaryAsFloat = true ∧
    Holds spec inp [b!"x"] [[b!"0"], [b!"1"]] ∧
    fromCSV Demo.pf id (fun _ => 0) inp spec Demo.heap0 = .ok (some r, h') ∧ rawCol h' r .float b!"x" = none ∧
    rawCol h' r .int b!"x" = some [.int 0, .int 1] := by
  let spec : CSVReadingSpec := ⟨0, [], [], [], false, false, true, none⟩
  have hh : Holds spec ⟨[[b!"x"], [b!"0"], [b!"1"]], false⟩ [b!"x"] [[b!"0"], [b!"1"]] :=
    ⟨Or.inl ⟨rfl, rfl⟩, by decide⟩
  obtain ⟨r, h', e, _, _, _, _, col, _⟩ := fromCSV_spec Demo.pf (jobs := id) (fun l => List.Perm.refl l) (fun _ => 0) hh
    (by decide) Demo.heap0
  exact ⟨spec, _, r, h', rfl, hh, e, by rw [col]; decide +kernel, by rw [col]; decide +kernel⟩

end Verif
