import Verif.Props.CSVWriting
import Verif.Props.CSVParsing

/-! C33: what was written to a CSV is read back. -/

namespace Verif
open scoped Demo
variable {F : Type}

/-! ### Numbers -/

theorem parseDigits_natDec (n : Nat) : parseDigits (natDec n) = some n := by
  unfold parseDigits
  rw [if_pos]
  · exact congrArg some (digitsVal_natDec n)
  · refine ⟨natDec_ne_nil n, ?_⟩
    rw [List.all_eq_true]
    intro b hb
    have := natDec_digits n b hb
    simp only [decide_eq_true_eq]; omega

/-- An int of Go survives `Itoa` and `ParseInt`. -/
theorem parseInt_fmtInt {n : Int} (h1 : -2 ^ 63 ≤ n) (h2 : n < 2 ^ 63) : parseInt (fmtInt n) = some n := by
  unfold fmtInt
  split
  · rename_i hn
    unfold parseInt
    simp only [if_true, parseDigits_natDec, Option.bind_some]
    rw [if_pos (by omega)]
    congr 1; omega
  · rename_i hn
    have hd := natDec_digits n.natAbs
    have hp := parseDigits_natDec n.natAbs
    generalize natDec n.natAbs = s at *
    unfold parseInt
    split
    · simp [parseDigits] at hp
    · rename_i b r
      have hb := hd b (by simp)
      have e1 : b ≠ 45 := by intro e; subst e; revert hb; decide
      have e2 : b ≠ 43 := by intro e; subst e; revert hb; decide
      simp only [e1, e2, if_false, hp, Option.bind_some]
      rw [if_pos (by omega)]
      congr 1; omega

theorem parseBool_fmtBool (b : Bool) : parseBool (fmtBool b) = some b := by cases b <;> decide

/-- Among the ints only 0 and 1 look like bools. -/
theorem boolCell_fmtInt {n : Int} (h1 : -2 ^ 63 ≤ n) (h2 : n < 2 ^ 63) (hb : BoolCell (fmtInt n)) : n = 0 ∨ n = 1 := by
  have hp := parseInt_fmtInt h1 h2
  generalize fmtInt n = s at *
  obtain ⟨b, hb⟩ := hb
  rw [← parseBool_iff] at hb
  unfold parseBool at hb
  have key : ∀ t ∈ [b!"1", b!"t", b!"T", b!"TRUE", b!"true", b!"True", b!"0", b!"f", b!"F", b!"FALSE", b!"false", b!"False"],
      parseInt t = none ∨ parseInt t = some 0 ∨ parseInt t = some 1 := by decide
  have hs : s ∈ [b!"1", b!"t", b!"T", b!"TRUE", b!"true", b!"True", b!"0", b!"f", b!"F", b!"FALSE", b!"false", b!"False"] := by
    split at hb
    · rename_i h; simp only [List.mem_cons, List.not_mem_nil, or_false] at h ⊢; grind
    · split at hb
      · rename_i h; simp only [List.mem_cons, List.not_mem_nil, or_false] at h ⊢; grind
      · cases hb
  rcases key s hs with h | h | h <;> rw [hp] at h <;> cases h
  · exact Or.inl rfl
  · exact Or.inr rfl

/-! ### Columns -/

/-- When a column that is written can be read back. Bools: always. Ints: Go ints that are not declared missing, not
all 0 or 1. Floats: the conversion to text is faithful, no text is declared missing, and at least one text does not
look like an int or a bool. Strings: the missing marker is declared missing, no string is, and at least one
string does not look like a bool, an int or a float. -/
def ReadsBack (pf : GoStr → Option F) (ff : F → GoStr) (marker : GoStr) (missing : List GoStr) : Kind → List (Val F) → Prop
  | .bool, vs => ∀ v ∈ vs, ∃ b, v = .bool b
  | .int, vs => (∀ v ∈ vs, ∃ n : Int, v = .int n ∧ -2 ^ 63 ≤ n ∧ n < 2 ^ 63 ∧ fmtInt n ∉ missing) ∧
      ∃ n : Int, .int n ∈ vs ∧ n ≠ 0 ∧ n ≠ 1
  | .float, vs => (∀ v ∈ vs, ∃ x : F, v = .float x ∧ pf (ff x) = some x ∧ ff x ∉ missing) ∧
      ∃ x : F, .float x ∈ vs ∧ (∀ b, ¬ BoolLit (ff x) b) ∧ ∀ n, ¬ IntLit (ff x) n
  | .obj, vs => (∀ v ∈ vs, (v = .nil ∧ marker ∈ missing) ∨ ∃ s, v = .str s ∧ s ∉ missing) ∧
      ∃ s, .str s ∈ vs ∧ (∀ b, ¬ BoolLit s b) ∧ (∀ n, ¬ IntLit s n) ∧ pf s = none

theorem textOf_int {ff : F → GoStr} {marker : GoStr} {n : Int} {t : GoStr} [GoFloat F] (h : TextOf ff marker .int (.int n) t) :
    t = fmtInt n := by
  have := h.cellText
  simp only [cellText] at this
  exact (Except.ok.inj this).symm

/-- **C33** (a column). The texts written for a column are read back as a column of the same kind with the same
elements. -/
theorem C33_column [GoFloat F] {pf : GoStr → Option F} {ff : F → GoStr} {marker : GoStr} {missing : List GoStr} {k : Kind}
    {vs : List (Val F)} {cells : List GoStr} (ht : List.Forall₂ (TextOf ff marker k) vs cells)
    (hr : ReadsBack pf ff marker missing k vs) : Inferred pf missing cells k vs := by
  -- every cell is the text of an element, and the other way round
  have back : ∀ t ∈ cells, ∃ v ∈ vs, TextOf ff marker k v t := by
    clear hr
    induction ht with
    | nil => simp
    | cons a _ ih =>
      intro t hm
      rcases List.mem_cons.1 hm with rfl | hm
      · exact ⟨_, by simp, a⟩
      · obtain ⟨v, hv, h⟩ := ih t hm
        exact ⟨v, by simp [hv], h⟩
  have forth : ∀ v ∈ vs, ∃ t ∈ cells, TextOf ff marker k v t := by
    clear hr back
    induction ht with
    | nil => simp
    | cons a _ ih =>
      intro v hm
      rcases List.mem_cons.1 hm with rfl | hm
      · exact ⟨_, by simp, a⟩
      · obtain ⟨t, hv, h⟩ := ih v hm
        exact ⟨t, by simp [hv], h⟩
  have rows : ∀ p : GoStr → Val F → Prop, (∀ v ∈ vs, ∀ t, TextOf ff marker k v t → p t v) → RowByRow p cells vs := by
    intro p hp
    clear hr back forth
    induction ht with
    | nil => exact .nil
    | cons a _ ih => exact .cons (hp _ (by simp) _ a) (ih (fun v hv t h => hp v (by simp [hv]) t h))
  cases k with
  | bool =>
    simp only [ReadsBack] at hr
    refine .bool ?_ (rows _ ?_)
    · intro t hm
      obtain ⟨v, -, h⟩ := back t hm
      cases h
      · exact ⟨true, .true⟩
      · exact ⟨false, .false⟩
    · intro v _ t h
      cases h
      · exact ⟨true, .true, rfl⟩
      · exact ⟨false, .false, rfl⟩
  | int =>
    obtain ⟨h1, n, hn, n0, n1⟩ := hr
    refine .int ?_ ?_ (rows _ ?_)
    · intro hall
      obtain ⟨t, hm, h⟩ := forth _ hn
      obtain ⟨m, e, r1, r2, -⟩ := h1 _ hn
      cases e
      rw [textOf_int h] at hm
      rcases boolCell_fmtInt r1 r2 (hall _ hm) with h | h
      · exact n0 h
      · exact n1 h
    · intro t hm
      obtain ⟨v, hv, h⟩ := back t hm
      obtain ⟨m, rfl, r1, r2, -⟩ := h1 v hv
      rw [textOf_int h]
      exact Or.inr ⟨m, parseInt_iff.1 (parseInt_fmtInt r1 r2)⟩
    · intro v hv t h
      obtain ⟨m, rfl, r1, r2, r3⟩ := h1 v hv
      rw [textOf_int h]
      exact Or.inr ⟨r3, m, parseInt_iff.1 (parseInt_fmtInt r1 r2), rfl⟩
  | float =>
    obtain ⟨h1, x, hx, x1, x2⟩ := hr
    obtain ⟨y, e, -, x3⟩ := h1 _ hx
    cases e
    obtain ⟨t, hm, h⟩ := forth _ hx
    have ht' : t = ff x := by cases h; rfl
    subst ht'
    refine .float ?_ ?_ ?_ (rows _ ?_)
    · intro hall
      obtain ⟨b, hb⟩ := hall _ hm
      exact x1 _ hb
    · intro hall
      rcases hall _ hm with h | ⟨n, hb⟩
      · exact x3 h
      · exact x2 _ hb
    · intro t hm
      obtain ⟨v, hv, h⟩ := back t hm
      obtain ⟨m, rfl, r1, r2⟩ := h1 v hv
      cases h
      exact Or.inr ⟨m, r1⟩
    · intro v hv t h
      obtain ⟨m, rfl, r1, r2⟩ := h1 v hv
      cases h
      exact Or.inr ⟨r2, m, r1, rfl⟩
  | obj =>
    obtain ⟨h1, s, hs, s1, s2, s3⟩ := hr
    have s4 : s ∉ missing := by
      rcases h1 _ hs with ⟨e, -⟩ | ⟨s', e, h⟩
      · cases e
      · cases e; exact h
    obtain ⟨t, hm, h⟩ := forth _ hs
    have ht' : t = s := by cases h; rfl
    subst ht'
    refine .str ?_ ?_ ?_ (rows _ ?_)
    · intro hall
      obtain ⟨b, hb⟩ := hall _ hm
      exact s1 _ hb
    · intro hall
      rcases hall _ hm with h | ⟨n, hb⟩
      · exact s4 h
      · exact s2 _ hb
    · intro hall
      rcases hall _ hm with h | ⟨n, hb⟩
      · exact s4 h
      · rw [s3] at hb; cases hb
    · intro v hv t h
      rcases h1 v hv with ⟨rfl, hm⟩ | ⟨s', rfl, hn⟩
      · cases h; exact Or.inl ⟨hm, rfl⟩
      · cases h; exact Or.inr ⟨hn, rfl⟩

/-! ### Dataframes -/

theorem ReadsBack.texts [GoFloat F] {pf : GoStr → Option F} {ff : F → GoStr} {marker : GoStr} {missing : List GoStr} {k : Kind}
    {vs : List (Val F)} (h : ReadsBack pf ff marker missing k vs) : ∀ v ∈ vs, ∃ t, TextOf ff marker k v t := by
  intro v hv
  cases k with
  | bool =>
    obtain ⟨b, rfl⟩ := h v hv
    cases b
    · exact ⟨_, .ff⟩
    · exact ⟨_, .tt⟩
  | int =>
    obtain ⟨n, rfl, -⟩ := h.1 v hv
    cases n with
    | ofNat n => exact ⟨_, .nat n⟩
    | negSucc n => exact ⟨_, .neg n⟩
  | float =>
    obtain ⟨x, rfl, -⟩ := h.1 v hv
    exact ⟨_, .float x⟩
  | obj =>
    rcases h.1 v hv with ⟨rfl, -⟩ | ⟨s, rfl, -⟩
    · exact ⟨_, .nil⟩
    · exact ⟨_, .str s⟩

/-- The cells under a name, when the names are distinct. -/
theorem cellsUnder_at {names : List GoStr} (hn : names.Nodup) {recs : List (List GoStr)} {j : Nat} {c : GoStr} (hj : names[j]? = some c) :
    cellsUnder names recs c = recs.map fun r => (r[j]?).getD [] := by
  obtain ⟨hl, he⟩ := List.getElem?_eq_some_iff.1 hj
  unfold cellsUnder
  have : names.idxOf c = j := by
    rw [← he]; exact hn.idxOf_getElem j hl
  rw [this]

/-- **C33**. A dataframe is written by `To1CSV` and what was written is read by `FromCSV` with the default conversion options: the
result has the same number of rows, and exactly the written columns, each of the same kind and with the same elements
(missing strings included), with the same string marks; in whatever order the columns are written and read, and
whichever goroutine reads which. The columns must be readable at all (`ReadsBack`), no name may be used for two written columns,
and there must be no empty name. Partial: at the level of the records of `encoding/csv`. -/
theorem C33_roundtrip_partial [GoFloat F] {pf : GoStr → Option F} {ff : F → GoStr} {df : DF} {h : Heap F} {opt : CSVWritingSpec}
    (wf : df.WF h) {ord : Kind → List GoStr → List GoStr} (ho : ∀ k l, (ord k l).Perm l) (hdel : opt.DelimOk)
    (hm : opt.maintainOrder = true ∨ df.indexViewed = false) (full : Nat → Bool)
    {jobs : List GoStr → List GoStr} (hj : ∀ l, (jobs l).Perm l) (who : GoStr → Nat)
    {spec : CSVReadingSpec} (hd : spec.Default) (hh : spec.header = []) (he : spec.exclude = [])
    (hcols : ∀ k c, (abs h df).Written k c → ∃ vs, (abs h df).col k c = some (vs.map some) ∧
      ReadsBack pf ff opt.missingMarker spec.missingValues k vs)
    (hone : ∀ k k' c, (abs h df).Written k c → (abs h df).Written k' c → k = k') (hname : ∀ k, ¬ (abs h df).Written k [])
    (hsome : ∃ k c, (abs h df).Written k c) :
    ∃ w h1 r h2 df2 h3, df.to1CSV ff ord (newCsvSink none full) opt h = .ok ((true, w), h1) ∧
      fromCSV pf jobs who ⟨w.written, false⟩ spec h1 = .ok (some r, h2) ∧ r.toDataFrame h2 = .ok (df2, h3) ∧ df2.WF h3 ∧
      (abs h3 df2).nRows = (abs h df).nRows ∧
      (∀ k c, (abs h df).Written k c → (abs h3 df2).col k c = (abs h df).col k c) ∧
      (∀ k c, ¬ (abs h df).Written k c → (abs h3 df2).col k c = none) ∧
      (∀ c, (abs h3 df2).isStr c = (abs h df).isStr c) := by
  have hx : (abs h df).HasTexts ff opt.missingMarker := by
    intro k c hw r hr
    obtain ⟨vs, hv, hb⟩ := hcols k c hw
    have hl := (wf.cells hv).1
    rw [List.length_map] at hl
    obtain ⟨t, ht⟩ := hb.texts vs[r] (List.getElem_mem (by omega))
    refine ⟨vs[r], t, ?_, ht⟩
    unfold ADF.cell
    rw [hv, Option.bind_some, List.getElem?_map, List.getElem?_eq_getElem (by omega)]
    rfl
  obtain ⟨w, h1, header, e1, hc, hch⟩ := C32_to1CSV_partial wf ho hdel hx hm full
  obtain ⟨recs, hout, hl, hrec⟩ := hc.records
  have hnd : (header.map (·.2)).Nodup := by
    have := hc.once
    rw [List.Nodup, List.pairwise_map]
    refine List.Pairwise.imp_of_mem ?_ this
    rintro ⟨k, c⟩ ⟨k', c'⟩ h1 h2 hne hcc
    dsimp only at hcc
    subst hcc
    have := hone k k' c ((hc.cols _ _).1 h1) ((hc.cols _ _).1 h2)
    subst this
    exact hne rfl
  have holds : Holds spec ⟨w.written, false⟩ (header.map (·.2)) recs := by
    refine ⟨Or.inl ⟨hh, by rw [hout]⟩, ?_⟩
    intro rec hr
    obtain ⟨r, hr⟩ := List.mem_iff_getElem?.1 hr
    rw [List.length_map]
    exact (hrec r rec hr).length_eq.symm
  have hmemn : ∀ c, c ∈ header.map (·.2) ↔ ∃ k, (abs h df).Written k c := by
    intro c
    rw [List.mem_map]
    constructor
    · rintro ⟨⟨k, c'⟩, hm, rfl⟩
      exact ⟨k, (hc.cols _ _).1 hm⟩
    · rintro ⟨k, hw⟩
      exact ⟨(k, c), (hc.cols _ _).2 hw, rfl⟩
  obtain ⟨r, h2, df2, h3, e2, e3, wf2, hn, -, hcol, hnone, hstr⟩ := C30_dataframe pf hj who hd holds
    (fun hm => absurd ((hmemn []).1 hm) (fun ⟨k, hk⟩ => hname k hk))
    (by obtain ⟨k, c, hw⟩ := hsome
        exact ⟨c, (hmemn c).2 ⟨k, hw⟩, by rw [he]; simp⟩) h1
  have hread : ∀ k c, (abs h df).Written k c → (abs h3 df2).col k c = (abs h df).col k c := by
    intro k c hw
    obtain ⟨vs, hv, hb⟩ := hcols k c hw
    have hvl := (wf.cells hv).1
    rw [List.length_map] at hvl
    rw [hv, hcol c ((hmemn c).2 ⟨k, hw⟩) (by rw [he]; simp)]
    apply C33_column _ hb
    obtain ⟨j, hj⟩ := List.mem_iff_getElem?.1 ((hc.cols k c).2 hw)
    rw [cellsUnder_at hnd (j := j) (by rw [List.getElem?_map, hj]; rfl)]
    rw [List.forall₂_iff_get]
    refine ⟨by simp; omega, ?_⟩
    intro i hi1 hi2
    rw [List.length_map] at hi2
    have hri : recs[i]? = some recs[i] := List.getElem?_eq_getElem hi2
    have f := hrec i _ hri
    rw [List.forall₂_iff_get] at f
    obtain ⟨fl, fg⟩ := f
    have hjl := (List.getElem?_eq_some_iff.1 hj).1
    obtain ⟨v, hv', ht⟩ := fg j hjl (by omega)
    have hkc : header.get ⟨j, hjl⟩ = (k, c) := (List.getElem?_eq_some_iff.1 hj).2
    rw [hkc] at hv' ht
    unfold ADF.cell at hv'
    rw [hv, Option.bind_some, List.getElem?_map, List.getElem?_eq_getElem hi1] at hv'
    simp only [Option.map_some, Option.join_some, Option.some.injEq] at hv'
    subst hv'
    simp only [List.get_eq_getElem, List.getElem_map]
    rw [List.getElem?_eq_getElem (by omega), Option.getD_some]
    exact ht
  have hnot : ∀ k c, ¬ (abs h df).Written k c → (abs h3 df2).col k c = none := by
    intro k c hw
    by_cases hc' : ∃ k', (abs h df).Written k' c
    · obtain ⟨k', hw'⟩ := hc'
      have hne : k' ≠ k := fun e => hw (e ▸ hw')
      obtain ⟨vs', hv', hb'⟩ := hcols k' c hw'
      have h1' := hread k' c hw'
      rw [hv'] at h1'
      have hmem := (hmemn c).2 ⟨k', hw'⟩
      have i1 := (hcol c hmem (by rw [he]; simp) k' vs').1 h1'
      cases hcc : (abs h3 df2).col k c with
      | none => rfl
      | some l =>
        obtain ⟨-, hnn⟩ := wf2.cells hcc
        have hl : ∃ vs : List (Val F), l = vs.map some := by
          refine ⟨l.map fun o => o.getD .nil, ?_⟩
          rw [List.map_map]
          conv_lhs => rw [← List.map_id l]
          apply List.map_congr_left
          intro o ho
          cases o with
          | none => exact absurd ho hnn
          | some v => rfl
        obtain ⟨vs, rfl⟩ := hl
        have i2 := (hcol c hmem (by rw [he]; simp) k vs).1 hcc
        obtain ⟨k0, vs0, -, -, hu⟩ := Inferred.unique pf spec.missingValues (cellsUnder (header.map (·.2)) recs c)
        exact absurd ((hu _ _ i1).1.trans (hu _ _ i2).1.symm) hne
    · exact hnone c (fun hm => hc' ((hmemn c).1 hm.1)) k
  refine ⟨w, h1, r, h2, df2, h3, e1, e2, e3, wf2, by rw [hn, hl], hread, hnot, ?_⟩
  intro c
  rw [Bool.eq_iff_iff, hstr]
  constructor
  · intro hs
    by_cases hw : (abs h df).Written .obj c
    · simpa [ADF.Written] using hw
    · rw [hnot _ _ hw] at hs; cases hs
  · intro hs
    have hw : (abs h df).Written .obj c := by simpa [ADF.Written] using hs
    rw [hread _ _ hw]
    obtain ⟨vs, hv, -⟩ := hcols .obj c hw
    rw [hv]; rfl

/-- C33 is false of a string column with missing values only: it is read back as ints. -/
theorem C33_refuted_allMissing [GoFloat F] {pf : GoStr → Option F} {ff : F → GoStr} {marker : GoStr} {missing : List GoStr}
    (hm : marker ∈ missing) (hb : ∀ b, ¬ BoolLit marker b) {n : Nat} (hn : 0 < n) {cells : List GoStr}
    (ht : List.Forall₂ (TextOf ff marker .obj) (List.replicate n (Val.nil : Val F)) cells) :
    Inferred pf missing cells .int (List.replicate n (.int (-1))) := by
  have hc : cells = List.replicate n marker := by
    refine List.eq_replicate_iff.2 ⟨by rw [← ht.length_eq]; simp, ?_⟩
    rw [List.forall₂_iff_get] at ht
    obtain ⟨hl, hg⟩ := ht
    intro t hmem
    obtain ⟨i, hi, rfl⟩ := List.mem_iff_getElem.1 hmem
    have := hg i (by omega) hi
    simp only [List.get_eq_getElem, List.getElem_replicate] at this
    cases this
    rfl
  subst hc
  refine .int ?_ ?_ ?_
  · intro hall
    obtain ⟨b, hb'⟩ := hall marker (by simp; omega)
    exact hb _ hb'
  · intro v hv
    rw [(List.mem_replicate.1 hv).2]; exact Or.inl hm
  · clear ht hn
    induction n with
    | zero => exact .nil
    | succ n ih => exact .cons (Or.inl ⟨hm, rfl⟩) ih

/-- C33 is false of an int column with only zeros and ones (and of every column of a dataframe without rows): it is
read back as bools. -/
theorem C33_binary_ints [GoFloat F] {pf : GoStr → Option F} {ff : F → GoStr} {marker : GoStr} {missing : List GoStr}
    {bs : List Bool} {cells : List GoStr}
    (ht : List.Forall₂ (TextOf ff marker .int) (bs.map fun b => (Val.int (if b then 1 else 0) : Val F)) cells) :
    Inferred pf missing cells .bool (bs.map .bool) := by
  have hcell : ∀ (b : Bool) t, TextOf ff marker .int (Val.int (if b then 1 else 0) : Val F) t → parseBool t = some b := by
    intro b t h
    rw [textOf_int h]
    cases b <;> decide +kernel
  refine .bool ?_ ?_
  · intro t hm
    rw [List.forall₂_map_left_iff] at ht
    induction ht with
    | nil => cases hm
    | cons a _ ih =>
      rcases List.mem_cons.1 hm with rfl | hm
      · exact ⟨_, parseBool_iff.1 (hcell _ _ a)⟩
      · exact ih hm
  · rw [List.forall₂_map_left_iff] at ht
    show List.Forall₂ _ _ _
    rw [List.forall₂_map_right_iff]
    exact ht.flip.imp (fun t b h => ⟨b, parseBool_iff.1 (hcell b t h), rfl⟩)

namespace Demo

/-- A float text for the demo: "5.". -/
def rtF (x : Int) : GoStr := fmtInt x ++ b!"."

/-- Its inverse. -/
def rtP (s : GoStr) : Option Int := if s.getLast? = some 46 then parseInt s.dropLast else none

def rtSpec : CSVReadingSpec := ⟨2, [], [], [b!"NA"], false, false, false, none⟩

theorem written_cases (k : Kind) (c : GoStr) (hw : (abs h df).Written k c) :
    (k = .int ∧ c = b!"a") ∨ (k = .float ∧ c = b!"x") ∨ (k = .obj ∧ c = b!"s") ∨ (k = .bool ∧ c = b!"b") := by
  unfold ADF.Written at hw
  split at hw
  · rename_i hk
    subst hk
    have : hdrList h df.strHdr = [b!"s"] := by decide +kernel
    simp [abs, this] at hw
    simp [hw]
  · have hk : ∀ e ∈ h.tab df.tab, (e.1.1 = .int ∧ e.1.2 = b!"a") ∨ (e.1.1 = .float ∧ e.1.2 = b!"x") ∨ (e.1.1 = .obj ∧ e.1.2 = b!"s") ∨
      (e.1.1 = .bool ∧ e.1.2 = b!"b") := by decide +kernel
    simp only [abs, Option.isSome_map] at hw
    obtain ⟨s, hs⟩ := Option.isSome_iff_exists.1 hw
    exact hk _ (AMap.mem_of_get hs)

theorem rt_cols (k : Kind) (c : GoStr) (hw : (abs h df).Written k c) : ∃ vs, (abs h df).col k c = some (vs.map some) ∧
    ReadsBack rtP rtF b!"NA" [b!"NA"] k vs := by
  rcases written_cases k c hw with ⟨rfl, rfl⟩ | ⟨rfl, rfl⟩ | ⟨rfl, rfl⟩ | ⟨rfl, rfl⟩
  · refine ⟨[.int 10, .int 20, .int 30, .int 40], by decide +kernel, ?_, 10, by decide, by decide, by decide⟩
    simp only [List.mem_cons, List.not_mem_nil, or_false, forall_eq_or_imp, forall_eq]
    exact ⟨⟨10, rfl, by decide +kernel⟩, ⟨20, rfl, by decide +kernel⟩, ⟨30, rfl, by decide +kernel⟩, ⟨40, rfl, by decide +kernel⟩⟩
  · refine ⟨[.float 5, .float 3, .float 9, .float 1], by decide +kernel, ?_, 5, by decide, no_boolLit (by decide +kernel), no_intLit (by decide +kernel)⟩
    simp only [List.mem_cons, List.not_mem_nil, or_false, forall_eq_or_imp, forall_eq]
    exact ⟨⟨5, rfl, by decide +kernel⟩, ⟨3, rfl, by decide +kernel⟩, ⟨9, rfl, by decide +kernel⟩, ⟨1, rfl, by decide +kernel⟩⟩
  · refine ⟨[.str b!"u", .str b!"v", .str b!"u", .nil], by decide +kernel, ?_, b!"u", by decide, no_boolLit (by decide), no_intLit (by decide), by decide⟩
    simp
  · refine ⟨[.bool true, .bool false, .bool true, .bool false], by decide +kernel, ?_⟩
    intro v hv
    simp at hv
    rcases hv with rfl | rfl | rfl | rfl <;> exact ⟨_, rfl⟩

/-- The demo dataframe survives, read by two goroutines. -/
example : ∃ w h1 r h2 df2 h3, df.to1CSV rtF csvOrd (newCsvSink none fun _ => false) csvOpt h = .ok ((true, w), h1) ∧
    fromCSV rtP List.reverse List.length ⟨w.written, false⟩ rtSpec h1 = .ok (some r, h2) ∧ r.toDataFrame h2 = .ok (df2, h3) ∧
    (abs h3 df2).col .obj b!"s" = some [some (.str b!"u"), some (.str b!"v"), some (.str b!"u"), some .nil] := by
  obtain ⟨w, h1, r, h2, df2, h3, a, b, c, -, -, d, -⟩ := C33_roundtrip_partial (pf := rtP) (ff := rtF) (opt := csvOpt) df_wf csvOrd_perm (Or.inl rfl) (Or.inl rfl)
    (fun _ => false) (jobs := List.reverse) (fun l => List.reverse_perm l) List.length (spec := rtSpec) ⟨rfl, rfl, rfl⟩ rfl rfl rt_cols
    (fun k k' c h1 h2 => by
      rcases written_cases k c h1 with ⟨rfl, rfl⟩ | ⟨rfl, rfl⟩ | ⟨rfl, rfl⟩ | ⟨rfl, rfl⟩ <;>
        rcases written_cases k' _ h2 with ⟨rfl, e⟩ | ⟨rfl, e⟩ | ⟨rfl, e⟩ | ⟨rfl, e⟩ <;> first | rfl | (revert e; decide))
    (fun k hk => by rcases written_cases k _ hk with ⟨_, e⟩ | ⟨_, e⟩ | ⟨_, e⟩ | ⟨_, e⟩ <;> (revert e; decide))
    ⟨.int, b!"a", show ((abs h df).col .int b!"a").isSome = true by decide +kernel⟩
  refine ⟨w, h1, r, h2, df2, h3, a, b, c, ?_⟩
  rw [d .obj b!"s" (show (abs h df).isStr b!"s" = true by decide +kernel)]
  decide +kernel

end Demo

end Verif
