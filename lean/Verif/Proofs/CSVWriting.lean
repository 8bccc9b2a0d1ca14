import Verif.Spec.CSVWriting
import Verif.Proofs.Iter
import Verif.Proofs.OneHot

/-! Lemmas about the model of csv_writing.go. -/

namespace Verif
variable {F : Type}

/-! ### Texts -/

/-- The text of the element at raw position `r` of a column, `none` when writing it panics. -/
def rawText [GoFloat F] (ff : F → GoStr) (marker : GoStr) (h : Heap F) (t : Table) (kc : Kind × GoStr) (r : Nat) : Option GoStr :=
  (h.cell (tabCol t kc) r).bind fun v => (cellText ff marker kc.1 v).toOption

theorem cellText_error [GoFloat F] {ff : F → GoStr} {marker : GoStr} {k : Kind} {v : Val F} {e : Abort}
    (h : cellText ff marker k v = .error e) : e = .panic := by
  unfold cellText at h
  split at h <;> cases h
  rfl

section
variable [GoFloat F] {ff : F → GoStr} {marker : GoStr} {h : Heap F}

theorem csvFillCol_spec {k : Kind} {s : Slice} {col n m : Nat} (hc : col < m) {tx : Nat → GoStr}
    (is : List Nat) (j : Nat) (rows : List (List GoStr)) (sh : Shape rows n m) (hj : j + is.length ≤ n)
    (hv : ∀ i ∈ is, ((h.cell s i).bind fun v => (cellText ff marker k v).toOption) = some (tx i)) :
    ∃ rows', csvFillCol ff marker h k s col is j rows = .ok rows' ∧ Shape rows' n m ∧
      ∀ p q, at2 rows' p q = if q = col ∧ j ≤ p ∧ p < j + is.length then
        (is[p - j]?).map tx else at2 rows p q := by
  induction is generalizing j rows with
  | nil => exact ⟨rows, rfl, sh, fun p q => by rw [if_neg (by simp only [List.length_nil]; omega)]⟩
  | cons i is ih =>
    have hv0 := hv i (by simp)
    cases hcell : h.cell s i with
    | none => rw [hcell] at hv0; cases hv0
    | some v =>
    rw [hcell] at hv0
    simp only [Option.bind_some] at hv0
    cases htx : cellText ff marker k v with
    | error e => rw [htx] at hv0; cases hv0
    | ok t =>
    rw [htx] at hv0
    have ht : t = tx i := by simpa [Except.toOption] using hv0
    subst ht
    have hjl : j < rows.length := by rw [sh.1]; simp at hj; omega
    have hrow : rows[j]? = some rows[j] := List.getElem?_eq_getElem hjl
    have hrl := sh.2 j _ hrow
    have sh' : Shape (rows.set j (rows[j].set col (tx i))) n m := sh.set (by simpa using hrl)
    obtain ⟨rows', e, sh2, h2⟩ := ih (j + 1) _ sh' (by simp at hj; omega) (fun i hi => hv i (by simp [hi]))
    refine ⟨rows', ?_, sh2, ?_⟩
    · simp only [csvFillCol, hcell, htx, hrow, hrl, hc, if_true]; exact e
    · intro p q
      rw [h2]
      have h0 : at2 (rows.set j (rows[j].set col (tx i))) p q =
          if p = j ∧ q = col then some (tx i) else at2 rows p q := by
        unfold at2
        by_cases hp : p = j
        · subst hp
          simp only [List.getElem?_set_self hjl, Option.bind_some, true_and]
          by_cases hq : q = col
          · subst hq; simp [hrl, hc]
          · rw [List.getElem?_set_ne (fun h => hq h.symm), hrow]; simp [hq]
        · rw [List.getElem?_set_ne (fun h => hp h.symm)]; simp [hp]
      rw [h0]
      by_cases hq : q = col
      · by_cases hp : p = j
        · subst hp
          rw [if_neg (by omega), if_pos ⟨rfl, hq⟩, if_pos ⟨hq, by omega, by simp⟩]
          simp
        · by_cases hle : j ≤ p ∧ p < j + (i :: is).length
          · rw [if_pos ⟨hq, by omega, by have := hle.2; simp at this; omega⟩, if_pos ⟨hq, hle⟩]
            have : p - j = (p - (j + 1)) + 1 := by omega
            rw [this]; simp
          · rw [if_neg (by simp only [List.length_cons] at hle; omega), if_neg (by grind), if_neg (fun h => hle h.2)]
      · rw [if_neg (by grind), if_neg (by grind), if_neg (by grind)]

theorem csvFillCol_bad {k : Kind} {s : Slice} {col n m : Nat} (hc : col < m)
    (is : List Nat) (j : Nat) (rows : List (List GoStr)) (sh : Shape rows n m) (hj : j + is.length ≤ n)
    (hv : ∃ i ∈ is, ((h.cell s i).bind fun v => (cellText ff marker k v).toOption) = none) :
    csvFillCol ff marker h k s col is j rows = .error .panic := by
  induction is generalizing j rows with
  | nil => simp at hv
  | cons i is ih =>
    cases hcell : h.cell s i with
    | none => simp only [csvFillCol, hcell]
    | some v =>
      cases htx : cellText ff marker k v with
      | error e => simp only [csvFillCol, hcell, htx]; rw [cellText_error htx]
      | ok t =>
        have hjl : j < rows.length := by rw [sh.1]; simp at hj; omega
        have hrow : rows[j]? = some rows[j] := List.getElem?_eq_getElem hjl
        have hrl := sh.2 j _ hrow
        have sh' : Shape (rows.set j (rows[j].set col t)) n m := sh.set (by simpa using hrl)
        simp only [csvFillCol, hcell, htx, hrow, hrl, hc, if_true]
        apply ih _ _ sh' (by simp at hj; omega)
        obtain ⟨x, hx, hxn⟩ := hv
        rcases List.mem_cons.1 hx with rfl | hx
        · rw [hcell] at hxn; simp [htx, Except.toOption] at hxn
        · exact ⟨x, hx, hxn⟩

theorem csvFill_spec {t : Table} {is : List Nat} {n m : Nat} (hl : is.length ≤ n) {tx : Kind × GoStr → Nat → GoStr}
    (cs : List (Kind × GoStr)) (col : Nat) (rows : List (List GoStr)) (sh : Shape rows n m) (hm : col + cs.length ≤ m)
    (hv : ∀ kc ∈ cs, ∀ i ∈ is, rawText ff marker h t kc i = some (tx kc i)) :
    ∃ rows', csvFill ff marker h t is cs col rows = .ok rows' ∧ Shape rows' n m ∧
      (∀ p q, q < col → at2 rows' p q = at2 rows p q) ∧
      (∀ p q kc i, cs[q]? = some kc → is[p]? = some i → at2 rows' p (col + q) = some (tx kc i)) := by
  induction cs generalizing col rows with
  | nil => exact ⟨rows, rfl, sh, fun _ _ _ => rfl, by simp⟩
  | cons x cs ih =>
    obtain ⟨k, c⟩ := x
    simp only [List.length_cons] at hm
    obtain ⟨r1, e1, sh1, g1⟩ := csvFillCol_spec (k := k) (s := tabCol t (k, c)) (col := col) (by omega) is 0 rows sh (by omega) (hv (k, c) (by simp))
    obtain ⟨r2, e2, sh2, g2, g3⟩ := ih (col + 1) r1 sh1 (by omega) (fun kc hkc => hv kc (by simp [hkc]))
    refine ⟨r2, ?_, sh2, ?_, ?_⟩
    · simp only [csvFill, e1]; exact e2
    · intro p q hq
      rw [g2 p q (by omega), g1, if_neg (by omega)]
    · intro p q kc i hq hi
      cases q with
      | zero =>
        simp at hq; subst hq
        rw [g2 p _ (by omega), g1, if_pos ⟨rfl, by omega, by have := (List.getElem?_eq_some_iff.1 hi).1; omega⟩]
        simp [hi]
      | succ q =>
        have := g3 p q kc i (by simpa using hq) hi
        rw [← this]; congr 1; omega

theorem csvFill_bad {t : Table} {is : List Nat} {n m : Nat} (hl : is.length ≤ n)
    (cs : List (Kind × GoStr)) (col : Nat) (rows : List (List GoStr)) (sh : Shape rows n m) (hm : col + cs.length ≤ m)
    (hv : ∃ kc ∈ cs, ∃ i ∈ is, rawText ff marker h t kc i = none) :
    csvFill ff marker h t is cs col rows = .error .panic := by
  induction cs generalizing col rows with
  | nil => simp at hv
  | cons x cs ih =>
    obtain ⟨k, c⟩ := x
    simp only [List.length_cons] at hm
    by_cases hb : ∃ i ∈ is, rawText ff marker h t (k, c) i = none
    · have := csvFillCol_bad (ff := ff) (marker := marker) (k := k) (s := tabCol t (k, c)) (col := col) (m := m) (by omega) is 0 rows sh (by omega) hb
      simp only [csvFill, this]
    · have hg : ∀ i ∈ is, rawText ff marker h t (k, c) i = some ((rawText ff marker h t (k, c) i).getD []) := by
        intro i hi
        cases hr : rawText ff marker h t (k, c) i with
        | none => exact absurd ⟨i, hi, hr⟩ hb
        | some x => rfl
      obtain ⟨r1, e1, sh1, -⟩ := csvFillCol_spec (k := k) (s := tabCol t (k, c)) (col := col) (by omega) is 0 rows sh (by omega) hg
      simp only [csvFill, e1]
      apply ih _ _ sh1 (by omega)
      obtain ⟨kc, hkc, i, hi, hn⟩ := hv
      rcases List.mem_cons.1 hkc with rfl | hkc
      · exact absurd ⟨i, hi, hn⟩ hb
      · exact ⟨kc, hkc, i, hi, hn⟩

/-- The first rows of the batch array after it is filled. -/
theorem batch_take {rows : List (List GoStr)} {n : Nat} {cs : List (Kind × GoStr)} {is : List Nat} {tx : Kind × GoStr → Nat → GoStr}
    (sh : Shape rows n cs.length) (hl : is.length ≤ n)
    (g : ∀ p q kc i, cs[q]? = some kc → is[p]? = some i → at2 rows p (0 + q) = some (tx kc i)) :
    rows.take is.length = is.map fun i => cs.map fun kc => tx kc i := by
  apply List.ext_getElem?
  intro p
  by_cases hp : p < is.length
  · rw [List.getElem?_take_of_lt hp, List.getElem?_map, List.getElem?_eq_getElem hp, Option.map_some]
    have hpr : p < rows.length := by rw [sh.1]; omega
    rw [List.getElem?_eq_getElem hpr]
    congr 1
    apply List.ext_getElem?
    intro q
    have hrl := sh.2 p _ (List.getElem?_eq_getElem hpr)
    by_cases hq : q < cs.length
    · have := g p q _ _ (List.getElem?_eq_getElem hq) (List.getElem?_eq_getElem hp)
      rw [Nat.zero_add] at this
      unfold at2 at this
      rw [List.getElem?_eq_getElem hpr] at this
      simp only [Option.bind_some] at this
      rw [this, List.getElem?_map, List.getElem?_eq_getElem hq]; rfl
    · rw [List.getElem?_eq_none (by omega), List.getElem?_eq_none (by simp; omega)]
  · rw [List.getElem?_eq_none (by simp; omega), List.getElem?_eq_none (by simp; omega)]

end

/-! ### The writer -/

/-- Everything handed to the writer. -/
def CsvSink.total (w : CsvSink) : List (List GoStr) := w.written ++ w.pending

/-- How a call that hands over the records `recs` ends: either all of them were taken without an error,
or an error is reported, and the `io.Writer` took only some of the records handed over. -/
structure Handed (w : CsvSink) (recs : List (List GoStr)) (ok : Bool) (w' : CsvSink) : Prop where
  comma : w'.comma = w.comma
  limit : w'.limit = w.limit
  full : w'.full = w.full
  good : ok = true → w'.failed = false ∧ w'.total = w.total ++ recs
  fits : ok = true → ∀ n, w.limit = some n → w.written.length ≤ n → w'.written.length ≤ n
  bad : ok = false → w'.failed = true ∧ ∃ n, w.limit = some n ∧ n < (w.total ++ recs).length ∧ w'.written = (w.total ++ recs).take n

theorem flush_handed {w : CsvSink} (hf : w.failed = false) :
    Handed w [] (!w.flush.failed) w.flush ∧ (w.flush.failed = false → w.flush.pending = []) := by
  obtain ⟨c, l, f, p, wr, fl⟩ := w
  dsimp only at hf
  subst hf
  cases l with
  | none => refine ⟨⟨rfl, rfl, rfl, ?_, ?_, ?_⟩, ?_⟩ <;> simp [CsvSink.total, CsvSink.flush]
  | some n =>
    by_cases hle : (wr ++ p).length ≤ n
    · have : CsvSink.flush ⟨c, some n, f, p, wr, false⟩ = ⟨c, some n, f, [], wr ++ p, false⟩ := by
        simp [CsvSink.flush, List.length_append ▸ hle]
      rw [this]
      refine ⟨⟨rfl, rfl, rfl, ?_, ?_, ?_⟩, ?_⟩ <;> simp only [CsvSink.total] <;> try simp
      intro _
      simpa using hle
    · have : CsvSink.flush ⟨c, some n, f, p, wr, false⟩ = ⟨c, some n, f, [], (wr ++ p).take n, true⟩ := by
        simp only [CsvSink.flush, hle, if_false]; rfl
      rw [this]
      refine ⟨⟨rfl, rfl, rfl, ?_, ?_, ?_⟩, ?_⟩ <;> simp only [CsvSink.total] <;> try simp
      simpa using Nat.lt_of_not_le hle

theorem flush_failed {w : CsvSink} (hf : w.failed = true) : w.flush = w := by unfold CsvSink.flush; rw [hf]; rfl

theorem Handed.trans {w w1 w2 : CsvSink} {r1 r2 : List (List GoStr)} {ok : Bool} (a : Handed w r1 true w1)
    (b : Handed w1 r2 ok w2) : Handed w (r1 ++ r2) ok w2 := by
  refine ⟨b.comma.trans a.comma, b.limit.trans a.limit, b.full.trans a.full, ?_, ?_, ?_⟩
  · intro h
    obtain ⟨b1, b2⟩ := b.good h
    refine ⟨b1, ?_⟩
    rw [b2, (a.good rfl).2, List.append_assoc]
  · intro h n hn hl
    exact b.fits h n (by rw [a.limit]; exact hn) (a.fits rfl n hn hl)
  · intro h
    obtain ⟨b1, n, b2, b3, b4⟩ := b.bad h
    rw [(a.good rfl).2] at b3 b4
    rw [List.append_assoc] at b3 b4
    exact ⟨b1, n, by rw [← a.limit]; exact b2, b3, b4⟩

/-- An error stays an error when more was to be handed over. -/
theorem Handed.more {w w1 : CsvSink} {r1 : List (List GoStr)} (a : Handed w r1 false w1) (r2 : List (List GoStr)) :
    Handed w (r1 ++ r2) false w1 := by
  refine ⟨a.comma, a.limit, a.full, by simp, by simp, fun _ => ?_⟩
  obtain ⟨b1, n, b2, b3, b4⟩ := a.bad rfl
  refine ⟨b1, n, b2, ?_, ?_⟩
  · rw [← List.append_assoc, List.length_append]; omega
  · rw [b4, ← List.append_assoc]; exact (List.take_append_of_le_length (by omega)).symm

theorem write_handed {w : CsvSink} (hd : validDelim w.comma = true) (hf : w.failed = false) (r : List GoStr) :
    Handed w [r] (w.write r).1 (w.write r).2 := by
  obtain ⟨c, l, f, p, wr, fl⟩ := w
  dsimp only at hf hd
  subst hf
  unfold CsvSink.write
  simp only [hd, if_true, Bool.false_eq_true, if_false]
  have e : Handed ⟨c, l, f, p, wr, false⟩ [r] true ⟨c, l, f, p ++ [r], wr, false⟩ :=
    ⟨rfl, rfl, rfl, fun _ => ⟨rfl, by simp [CsvSink.total]⟩, fun _ _ _ h => h, by simp⟩
  split
  · exact e.trans (flush_handed (w := ⟨c, l, f, p ++ [r], wr, false⟩) rfl).1
  · exact e

theorem writeAll_handed {w : CsvSink} (hd : validDelim w.comma = true) (hf : w.failed = false) (rs : List (List GoStr)) :
    Handed w rs (w.writeAll rs).1 (w.writeAll rs).2 ∧ ((w.writeAll rs).1 = true → (w.writeAll rs).2.pending = []) := by
  induction rs generalizing w with
  | nil =>
    simp only [CsvSink.writeAll]
    have := flush_handed hf
    exact ⟨this.1, fun h => this.2 (by simpa using h)⟩
  | cons r rs ih =>
    have hw := write_handed hd hf r
    unfold CsvSink.writeAll
    generalize w.write r = p at hw
    obtain ⟨ok, w1⟩ := p
    cases ok with
    | false => exact ⟨by simpa using hw.more rs, by simp⟩
    | true =>
      have hi := ih (w := w1) (by rw [hw.comma]; exact hd) (hw.good rfl).1
      exact ⟨by simpa using hw.trans hi.1, hi.2⟩

/-! ### The loop over the batches -/

section
variable [GoFloat F] {ff : F → GoStr} {marker : GoStr} {h : Heap F}

theorem slice_split (rows : List Nat) (j : Nat) (hj : j < rows.length) :
    let e := if j + csvBatch > rows.length then rows.length else j + csvBatch
    ((rows.take e).drop j).length = e - j ∧ e - j ≤ csvBatch ∧ e - j ≠ 0 ∧
      rows.drop j = (rows.take e).drop j ++ rows.drop (j + csvBatch) := by
  have hb : csvBatch = 256 := rfl
  intro e
  have he : e = min (j + csvBatch) rows.length := by
    show (if j + csvBatch > rows.length then rows.length else j + csvBatch) = _
    split <;> omega
  clear_value e
  have h1 : e ≤ rows.length := by omega
  refine ⟨by simp; omega, by omega, by omega, ?_⟩
  rw [List.drop_take]
  have : rows.drop (j + csvBatch) = (rows.drop j).drop (e - j) := by
    rw [List.drop_drop]
    by_cases hc : j + csvBatch ≤ rows.length
    · congr 1; omega
    · rw [List.drop_eq_nil_of_le (by omega), List.drop_eq_nil_of_le (by omega)]
  rw [this, List.take_append_drop]

theorem csvLoop_spec {t : Table} {rows : List Nat} {cols : List (Kind × GoStr)} {tx : Kind × GoStr → Nat → GoStr} 
    (hv : ∀ kc ∈ cols, ∀ i ∈ rows, rawText ff marker h t kc i = some (tx kc i))
    (n j : Nat) (batch : List (List GoStr)) (w : CsvSink) (hn : rows.length ≤ n + j) (sh : Shape batch csvBatch cols.length)
    (hd : validDelim w.comma = true) (hf : w.failed = false) :
    ∃ ok w', csvLoop ff marker h t rows cols n j batch w = .ok (ok, w') ∧
      Handed w ((rows.drop j).map fun i => cols.map fun kc => tx kc i) ok w' ∧
      (ok = true → j < rows.length → w'.pending = []) := by
  induction n generalizing j batch w with
  | zero =>
    refine ⟨true, w, rfl, ?_, fun _ hj => by omega⟩
    rw [List.drop_eq_nil_of_le (by omega)]
    exact ⟨rfl, rfl, rfl, fun _ => ⟨hf, by simp⟩, fun _ _ _ h => h, by simp⟩
  | succ n ih =>
    unfold csvLoop
    by_cases hj : j < rows.length
    · rw [if_pos hj]
      have hb : csvBatch = 256 := rfl
      obtain ⟨s1, s2, s3, s4⟩ := slice_split rows j hj
      simp only at s1 s2 s3 s4 ⊢
      generalize he : (if j + csvBatch > rows.length then rows.length else j + csvBatch) = e at *
      have hv' : ∀ kc ∈ cols, ∀ i ∈ (rows.take e).drop j, rawText ff marker h t kc i = some (tx kc i) :=
        fun kc hkc i hi => hv kc hkc i (List.mem_of_mem_take (List.mem_of_mem_drop hi))
      obtain ⟨b1, e1, sh1, -, g1⟩ := csvFill_spec (n := csvBatch) (m := cols.length) (by rw [s1]; exact s2) cols 0 batch sh (by omega) hv'
      rw [e1]
      simp only
      have hbt := batch_take sh1 (by rw [s1]; exact s2) g1
      rw [s1] at hbt
      rw [hbt, s4, List.map_append]
      have hw := writeAll_handed hd hf (((rows.take e).drop j).map fun i => cols.map fun kc => tx kc i)
      generalize w.writeAll (((rows.take e).drop j).map fun i => cols.map fun kc => tx kc i) = p at hw
      obtain ⟨ok, w1⟩ := p
      cases ok with
      | false => exact ⟨false, w1, rfl, hw.1.more _, by simp⟩
      | true =>
        obtain ⟨ok, w2, e2, h2, p2⟩ := ih (j + csvBatch) b1 w1 (by omega) sh1 (by rw [hw.1.comma]; exact hd) (hw.1.good rfl).1
        refine ⟨ok, w2, e2, hw.1.trans h2, ?_⟩
        intro hok _
        by_cases hj2 : j + csvBatch < rows.length
        · exact p2 hok hj2
        · have : csvLoop ff marker h t rows cols n (j + csvBatch) b1 w1 = .ok (true, w1) := by
            cases n with
            | zero => rfl
            | succ n => unfold csvLoop; rw [if_neg hj2]
          rw [this] at e2
          cases e2
          exact hw.2 rfl
    · rw [if_neg hj]
      refine ⟨true, w, rfl, ?_, fun _ hj' => absurd hj' hj⟩
      rw [List.drop_eq_nil_of_le (by omega)]
      exact ⟨rfl, rfl, rfl, fun _ => ⟨hf, by simp⟩, fun _ _ _ h => h, by simp⟩

theorem csvLoop_bad {t : Table} {rows : List Nat} {cols : List (Kind × GoStr)} 
    (n j : Nat) (batch : List (List GoStr)) (w : CsvSink) (hn : rows.length ≤ n + j) (sh : Shape batch csvBatch cols.length)
    (hd : validDelim w.comma = true) (hf : w.failed = false) (hl : w.limit = none)
    (hv : ∃ kc ∈ cols, ∃ i ∈ rows.drop j, rawText ff marker h t kc i = none) :
    csvLoop ff marker h t rows cols n j batch w = .error .panic := by
  induction n generalizing j batch w with
  | zero =>
    rw [List.drop_eq_nil_of_le (by omega)] at hv
    simp at hv
  | succ n ih =>
    unfold csvLoop
    by_cases hj : j < rows.length
    · rw [if_pos hj]
      have hb : csvBatch = 256 := rfl
      obtain ⟨s1, s2, s3, s4⟩ := slice_split rows j hj
      simp only at s1 s2 s3 s4 ⊢
      generalize he : (if j + csvBatch > rows.length then rows.length else j + csvBatch) = e at *
      by_cases hb : ∃ kc ∈ cols, ∃ i ∈ (rows.take e).drop j, rawText ff marker h t kc i = none
      · rw [csvFill_bad (n := csvBatch) (m := cols.length) (by rw [s1]; exact s2) cols 0 batch sh (by omega) hb]
      · have hv' : ∀ kc ∈ cols, ∀ i ∈ (rows.take e).drop j,
            rawText ff marker h t kc i = some ((rawText ff marker h t kc i).getD []) := by
          intro kc hkc i hi
          cases hr : rawText ff marker h t kc i with
          | none => exact absurd ⟨kc, hkc, i, hi, hr⟩ hb
          | some x => rfl
        obtain ⟨b1, e1, sh1, -, g1⟩ := csvFill_spec (n := csvBatch) (m := cols.length) (by rw [s1]; exact s2) cols 0 batch sh (by omega) hv'
        rw [e1]
        simp only
        have hw := writeAll_handed hd hf (b1.take (e - j))
        generalize w.writeAll (b1.take (e - j)) = p at hw
        obtain ⟨ok, w1⟩ := p
        cases ok with
        | false =>
          obtain ⟨-, n, h1, -⟩ := hw.1.bad rfl
          rw [hl] at h1; cases h1
        | true =>
          apply ih (j + csvBatch) b1 w1 (by omega) sh1 (by rw [hw.1.comma]; exact hd) (hw.1.good rfl).1 (by rw [hw.1.limit]; exact hl)
          obtain ⟨kc, hkc, i, hi, hn⟩ := hv
          rw [s4] at hi
          rcases List.mem_append.1 hi with hi | hi
          · exact absurd ⟨kc, hkc, i, hi, hn⟩ hb
          · exact ⟨kc, hkc, i, hi, hn⟩
    · rw [List.drop_eq_nil_of_le (by omega)] at hv
      simp at hv

end

end Verif
