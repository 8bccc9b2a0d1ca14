import Verif.Proofs.CSVWriting
import Verif.Props.Splits
import Verif.Props.Print
import Verif.Props.Demo
import Verif.Proofs.Check

/-! C32, C55, C64: what the CSV writing functions write. -/

namespace Verif
open scoped Demo
variable {F : Type}

theorem cell_abs {h : Heap F} (d : DF) (k : Kind) (c : GoStr) (r : Nat) :
    (abs h d).cell k c r = (d.rows[r]?).bind (h.cell (tabCol (h.tab d.tab) (k, c))) := by
  unfold ADF.cell tabCol
  simp only [abs]
  cases AMap.get (h.tab d.tab) (k, c) with
  | none =>
    cases d.rows[r]? with
    | none => rfl
    | some i => simp [Heap.cell, Slice.nil]
  | some s =>
    simp only [Option.map_some, Option.bind_some, Option.getD_some, List.getElem?_map]
    cases d.rows[r]? with
    | none => rfl
    | some i => rfl

theorem TextOf.cellText [GoFloat F] {ff : F → GoStr} {marker : GoStr} {k : Kind} {v : Val F} {t : GoStr}
    (h : TextOf ff marker k v t) : Verif.cellText ff marker k v = .ok t := by
  cases h with
  | tt => rfl
  | ff => rfl
  | nat n => simp only [Verif.cellText, fmtInt]; rw [if_neg (by omega)]; rfl
  | neg n => simp only [Verif.cellText, fmtInt]; rw [if_pos (by omega)]; rfl
  | float x => rfl
  | str s => rfl
  | nil => rfl

/-- Only an element of an object column has no text. -/
theorem textOf_of_cellText [GoFloat F] {ff : F → GoStr} {marker : GoStr} {a : ADF (Val F)} (ty : a.TypeOk)
    {k : Kind} {c : GoStr} {r : Nat} {v : Val F} {t : GoStr}
    (hv : a.cell k c r = some v) (ht : Verif.cellText ff marker k v = .ok t) : TextOf ff marker k v t := by
  cases k with
  | bool =>
    obtain ⟨b, rfl⟩ := ty.1 c r v hv
    cases b <;> · cases ht; constructor
  | int =>
    obtain ⟨n, rfl⟩ := ty.2.1 c r v hv
    cases ht
    cases n with
    | ofNat n => simp only [fmtInt]; rw [if_neg (by simp)]; exact TextOf.nat n
    | negSucc n => simp only [fmtInt]; rw [if_pos (by omega)]; exact TextOf.neg n
  | float =>
    obtain ⟨x, rfl⟩ := ty.2.2 c r v hv
    cases ht; constructor
  | obj =>
    cases v <;> cases ht
    · constructor
    · constructor

/-! ### The header -/

theorem kindHeader_arr (h : Heap F) (t : Nat) (k : Kind) : (kindHeader h t k).2.arr = h.arr := by
  unfold kindHeader
  split <;> rfl

theorem csvHeader_spec {d : DF} {h : Heap F} (wf : d.WF h)
    {ord : Kind → List GoStr → List GoStr} (ho : ∀ k l, (ord k l).Perm l) :
    Heap.Ext h (d.csvHeader ord h).2 ∧ (∀ k c, (k, c) ∈ (d.csvHeader ord h).1 ↔ (abs h d).Written k c) ∧
    (d.csvHeader ord h).1.Nodup ∧ (d.csvHeader ord h).1.Pairwise fun x y => csvRank x.1 ≤ csvRank y.1 := by
  have a1 := kindHeader_spec h d.tab .bool
  have n1 := nodup_hdrList_kind h d.tab .bool
  unfold DF.csvHeader
  generalize kindHeader h d.tab .bool = p1 at a1 n1
  obtain ⟨b, h1⟩ := p1
  dsimp only at a1 n1 ⊢
  have a2 := kindHeader_spec h1 d.tab .int
  have n2 := nodup_hdrList_kind h1 d.tab .int
  generalize kindHeader h1 d.tab .int = p2 at a2 n2
  obtain ⟨i, h2⟩ := p2
  dsimp only at a2 n2 ⊢
  have a3 := kindHeader_spec h2 d.tab .float
  have n3 := nodup_hdrList_kind h2 d.tab .float
  generalize kindHeader h2 d.tab .float = p3 at a3 n3
  obtain ⟨f, h3⟩ := p3
  dsimp only at a3 n3 ⊢
  obtain ⟨e1, t1, -, m1⟩ := a1
  obtain ⟨e2, t2, -, m2⟩ := a2
  obtain ⟨e3, t3, -, m3⟩ := a3
  rw [t1] at m2
  rw [t2, t1] at m3
  have e := (e1.trans e2).trans e3
  have hst := hdrList_ext e wf.str_lt
  refine ⟨e, ?_, ?_, ?_⟩
  · intro k c
    simp only [List.mem_append, List.mem_map, Prod.mk.injEq, (ho _ _).mem_iff, hst, mem_sinsertAll, m1, m2, m3]
    cases k <;> simp [ADF.Written, abs]
  · have inj : ∀ (k : Kind) (l : List GoStr), l.Nodup → (l.map (fun c => (k, c))).Nodup := by
      intro k l hl
      exact List.Nodup.map (fun a b e => by cases e; rfl) hl
    have q1 := inj .bool _ (((ho .bool _).nodup_iff).2 n1)
    have q2 := inj .int _ (((ho .int _).nodup_iff).2 n2)
    have q3 := inj .float _ (((ho .float _).nodup_iff).2 n3)
    have q4 := inj .obj _ (((ho .obj _).nodup_iff).2 (nodup_hdrList_kind.nodup_sinsertAll' List.nodup_nil (hdrList h3 d.strHdr)))
    have dis : ∀ x (k : Kind) (l : List GoStr), x ∈ l.map (fun c => (k, c)) → x.1 = k := by
      intro x k l hx
      obtain ⟨c, -, rfl⟩ := List.mem_map.1 hx
      rfl
    rw [List.nodup_append, List.nodup_append, List.nodup_append]
    refine ⟨⟨⟨q1, q2, ?_⟩, q3, ?_⟩, q4, ?_⟩
    · intro x hx y hy e
      have := dis x _ _ hx; have := dis y _ _ hy; subst e; simp_all
    · intro x hx y hy e
      have hy := dis y _ _ hy
      subst e
      rcases List.mem_append.1 hx with hx | hx <;> have := dis x _ _ hx <;> simp_all
    · intro x hx y hy e
      have hy := dis y _ _ hy
      subst e
      simp only [List.mem_append] at hx
      rcases hx with (hx | hx) | hx <;> have := dis x _ _ hx <;> simp_all
  · have same : ∀ (k : Kind) (l : List GoStr), (l.map (fun c => (k, c))).Pairwise fun x y => csvRank x.1 ≤ csvRank y.1 := by
      intro k l
      rw [List.pairwise_map]
      induction l <;> simp_all
    have dis : ∀ x (k : Kind) (l : List GoStr), x ∈ l.map (fun c => (k, c)) → x.1 = k := by
      intro x k l hx
      obtain ⟨c, -, rfl⟩ := List.mem_map.1 hx
      rfl
    rw [List.pairwise_append, List.pairwise_append, List.pairwise_append]
    refine ⟨⟨⟨same _ _, same _ _, ?_⟩, same _ _, ?_⟩, same _ _, ?_⟩
    · intro x hx y hy
      rw [dis x _ _ hx, dis y _ _ hy]; decide
    · intro x hx y hy
      rw [dis y _ _ hy]
      rcases List.mem_append.1 hx with hx | hx <;> rw [dis x _ _ hx] <;> decide
    · intro x hx y hy
      rw [dis y _ _ hy]
      simp only [List.mem_append] at hx
      rcases hx with (hx | hx) | hx <;> rw [dis x _ _ hx] <;> decide

/-! ### The records -/

/-- The outcome of handing the records `out` over to a new writer: what reaches the `io.Writer`. -/
def reaches (limit : Option Nat) (out : List (List GoStr)) : List (List GoStr) :=
  match limit with
  | none => out
  | some n => out.take n

theorem flush_reaches {limit : Option Nat} {full : Nat → Bool} {cm : Nat} {out : List (List GoStr)} {ok : Bool} {w : CsvSink}
    (hh : Handed ⟨cm, limit, full, [], [], false⟩ out ok w) : w.flush.written = reaches limit out := by
  cases ok with
  | true =>
    obtain ⟨hf, ht⟩ := hh.good rfl
    have hlim := hh.limit
    obtain ⟨c, l, f, p, wr, fl⟩ := w
    dsimp only at hf hlim
    subst hf; subst hlim
    simp only [CsvSink.total, List.append_nil, List.nil_append] at ht
    unfold CsvSink.flush reaches
    simp only [Bool.false_eq_true, if_false, ht]
    cases l with
    | none => rfl
    | some n =>
      simp only
      split
      · rename_i hle; rw [List.take_of_length_le hle]
      · rfl
  | false =>
    obtain ⟨hf, n, hl, -, hw⟩ := hh.bad rfl
    rw [flush_failed hf, hw]
    dsimp only at hl
    subst hl
    simp [reaches, CsvSink.total]

theorem to1CSV_core [GoFloat F] {ff : F → GoStr} {df d : DF} {h : Heap F} {opt : CSVWritingSpec}
    (hd : df.sortIfNeeded opt.maintainOrder = d) (wf : d.WF h)
    {ord : Kind → List GoStr → List GoStr} (ho : ∀ k l, (ord k l).Perm l) (hdel : opt.DelimOk)
    (hx : (abs h d).HasTexts ff opt.missingMarker) (limit : Option Nat) (full : Nat → Bool) :
    ∃ ok w h' header out, df.to1CSV ff ord (newCsvSink limit full) opt h = .ok ((ok, w), h') ∧ Heap.Ext h h' ∧
      CsvOf ff opt.missingMarker (abs h d) header out ∧ w.written = reaches limit out ∧
      (ok = false → ∃ n, limit = some n ∧ n < out.length) ∧
      (ok = true → 0 < d.numRows → ∀ n, limit = some n → out.length ≤ n) ∧
      (d.numRows = 0 → full 1 = false → ok = true) := by
  obtain ⟨e, hc, hn, hp⟩ := csvHeader_spec wf ho
  unfold DF.to1CSV
  simp only [hd]
  generalize d.csvHeader ord h = q at e hc hn hp
  obtain ⟨cols, h'⟩ := q
  dsimp only at e hc hn hp ⊢
  obtain ⟨w0, hw0⟩ : ∃ w0, w0 = (if opt.comma ≠ 0 then { newCsvSink limit full with comma := opt.comma } else newCsvSink limit full) := ⟨_, rfl⟩
  rw [← hw0]
  have hform : ∃ cm, w0 = ⟨cm, limit, full, [], [], false⟩ ∧ validDelim cm = true := by
    rw [hw0]
    rcases hdel with hz | hv
    · exact ⟨44, by rw [hz]; rfl, by decide⟩
    · by_cases hz : opt.comma = 0
      · exact ⟨44, by rw [hz]; rfl, by decide⟩
      · exact ⟨opt.comma, by rw [if_pos hz]; rfl, hv⟩
  obtain ⟨cm, rfl, hdv⟩ := hform
  clear hw0
  have habs : abs h' d = abs h d := abs_ext e wf.toWF
  -- the texts
  have htx : ∀ kc ∈ cols, ∀ i ∈ d.rows, rawText ff opt.missingMarker h' (h'.tab d.tab) kc i =
      some ((rawText ff opt.missingMarker h' (h'.tab d.tab) kc i).getD []) := by
    intro kc hkc i hi
    obtain ⟨r, hr⟩ := List.mem_iff_getElem?.1 hi
    obtain ⟨v, t, hv, ht⟩ := hx kc.1 kc.2 ((hc kc.1 kc.2).1 hkc) r (List.getElem?_eq_some_iff.1 hr).1
    rw [← habs, cell_abs, hr] at hv
    simp only [Option.bind_some] at hv
    simp only [rawText, hv, Option.bind_some, ht.cellText, Except.toOption, Option.getD_some]
  have hrec : CsvOf ff opt.missingMarker (abs h d) cols (cols.map (·.2) :: d.rows.map fun i => cols.map fun kc =>
      (rawText ff opt.missingMarker h' (h'.tab d.tab) kc i).getD []) := by
    refine ⟨hc, hn, hp, _, rfl, by simp [abs, DF.numRows], ?_⟩
    intro r rec hr
    rw [List.getElem?_map, Option.map_eq_some_iff] at hr
    obtain ⟨i, hi, rfl⟩ := hr
    rw [List.forall₂_map_right_iff]
    refine List.forall₂_same.2 ?_
    intro kc hkc
    obtain ⟨v, t, hv, ht⟩ := hx kc.1 kc.2 ((hc kc.1 kc.2).1 hkc) r (List.getElem?_eq_some_iff.1 hi).1
    refine ⟨v, hv, ?_⟩
    rw [← habs, cell_abs, hi] at hv
    simp only [Option.bind_some] at hv
    simp only [rawText, hv, Option.bind_some, ht.cellText, Except.toOption, Option.getD_some]
    exact ht
  have hw := write_handed (w := ⟨cm, limit, full, [], [], false⟩) hdv rfl (cols.map (·.2))
  generalize hq : CsvSink.write ⟨cm, limit, full, [], [], false⟩ (cols.map (·.2)) = q at hw
  obtain ⟨ok1, w1⟩ := q
  dsimp only at hw ⊢
  cases ok1 with
  | false =>
    have hw' := hw.more (d.rows.map fun i => cols.map fun kc => (rawText ff opt.missingMarker h' (h'.tab d.tab) kc i).getD [])
    refine ⟨false, w1.flush, h', cols, _, rfl, e, hrec, flush_reaches hw', ?_, by simp, ?_⟩
    · intro _
      obtain ⟨-, n, h1, h2, -⟩ := hw'.bad rfl
      exact ⟨n, h1, by simpa [CsvSink.total] using h2⟩
    · intro _ hfull
      unfold CsvSink.write at hq
      simp [hdv, hfull] at hq
  | true =>
    obtain ⟨ok, w2, e2, hh, hpend⟩ := csvLoop_spec htx d.numRows 0 (List.replicate csvBatch (List.replicate cols.length [])) w1
      (by simp [DF.numRows]) (by
        refine ⟨by simp, ?_⟩
        intro p row hrow
        rw [List.getElem?_replicate] at hrow
        split at hrow
        · cases hrow; simp
        · cases hrow) (by rw [hw.comma]; exact hdv) (hw.good rfl).1
    rw [List.drop_zero] at hh
    have hall := hw.trans hh
    simp only [e2]
    refine ⟨ok, w2.flush, h', cols, _, rfl, e, hrec, flush_reaches hall, ?_, ?_, ?_⟩
    · intro hok
      subst hok
      obtain ⟨-, n, h1, h2, -⟩ := hall.bad rfl
      exact ⟨n, h1, by simpa [CsvSink.total] using h2⟩
    · intro hok hpos n hlim
      subst hok
      have hpe := hpend rfl hpos
      have htot := (hall.good rfl).2
      have hfit := hall.fits rfl n hlim (by simp)
      unfold CsvSink.total at htot
      rw [hpe] at htot
      simp only [List.append_nil, List.nil_append] at htot
      rw [htot] at hfit
      simpa using hfit
    · intro h0 _
      have hnil : d.rows = [] := List.length_eq_zero_iff.1 h0
      have : d.numRows = 0 := h0
      rw [this] at e2
      unfold csvLoop at e2
      cases e2; rfl

/-! ### C32 -/

theorem sortIfNeeded_eq {df : DF} {m : Bool} (hm : m = true ∨ df.indexViewed = false) : df.sortIfNeeded m = df := by
  unfold DF.sortIfNeeded
  rcases hm with h | h <;> simp [h]

/-- Nothing that existed is changed. -/
def NothingChanges (h h' : Heap F) : Prop :=
  ∀ d : DF, d.WF h → abs h' d = abs h d ∧ locs h' d = locs h d ∧ d.WF h'

theorem nothingChanges {h h' : Heap F} (e : Heap.Ext h h') : NothingChanges h h' :=
  fun _ wf => ⟨abs_ext e wf.toWF, locs_ext e wf.toWF, wf.ext e⟩

/-- **C32**. When the order is to be maintained or the indices are not altered, `To1CSV` into a writer that takes
everything returns nil and writes the CSV of the dataframe: a header with every bool, int, float and string
column, then a record per row, in row order, for every number of rows, column order and buffering. The
dataframes are left as they are. Partial: see `C32_refuted` for the remaining case. -/
theorem C32_to1CSV_partial [GoFloat F] {ff : F → GoStr} {df : DF} {h : Heap F} {opt : CSVWritingSpec}
    (wf : df.WF h) {ord : Kind → List GoStr → List GoStr} (ho : ∀ k l, (ord k l).Perm l) (hdel : opt.DelimOk)
    (hx : (abs h df).HasTexts ff opt.missingMarker) (hm : opt.maintainOrder = true ∨ df.indexViewed = false)
    (full : Nat → Bool) :
    ∃ w h' header, df.to1CSV ff ord (newCsvSink none full) opt h = .ok ((true, w), h') ∧
      CsvOf ff opt.missingMarker (abs h df) header w.written ∧ NothingChanges h h' := by
  obtain ⟨ok, w, h', header, out, e, ex, hc, hw, hok, -, -⟩ :=
    to1CSV_core (sortIfNeeded_eq hm) wf ho hdel hx none full
  cases ok with
  | false => obtain ⟨n, hn, -⟩ := hok rfl; cases hn
  | true => exact ⟨w, h', header, e, by rw [hw]; exact hc, nothingChanges ex⟩

/-- **C64**. What `To1CSV` reports about a writer that fails after `n` records: exactly the first `n` records reach
it, and on a dataframe with rows the returned error is nil if and only if all records reach it. -/
theorem C64_errors_partial [GoFloat F] {ff : F → GoStr} {df : DF} {h : Heap F} {opt : CSVWritingSpec}
    (wf : df.WF h) {ord : Kind → List GoStr → List GoStr} (ho : ∀ k l, (ord k l).Perm l) (hdel : opt.DelimOk)
    (hx : (abs h df).HasTexts ff opt.missingMarker) (hm : opt.maintainOrder = true ∨ df.indexViewed = false)
    (hpos : 0 < (abs h df).nRows) (n : Nat) (full : Nat → Bool) :
    ∃ ok w h' header out, df.to1CSV ff ord (newCsvSink (some n) full) opt h = .ok ((ok, w), h') ∧
      CsvOf ff opt.missingMarker (abs h df) header out ∧ w.written = out.take n ∧
      (ok = true ↔ w.written = out) := by
  obtain ⟨ok, w, h', header, out, e, ex, hc, hw, hok, hfit, -⟩ :=
    to1CSV_core (sortIfNeeded_eq hm) wf ho hdel hx (some n) full
  refine ⟨ok, w, h', header, out, e, hc, hw, ?_, ?_⟩
  · intro ht
    rw [hw]
    exact List.take_of_length_le (hfit ht hpos n rfl)
  · intro he
    cases ok with
    | true => rfl
    | false =>
      obtain ⟨m, hm, hlt⟩ := hok rfl
      cases hm
      rw [hw] at he
      have := congrArg List.length he
      simp only [reaches, List.length_take] at this
      omega

/-- C64 is false of a dataframe without rows: `To1CSV` returns nil although not even the header reaches the
writer (the error of the deferred `Flush` is lost), unless the header alone fills the buffer. -/
theorem C64_refuted [GoFloat F] {ff : F → GoStr} {df : DF} {h : Heap F} {opt : CSVWritingSpec}
    (wf : df.WF h) {ord : Kind → List GoStr → List GoStr} (ho : ∀ k l, (ord k l).Perm l) (hdel : opt.DelimOk)
    (h0 : (abs h df).nRows = 0) (full : Nat → Bool) (hfull : full 1 = false) :
    ∃ w h', df.to1CSV ff ord (newCsvSink (some 0) full) opt h = .ok ((true, w), h') ∧ w.written = [] := by
  have hz : df.rows = [] := List.length_eq_zero_iff.1 h0
  have wf' : (df.sortIfNeeded opt.maintainOrder).WF h ∧ (df.sortIfNeeded opt.maintainOrder).numRows = 0 := by
    unfold DF.sortIfNeeded
    split
    · rename_i hc
      have hr : df.idx.rows = [] := hz
      rw [hr]
      refine ⟨⟨(view_wf wf).toWF, by simp [Idx.mk', sortNat], ?_⟩, rfl⟩
      obtain ⟨N, h1, h2, h3⟩ := wf.rect
      refine ⟨N, h1, ?_, ?_⟩
      · intro i hi; cases hi
      · intro hf
        simp only [DF.view] at hf
        simp [hf] at hc
    · exact ⟨wf, h0⟩
  obtain ⟨ok, w, h', header, out, e, ex, hc, hw, hok, hfit, hret⟩ :=
    to1CSV_core rfl wf'.1 ho hdel (ff := ff) (by
      intro k c _ r hr
      have : (abs h (df.sortIfNeeded opt.maintainOrder)).nRows = 0 := wf'.2
      omega) (some 0) full
  have := hret wf'.2 hfull
  subst this
  exact ⟨w, h', e, by rw [hw]; simp [reaches]⟩

theorem sortNat_zeros (n : Nat) : sortNat (List.replicate n 0) = List.replicate n 0 :=
  List.eq_replicate_iff.2 ⟨by rw [(sortNat_perm _).length_eq]; simp, fun b hb => by
    have := (sortNat_perm _).mem_iff.1 hb
    exact (List.mem_replicate.1 this).2⟩

theorem sortIfNeeded_zeros {df : DF} (hv : df.indexViewed = true) :
    df.sortIfNeeded false = { df.view with idx := Idx.mk' (List.replicate df.numRows 0) } := by
  unfold DF.sortIfNeeded
  rw [hv, sortNat_zeros]
  rfl

theorem zeros_wf {df : DF} {h : Heap F} (wf : df.WF h) (hv : df.indexViewed = true) : (df.sortIfNeeded false).WF h := by
  rw [sortIfNeeded_zeros hv]
  refine ⟨(view_wf wf).toWF, by simp [Idx.mk'], ?_⟩
  obtain ⟨N, h1, h2, h3⟩ := wf.rect
  refine ⟨N, h1, ?_, fun hf => by simp [DF.view, hv] at hf⟩
  intro i hi
  simp only [DF.rows, Idx.rows, Idx.mk', List.take_length] at hi
  obtain ⟨hn, rfl⟩ := List.mem_replicate.1 hi
  have : df.rows ≠ [] := fun e => hn (by unfold DF.numRows; rw [e]; rfl)
  obtain ⟨x, hx⟩ := List.exists_mem_of_ne_nil _ this
  have := h2 x hx
  omega

theorem sortIfNeeded_wf' {df : DF} {h : Heap F} (wf : df.WF h) (m : Bool) : (df.sortIfNeeded m).WF h := by
  by_cases hm : m = true ∨ df.indexViewed = false
  · rw [sortIfNeeded_eq hm]; exact wf
  · have hm1 : m = false := by cases m <;> simp_all
    have hv : df.indexViewed = true := by cases hh : df.indexViewed <;> simp_all
    subst hm1
    exact zeros_wf wf hv

/-- **C64**. With a delimiter that no CSV file can have, `To1CSV` returns an error and writes nothing at all, whatever
the dataframe contains; the dataframes are left as they are. -/
theorem C64_bad_delimiter [GoFloat F] {ff : F → GoStr} {df : DF} {h : Heap F} {opt : CSVWritingSpec}
    (wf : df.WF h) {ord : Kind → List GoStr → List GoStr} (ho : ∀ k l, (ord k l).Perm l) (hdel : ¬ opt.DelimOk)
    (limit : Option Nat) (full : Nat → Bool) :
    ∃ w h', df.to1CSV ff ord (newCsvSink limit full) opt h = .ok ((false, w), h') ∧ w.written = [] ∧
      NothingChanges h h' := by
  obtain ⟨e, -⟩ := csvHeader_spec (sortIfNeeded_wf' wf opt.maintainOrder) ho
  have hz : opt.comma ≠ 0 := fun hz => hdel (Or.inl hz)
  have hv : validDelim opt.comma = false := by
    cases hh : validDelim opt.comma with
    | false => rfl
    | true => exact absurd (Or.inr hh) hdel
  refine ⟨CsvSink.flush ⟨opt.comma, limit, full, [], [], false⟩, ((df.sortIfNeeded opt.maintainOrder).csvHeader ord h).2, ?_, ?_,
    nothingChanges e⟩
  · unfold DF.to1CSV
    simp only [ne_eq, hz, not_false_eq_true, if_true, CsvSink.write, hv, Bool.false_eq_true, if_false, newCsvSink]
  · cases limit <;> simp [CsvSink.flush]

/-- An element has one text. -/
theorem TextOf.unique [GoFloat F] {ff : F → GoStr} {marker : GoStr} {k : Kind} {v : Val F} {t t' : GoStr}
    (a : TextOf ff marker k v t) (b : TextOf ff marker k v t') : t = t' :=
  Except.ok.inj (a.cellText.symm.trans b.cellText)

/-- What `To1CSV` does when the indices are altered and the order needs not be maintained: as many records as
there are rows, all the same (the first row of the backing data). -/
theorem C32_all_alike [GoFloat F] {ff : F → GoStr} {df : DF} {h : Heap F} {opt : CSVWritingSpec}
    (wf : df.WF h) {ord : Kind → List GoStr → List GoStr} (ho : ∀ k l, (ord k l).Perm l) (hdel : opt.DelimOk)
    (hv : df.indexViewed = true) (hm : opt.maintainOrder = false)
    (hx : (abs h (df.sortIfNeeded false)).HasTexts ff opt.missingMarker) (full : Nat → Bool) :
    ∃ w h' names rec, df.to1CSV ff ord (newCsvSink none full) opt h = .ok ((true, w), h') ∧
      w.written = names :: List.replicate (abs h df).nRows rec := by
  obtain ⟨ok, w, h', header, out, e, ex, hc, hw, hok, -, -⟩ :=
    to1CSV_core (d := df.sortIfNeeded false) (by rw [hm]) (zeros_wf wf hv) ho hdel hx none full
  cases ok with
  | false => obtain ⟨n, hn, -⟩ := hok rfl; cases hn
  | true =>
    obtain ⟨recs, rfl, hl, hrec⟩ := hc.records
    have hn : (abs h (df.sortIfNeeded false)).nRows = (abs h df).nRows := by
      rw [sortIfNeeded_zeros hv]; simp [abs, DF.numRows, DF.rows, Idx.rows, Idx.mk']
    have alike : ∀ r k c, r < (abs h df).nRows → (abs h (df.sortIfNeeded false)).cell k c r = (abs h (df.sortIfNeeded false)).cell k c 0 := by
      intro r k c hr
      have hr' : r < df.numRows := hr
      rw [cell_abs, cell_abs, sortIfNeeded_zeros hv]
      simp only [DF.rows, Idx.rows, Idx.mk', List.take_length, List.getElem?_replicate]
      rw [if_pos hr', if_pos (by omega)]
    refine ⟨w, h', header.map (·.2), (recs[0]?).getD [], e, ?_⟩
    rw [hw]
    simp only [reaches, List.cons.injEq, true_and]
    refine List.eq_replicate_iff.2 ⟨by rw [hl, hn], ?_⟩
    intro rec hmem
    obtain ⟨r, hr⟩ := List.mem_iff_getElem?.1 hmem
    have hrl := (List.getElem?_eq_some_iff.1 hr).1
    have h0 : recs[0]? = some recs[0] := List.getElem?_eq_getElem (by omega)
    rw [h0, Option.getD_some]
    have f1 := hrec r rec hr
    have f0 := hrec 0 _ h0
    generalize recs[0] = rec0 at f0
    clear h0 hr hmem
    have hcell : ∀ k c, (abs h (df.sortIfNeeded false)).cell k c r = (abs h (df.sortIfNeeded false)).cell k c 0 :=
      fun k c => alike r k c (by omega)
    clear hrec hc hw e hok
    induction f1 generalizing rec0 with
    | nil => cases f0; rfl
    | cons a _ ih =>
      cases f0 with
      | cons b f0 =>
        rw [ih _ f0]
        congr 1
        obtain ⟨v, v1, v2⟩ := a
        obtain ⟨u, u1, u2⟩ := b
        rw [hcell, u1] at v1
        cases v1
        exact v2.unique u2

/-- C32 is false of the code when the indices are altered and the order needs not be maintained: whenever two
rows of such a dataframe have different texts in a written column, what `To1CSV` writes is not the CSV of the
dataframe, nor of any permutation of its rows. -/
theorem C32_refuted [GoFloat F] {ff : F → GoStr} {df : DF} {h : Heap F} {opt : CSVWritingSpec}
    (wf : df.WF h) {ord : Kind → List GoStr → List GoStr} (ho : ∀ k l, (ord k l).Perm l) (hdel : opt.DelimOk)
    (hv : df.indexViewed = true) (hm : opt.maintainOrder = false)
    (hx : (abs h (df.sortIfNeeded false)).HasTexts ff opt.missingMarker)
    {k : Kind} {c : GoStr} (hw : (abs h df).Written k c) {r r' : Nat} {v v' : Val F} {t t' : GoStr}
    (hr : (abs h df).cell k c r = some v) (hr' : (abs h df).cell k c r' = some v')
    (ht : TextOf ff opt.missingMarker k v t) (ht' : TextOf ff opt.missingMarker k v' t') (hne : t ≠ t') (full : Nat → Bool) :
    ∃ w h', df.to1CSV ff ord (newCsvSink none full) opt h = .ok ((true, w), h') ∧
      ∀ (is : List Nat), is.Perm (List.range (abs h df).nRows) → ∀ header,
        ¬ CsvOf ff opt.missingMarker ((abs h df).select is) header w.written := by
  obtain ⟨w, h', names, rec, e, hwr⟩ := C32_all_alike (ff := ff) wf ho hdel hv hm hx full
  refine ⟨w, h', e, ?_⟩
  intro is hp header hc
  obtain ⟨recs, hout, hl, hrec⟩ := hc.records
  rw [hwr] at hout
  cases hout
  have hmem : (k, c) ∈ header := (hc.cols k c).2 (by
    unfold ADF.Written at hw ⊢
    split
    · rename_i hk; rw [if_pos hk] at hw; exact hw
    · rename_i hk
      rw [if_neg hk] at hw
      simpa [ADF.select] using hw)
  obtain ⟨j, hj⟩ := List.mem_iff_getElem?.1 hmem
  have look : ∀ p u x, (abs h df).cell k c p = some u → TextOf ff opt.missingMarker k u x → rec[j]? = some x := by
    intro p u x hu hx
    have hpl : p < (abs h df).nRows := by
      rw [cell_abs] at hu
      cases hg : df.rows[p]? with
      | none => rw [hg] at hu; cases hu
      | some i => exact (List.getElem?_eq_some_iff.1 hg).1
    obtain ⟨q, hq⟩ := List.mem_iff_getElem?.1 (hp.mem_iff.2 (List.mem_range.2 hpl))
    have hql : q < (abs h df).nRows := by
      have := (List.getElem?_eq_some_iff.1 hq).1
      rw [hp.length_eq, List.length_range] at this
      exact this
    have f := hrec q rec (by rw [List.getElem?_replicate, if_pos hql])
    rw [List.forall₂_iff_get] at f
    obtain ⟨fl, fg⟩ := f
    have hjl := (List.getElem?_eq_some_iff.1 hj).1
    obtain ⟨u', hu', ht⟩ := fg j hjl (by omega)
    have hkc : header.get ⟨j, hjl⟩ = (k, c) := (List.getElem?_eq_some_iff.1 hj).2
    rw [hkc] at hu' ht
    have : ((abs h df).select is).cell k c q = (abs h df).cell k c p := by
      unfold ADF.cell ADF.select
      simp only
      cases (abs h df).col k c with
      | none => rfl
      | some l => simp only [Option.map_some, Option.bind_some, List.getElem?_map, hq]; rfl
    rw [this, hu] at hu'
    cases hu'
    rw [List.getElem?_eq_getElem (by omega)]
    congr 1
    exact ht.unique hx
  exact hne (Option.some.inj ((look r v t hr ht).symm.trans (look r' v' t' hr' ht')))

/-- **C32** (panics). `To1CSV` panics when a row has no text in a written column: a column marked as string holds
something else than strings and nils, or does not exist. -/
theorem C32_panics [GoFloat F] {ff : F → GoStr} {df : DF} {h : Heap F} {opt : CSVWritingSpec}
    (wf : df.WF h) {ord : Kind → List GoStr → List GoStr} (ho : ∀ k l, (ord k l).Perm l) (hdel : opt.DelimOk)
    (hm : opt.maintainOrder = true ∨ df.indexViewed = false) {c : GoStr} (hw : (abs h df).isStr c = true) {r : Nat}
    (hr : r < (abs h df).nRows) (hbad : ∀ v, (abs h df).cell .obj c r = some v → v ≠ .nil ∧ ∀ s, v ≠ .str s) (full : Nat → Bool) :
    df.to1CSV ff ord (newCsvSink none full) opt h = .error .panic := by
  obtain ⟨e, hc, hn, hp⟩ := csvHeader_spec wf ho
  unfold DF.to1CSV
  simp only [sortIfNeeded_eq hm]
  generalize df.csvHeader ord h = q at e hc hn hp
  obtain ⟨cols, h'⟩ := q
  dsimp only at e hc hn hp ⊢
  obtain ⟨w0, hw0⟩ : ∃ w0, w0 = (if opt.comma ≠ 0 then { newCsvSink none full with comma := opt.comma } else newCsvSink none full) := ⟨_, rfl⟩
  rw [← hw0]
  have hform : ∃ cm, w0 = ⟨cm, none, full, [], [], false⟩ ∧ validDelim cm = true := by
    rw [hw0]
    rcases hdel with hz | hv
    · exact ⟨44, by rw [hz]; rfl, by decide⟩
    · by_cases hz : opt.comma = 0
      · exact ⟨44, by rw [hz]; rfl, by decide⟩
      · exact ⟨opt.comma, by rw [if_pos hz]; rfl, hv⟩
  obtain ⟨cm, rfl, hdv⟩ := hform
  have hw1 := write_handed (w := ⟨cm, none, full, [], [], false⟩) hdv rfl (cols.map (·.2))
  generalize hq : CsvSink.write ⟨cm, none, full, [], [], false⟩ (cols.map (·.2)) = q at hw1
  obtain ⟨ok1, w1⟩ := q
  dsimp only at hw1 ⊢
  cases ok1 with
  | false => obtain ⟨-, n, hn, -⟩ := hw1.bad rfl; cases hn
  | true =>
    simp only
    rw [csvLoop_bad (ff := ff) (marker := opt.missingMarker) df.numRows 0 _ w1 (by simp [DF.numRows]) (by
        refine ⟨by simp, ?_⟩
        intro p row hrow
        rw [List.getElem?_replicate] at hrow
        split at hrow
        · cases hrow; simp
        · cases hrow) (by rw [hw1.comma]; exact hdv) (hw1.good rfl).1 hw1.limit]
    rw [List.drop_zero]
    have hrl : r < df.rows.length := hr
    refine ⟨(.obj, c), (hc .obj c).2 (by simpa [ADF.Written] using hw), df.rows[r], List.getElem_mem hrl, ?_⟩
    have hcell := cell_abs (h := h') df .obj c r
    rw [abs_ext e wf.toWF, List.getElem?_eq_getElem hrl, Option.bind_some] at hcell
    simp only [rawText]
    rw [← hcell]
    cases hv : (abs h df).cell .obj c r with
    | none => rfl
    | some v =>
      obtain ⟨b1, b2⟩ := hbad v hv
      cases v <;> simp_all [cellText, Except.toOption]

/-! ### C55 -/

theorem HasTexts.select {a : ADF (Val F)} {ff : F → GoStr} {marker : GoStr} (h : a.HasTexts ff marker) {is : List Nat}
    (hi : ∀ i ∈ is, i < a.nRows) : (a.select is).HasTexts ff marker := by
  intro k c hw r hr
  have hw' : a.Written k c := by
    unfold ADF.Written at hw ⊢
    split
    · rename_i hk; rw [if_pos hk] at hw; exact hw
    · rename_i hk; rw [if_neg hk] at hw; simpa [ADF.select] using hw
  have hrl : r < is.length := hr
  obtain ⟨v, t, hv, ht⟩ := h k c hw' is[r] (hi _ (List.getElem_mem hrl))
  refine ⟨v, t, ?_, ht⟩
  rw [← hv]
  unfold ADF.cell ADF.select
  simp only
  cases a.col k c with
  | none => rfl
  | some l => simp only [Option.map_some, Option.bind_some, List.getElem?_map, List.getElem?_eq_getElem hrl]; rfl

theorem csvParts_spec [GoFloat F] {ff : F → GoStr} {ord : Nat → Kind → List GoStr → List GoStr}
    (ho : ∀ i k l, (ord i k l).Perm l) {opt : CSVWritingSpec} (hdel : opt.DelimOk) (hm : opt.maintainOrder = true)
    {dfs : List DF} (fulls : List (Nat → Bool)) : ∀ (i : Nat) (h : Heap F), 
    (∀ d ∈ dfs, d.WF h ∧ (abs h d).HasTexts ff opt.missingMarker) → i + fulls.length ≤ dfs.length →
    ∃ os h', csvParts ff ord dfs opt i (fulls.map (newCsvSink none)) h = .ok (os, h') ∧ Heap.Ext h h' ∧
      os.length = fulls.length ∧ ∀ (j : Nat) (o : Bool × CsvSink), os[j]? = some o → o.1 = true ∧ ∃ d header, dfs[i + j]? = some d ∧
        CsvOf ff opt.missingMarker (abs h d) header o.2.written := by
  induction fulls with
  | nil => intro i h _ _; exact ⟨[], h, rfl, Heap.Ext.refl h, rfl, by simp⟩
  | cons f fulls ih =>
    intro i h hall hl
    simp only [List.length_cons] at hl
    have hi : i < dfs.length := by omega
    obtain ⟨wf, hx⟩ := hall dfs[i] (List.getElem_mem hi)
    obtain ⟨ok, w, h1, header, out, e, ex, hc, hw, hok, -, -⟩ :=
      to1CSV_core (sortIfNeeded_eq (Or.inl hm)) wf (ho i) hdel hx none f
    cases ok with
    | false => obtain ⟨n, hn, -⟩ := hok rfl; cases hn
    | true =>
      obtain ⟨os, h2, e2, ex2, hl2, hos⟩ := ih (i + 1) h1 (fun d hd => by
        obtain ⟨a, b⟩ := hall d hd
        exact ⟨a.ext ex, by rw [abs_ext ex a.toWF]; exact b⟩) (by omega)
      refine ⟨(true, w) :: os, h2, ?_, ex.trans ex2, by simp [hl2], ?_⟩
      · simp only [List.map_cons, csvParts, List.getElem?_eq_getElem hi, e, e2]
      · intro j o ho
        cases j with
        | zero =>
          simp at ho
          subst ho
          exact ⟨rfl, dfs[i], header, by simp [hi], by rw [hw]; exact hc⟩
        | succ j =>
          obtain ⟨a, d, hd, b, c⟩ := hos j o (by simpa using ho)
          refine ⟨a, d, hd, by rw [← b]; congr 1; omega, ?_⟩
          have hmem : d ∈ dfs := List.mem_of_getElem? b
          rw [← abs_ext ex (hall d hmem).1.toWF]
          exact c

theorem Parts.get {h : Heap F} {df : DF} {h' : Heap F} {vs : List DF} {ps : List (List Nat)} (p : Parts h df h' vs ps) :
    ∀ (i : Nat) (v : DF), vs[i]? = some v → ∃ is, ps[i]? = some is ∧ RowView h df h' v is := by
  induction p with
  | nil => intro i v hv; simp at hv
  | cons r _ ih =>
    intro i v hv
    cases i with
    | zero => simp at hv; subst hv; exact ⟨_, rfl, r⟩
    | succ i => exact ih i v (by simpa using hv)

/-- What the writer `i` receives when the dataframe `a` is shared out in these parts: the CSV of the part of
that number, an empty record when there is none. -/
def GetsPart (ff : F → GoStr) (marker : GoStr) (a : ADF (Val F)) (parts : List (List Nat)) (i : Nat) (out : List (List GoStr)) : Prop :=
  match parts[i]? with
  | some is => ∃ header, CsvOf ff marker (a.select is) header out
  | none => out = [[]]

/-- `NothingChanges` from what the parts say. -/
theorem splitN_changes {df : DF} {h : Heap F} {n : Int} (wf : df.WF h) (hn : 1 ≤ n) {vs h'} (he : df.splitNView n h = .ok (vs, h')) :
    NothingChanges h h' := by
  by_cases h0 : 0 < df.numRows
  · obtain ⟨vs', pad, h'', parts, e, -, hp, hf, -⟩ := C10_splitNView_partial wf hn h0
    rw [he] at e
    cases e
    cases hp with
    | nil => 
      have := congrArg List.length hf
      simp at this; omega
    | cons r _ => exact r.others
  · rw [C10_refuted_empty df h (by omega) n hn] at he
    cases he
    exact fun d wd => ⟨rfl, rfl, wd⟩

/-- The parts that `ToCSVs` shares out. -/
theorem toCSVs_parts {ff : F → GoStr} {marker : GoStr} {df : DF} {h : Heap F} (wf : df.WF h)
    (hx : (abs h df).HasTexts ff marker) {n : Nat} (h1 : 1 ≤ n) (hr : 0 < (abs h df).nRows ∨ n = 1) :
    ∃ dfs h1 parts, df.splitNView n h = .ok (dfs, h1) ∧ dfs.length = n ∧
      parts.flatten = List.range (abs h df).nRows ∧ parts.length ≤ n ∧
      EvenParts (abs h df).nRows n parts ∧ NothingChanges h h1 ∧
      (∀ d ∈ dfs, d.WF h1 ∧ (abs h1 d).HasTexts ff marker) ∧
      ∀ (i : Nat) (d : DF) header out, dfs[i]? = some d → CsvOf ff marker (abs h1 d) header out →
        GetsPart ff marker (abs h df) parts i out := by
  have main : ∃ vs pad h1 parts, df.splitNView n h = .ok (vs ++ pad, h1) ∧ (vs ++ pad).length = n ∧
      Parts h df h1 vs parts ∧ parts.flatten = List.range df.numRows ∧
      EvenParts df.numRows n parts ∧
      (∀ e ∈ pad, e.WF h1 ∧ (abs h1 e).nRows = 0 ∧ (∀ k c, (abs h1 e).col k c = none) ∧ ∀ c, (abs h1 e).isStr c = false) := by
    by_cases h0 : 0 < df.numRows
    · obtain ⟨vs, pad, h', parts, a⟩ := C10_splitNView_partial wf (n := n) (by omega) h0
      exact ⟨vs, pad, h', parts, a⟩
    · have hl : n = 1 := by
        rcases hr with hr | hr
        · exact absurd hr h0
        · exact hr
      refine ⟨[df.view], [], h, [List.range df.numRows], ?_, by simp [hl], .cons (view_rowView wf) .nil, by simp, ?_, by simp⟩
      · rw [C10_refuted_empty df h (by omega) _ (by omega)]; rfl
      · exact ⟨by intro p hp; simp at hp; subst hp; rw [hl]; simp, by simp, fun h => absurd h h0⟩
  obtain ⟨vs, pad, h1', parts, e, hlen, hp, hf, hle, hpad⟩ := main
  have hch := splitN_changes wf (by omega) e
  have hsub : ∀ is ∈ parts, ∀ i ∈ is, i < (abs h df).nRows := by
    intro is his i hi
    have : i ∈ parts.flatten := List.mem_flatten.2 ⟨is, his, hi⟩
    rw [hf] at this
    exact List.mem_range.1 this
  have hall : ∀ d ∈ vs ++ pad, d.WF h1' ∧ (abs h1' d).HasTexts ff marker := by
    intro d hd
    rcases List.mem_append.1 hd with hd | hd
    · obtain ⟨i, hi⟩ := List.mem_iff_getElem?.1 hd
      obtain ⟨is, his, rv⟩ := hp.get i d hi
      refine ⟨rv.wf, ?_⟩
      rw [rv.shows]
      exact HasTexts.select hx (hsub is (List.mem_of_getElem? his))
    · obtain ⟨a, b, c⟩ := hpad d hd
      exact ⟨a, fun k c _ r hr => by omega⟩
  refine ⟨vs ++ pad, h1', parts, e, hlen, hf, ?_, hle, hch, hall, ?_⟩
  · have := hp.length_eq
    simp at hlen; omega
  · intro i d header out hd hc
    unfold GetsPart
    have hvl := hp.length_eq
    by_cases hi : i < vs.length
    · rw [List.getElem?_append_left hi] at hd
      obtain ⟨is, his, rv⟩ := hp.get i d hd
      rw [his]
      simp only
      rw [rv.shows] at hc
      exact ⟨header, hc⟩
    · rw [List.getElem?_append_right (by omega)] at hd
      obtain ⟨-, b, c1, c2⟩ := hpad d (List.mem_of_getElem? hd)
      rw [List.getElem?_eq_none (by omega)]
      simp only
      obtain ⟨recs, hout, hl, -⟩ := hc.records
      rw [b] at hl
      have : recs = [] := List.length_eq_zero_iff.1 hl
      subst this
      have hnil : header = [] := by
        apply List.eq_nil_iff_forall_not_mem.2
        rintro ⟨k, c⟩ hm
        have := (hc.cols k c).1 hm
        unfold ADF.Written at this
        split at this
        · rw [c2] at this; cases this
        · rw [c1] at this; cases this
      rw [hout, hnil]; rfl

/-- **C55** (`ToCSVs`). On a dataframe with rows or with a single writer, `ToCSVs` returns nil; the writers get the CSVs of
consecutive parts of the dataframe, even shares (`EvenParts`), whose rows one after the other are the
rows of the dataframe; the last writers may get an empty record only. Partial: the order is maintained or the
indices are not altered (see `C32_refuted`), and see `C55_panics_empty`. -/
theorem C55_toCSVs_partial [GoFloat F] {ff : F → GoStr} {df : DF} {h : Heap F} {opt : CSVWritingSpec}
    (wf : df.WF h) {ord : Nat → Kind → List GoStr → List GoStr} (ho : ∀ i k l, (ord i k l).Perm l) (hdel : opt.DelimOk)
    (hx : (abs h df).HasTexts ff opt.missingMarker) (hm : opt.maintainOrder = true ∨ df.indexViewed = false)
    (fulls : List (Nat → Bool)) (h1 : 1 ≤ fulls.length) (hr : 0 < (abs h df).nRows ∨ fulls.length = 1) :
    ∃ sinks h' parts, df.toCSVs ff ord (fulls.map (newCsvSink none)) opt h = .ok ((true, sinks), h') ∧
      sinks.length = fulls.length ∧ parts.flatten = List.range (abs h df).nRows ∧ parts.length ≤ fulls.length ∧
      EvenParts (abs h df).nRows fulls.length parts ∧
      (∀ (i : Nat) (w : CsvSink), sinks[i]? = some w → GetsPart ff opt.missingMarker (abs h df) parts i w.written) ∧
      NothingChanges h h' := by
  obtain ⟨dfs, h1', parts, e, hlen, hf, hpl, hle, hch, hall, hget⟩ := toCSVs_parts wf hx h1 hr
  obtain ⟨os, h2, e2, ex2, hl2, hos⟩ := csvParts_spec ho (opt := { opt with maintainOrder := true }) hdel rfl fulls 0 h1' hall (by omega)
  refine ⟨os.map (·.2), h2, parts, ?_, by simp [hl2], hf, hpl, hle, ?_, ?_⟩
  · unfold DF.toCSVs
    simp only [sortIfNeeded_eq hm, List.length_map, e, e2]
    congr 3
    rw [List.all_eq_true]
    intro o ho
    obtain ⟨j, hj⟩ := List.mem_iff_getElem?.1 ho
    exact (hos j o hj).1
  · intro i w hw
    rw [List.getElem?_map, Option.map_eq_some_iff] at hw
    obtain ⟨o, ho, rfl⟩ := hw
    obtain ⟨-, d, header, hd, hc⟩ := hos i o ho
    rw [Nat.zero_add] at hd
    exact hget i d header _ hd hc
  · intro d wd
    obtain ⟨a, b, c⟩ := hch d wd
    exact ⟨by rw [abs_ext ex2 c.toWF, a], by rw [locs_ext ex2 c.toWF, b], c.ext ex2⟩

/-- **C55** (panic). `ToCSVs` of a dataframe without rows into several writers panics. -/
theorem C55_panics_empty [GoFloat F] {ff : F → GoStr} {df : DF} {h : Heap F} {opt : CSVWritingSpec} (wf : df.WF h)
    {ord : Nat → Kind → List GoStr → List GoStr} (ho : ∀ i k l, (ord i k l).Perm l) (hdel : opt.DelimOk)
    (hm : opt.maintainOrder = true ∨ df.indexViewed = false)
    (h0 : (abs h df).nRows = 0) (fulls : List (Nat → Bool)) (h2 : 2 ≤ fulls.length) :
    df.toCSVs ff ord (fulls.map (newCsvSink none)) opt h = .error .panic := by
  unfold DF.toCSVs
  simp only [sortIfNeeded_eq hm, List.length_map]
  rw [C10_refuted_empty df h h0 _ (by omega)]
  match fulls, h2 with
  | f1 :: f2 :: fs, _ =>
    simp only [List.map_cons, csvParts, List.getElem?_cons_zero]
    obtain ⟨ok, w, h1, header, out, e, -⟩ :=
      to1CSV_core (ff := ff) (opt := { opt with maintainOrder := true }) (sortIfNeeded_eq (df := df.view) (Or.inl rfl)) (view_wf wf) (ho 0) hdel
        (fun k c _ r hr => by have : (abs h df.view).nRows = 0 := h0; omega) none f1
    simp only [e]
    rfl

/-! ### `ToCSVDir` -/

/-- The number written in decimal. -/
def digitsVal (l : GoStr) : Nat := l.foldl (fun n b => 10 * n + (b.toNat - 48)) 0

theorem digitsVal_natDec (n : Nat) : digitsVal (natDec n) = n := by
  unfold natDec
  split
  · rename_i h; subst h; rfl
  · have key : ∀ l : List Nat, (∀ d ∈ l, d < 10) →
        digitsVal (l.reverse.map fun d => UInt8.ofNat (48 + d)) = Nat.ofDigits 10 l := by
      intro l
      induction l with
      | nil => intro _; rfl
      | cons d l ih =>
        intro hl
        have hd := hl d (by simp)
        have := ih (fun x hx => hl x (by simp [hx]))
        unfold digitsVal at this ⊢
        rw [List.reverse_cons, List.map_append, List.foldl_append, this]
        simp only [List.map_cons, List.map_nil, List.foldl_cons, List.foldl_nil, Nat.ofDigits_cons]
        have e : (UInt8.ofNat (48 + d)).toNat = 48 + d := by
          simp; omega
        rw [e]; omega
    rw [key _ (fun d hd => Nat.digits_lt_base (by omega) hd), Nat.ofDigits_digits]

theorem digitsVal_zeros (k : Nat) (l : GoStr) : digitsVal (List.replicate k 48 ++ l) = digitsVal l := by
  induction k with
  | zero => simp
  | succ k ih =>
    rw [← ih]
    simp [List.replicate_succ, digitsVal]

theorem padDec_inj {w m n : Nat} (h : padDec w m = padDec w n) : m = n := by
  have := congrArg digitsVal h
  unfold padDec at this
  rwa [digitsVal_zeros, digitsVal_zeros, digitsVal_natDec, digitsVal_natDec] at this

/-- **C55** (`ToCSVDir`). With a positive maximum number of CPUs and files that can be created and written, `ToCSVDir` writes
between 1 and min(max CPU, 1 + NumRows / MinRowsPerFile) files (MinRowsPerFile is 512 when not positive), with pairwise distinct
paths that start with the prefix and end in ".csv"; the rows of the files one after the other are the rows of the
dataframe, split evenly. Partial: the order is maintained or the indices are not altered (see `C32_refuted`), and the maximum
number of CPUs is positive (see `C55_refuted_noCPU`). -/
theorem C55_toCSVDir_partial [GoFloat F] {ff : F → GoStr} {df : DF} {h : Heap F} {opt : CSVWritingSpec}
    (wf : df.WF h) {ord : Nat → Kind → List GoStr → List GoStr} (ho : ∀ i k l, (ord i k l).Perm l) (hdel : opt.DelimOk)
    (hx : (abs h df).HasTexts ff opt.missingMarker) (hm : opt.maintainOrder = true ∨ df.indexViewed = false)
    (hcpu : 1 ≤ df.maxCPU) (pre : GoStr) (full : GoStr → Nat → Bool) :
    ∃ paths sinks h' parts, df.toCSVDir ff ord (fun p => some (newCsvSink none (full p))) opt pre h =
        .ok ((paths, true, some sinks), h') ∧
      (paths.length : Int) = min df.maxCPU (1 + (abs h df).nRows / (if opt.minRowsPerFile ≤ 0 then 512 else opt.minRowsPerFile)) ∧
      1 ≤ paths.length ∧ paths.Nodup ∧ (∀ p ∈ paths, pre <+: p ∧ b!".csv" <:+ p) ∧
      sinks.length = paths.length ∧ parts.flatten = List.range (abs h df).nRows ∧ parts.length ≤ paths.length ∧
      EvenParts (abs h df).nRows paths.length parts ∧
      (∀ (i : Nat) (w : CsvSink), sinks[i]? = some w → GetsPart ff opt.missingMarker (abs h df) parts i w.written) ∧
      NothingChanges h h' := by
  generalize hM : (if opt.minRowsPerFile ≤ 0 then 512 else opt.minRowsPerFile) = M
  have hMpos : 0 < M := by rw [← hM]; split <;> omega
  have hN : csvNumFiles df.numRows opt.minRowsPerFile df.actualMaxCPU = min df.maxCPU (1 + (df.numRows : Int) / M) := by
    unfold csvNumFiles Raw.actualMaxCPU
    simp only [hM]
    rw [Int.tdiv_eq_ediv_of_nonneg (Int.natCast_nonneg _)]
    split <;> omega
  have hdiv : 0 ≤ (df.numRows : Int) / M := Int.ediv_nonneg (by omega) (by omega)
  generalize hNe : min df.maxCPU (1 + (df.numRows : Int) / M) = N at hN
  have hN1 : 1 ≤ N := by omega
  obtain ⟨width, hwd⟩ : ∃ width, width = (if N ≥ 100 then 3 else if N ≥ 10 then 2 else 0) := ⟨_, rfl⟩
  obtain ⟨paths, hpaths⟩ : ∃ paths : List GoStr, paths = (List.range N.toNat).map fun i => pre ++ (padDec width i ++ b!".csv") := ⟨_, rfl⟩
  have hp : csvPaths pre N = .ok paths := by
    unfold csvPaths
    simp only
    rw [if_neg (by omega), hpaths, hwd]
  have hpl : paths.length = N.toNat := by rw [hpaths]; simp
  have hmap : ∀ ps : List GoStr, ps.mapM (fun p => some (newCsvSink none (full p))) = some (ps.map fun p => newCsvSink none (full p)) := by
    intro ps
    induction ps with
    | nil => rfl
    | cons p ps ih => rw [List.mapM_cons, ih]; rfl
  have hone : 0 < (abs h df).nRows ∨ (paths.map full).length = 1 := by
    by_cases h0 : 0 < (abs h df).nRows
    · exact Or.inl h0
    · right
      have : df.numRows = 0 := by have : (abs h df).nRows = 0 := by omega
                                  exact this
      rw [this] at hNe
      simp at hNe
      simp [hpl]; omega
  obtain ⟨sinks, h', parts, e, c1, c2, c3, c4, c5, c6⟩ :=
    C55_toCSVs_partial wf ho hdel hx hm (paths.map full) (by simp [hpl]; omega) hone
  rw [List.length_map] at c1 c3 c4
  refine ⟨paths, sinks, h', parts, ?_, ?_, by omega, ?_, ?_, c1, c2, c3, c4, c5, c6⟩
  · unfold DF.toCSVDir DF.toCSVFiles
    rw [hN, hp]
    simp only [hmap]
    have : (paths.map fun p => newCsvSink none (full p)) = (paths.map full).map (newCsvSink none) := by
      rw [List.map_map]; rfl
    rw [this, e]
  · rw [hpl]
    have : ((abs h df).nRows : Int) = df.numRows := rfl
    rw [this]; omega
  · rw [hpaths]
    refine List.Nodup.map ?_ List.nodup_range
    intro i j hij
    have h1 := List.append_cancel_left hij
    exact padDec_inj (List.append_cancel_right h1)
  · intro p hpm
    rw [hpaths] at hpm
    obtain ⟨i, -, rfl⟩ := List.mem_map.1 hpm
    refine ⟨List.prefix_append _ _, ?_⟩
    rw [← List.append_assoc]
    exact List.suffix_append _ _

/-- C55 is false of a dataframe whose maximum number of CPUs is 0 (`EmptyDataFrame(n, 0)`): `ToCSVDir` returns nil and writes no file at all. -/
theorem C55_refuted_noCPU [GoFloat F] {ff : F → GoStr} {df : DF} {h : Heap F} {opt : CSVWritingSpec}
    {ord : Nat → Kind → List GoStr → List GoStr} (hcpu : df.maxCPU = 0) (create : GoStr → Option CsvSink) (pre : GoStr) :
    df.toCSVDir ff ord create opt pre h = .ok (([], true, some []), h) := by
  have hdiv : 0 ≤ (df.numRows : Int) / (if opt.minRowsPerFile ≤ 0 then 512 else opt.minRowsPerFile) := by
    apply Int.ediv_nonneg (by omega); split <;> omega
  have hN : csvNumFiles df.numRows opt.minRowsPerFile df.actualMaxCPU = 0 := by
    unfold csvNumFiles Raw.actualMaxCPU
    simp only [hcpu]
    rw [Int.tdiv_eq_ediv_of_nonneg (Int.natCast_nonneg _), if_pos (by omega)]
  unfold DF.toCSVDir DF.toCSVFiles DF.toCSVs
  rw [hN]
  simp [csvPaths, DF.splitNView, csvParts]

/-! ### The hypotheses are met -/

/-- A check of `HasTexts` by computation. -/
def textsOk (df : DF) (h : Heap F) : Bool :=
  (h.tab df.tab).all (fun e => df.rows.all fun i =>
    match e.1.1, h.cell e.2 i with
    | .bool, some (.bool _) => true
    | .int, some (.int _) => true
    | .float, some (.float _) => true
    | .obj, _ => true
    | _, _ => false) &&
  (hdrList h df.strHdr).all (fun c => df.rows.all fun i =>
    match h.cell (tabCol (h.tab df.tab) (.obj, c)) i with
    | some .nil => true
    | some (.str _) => true
    | _ => false)

theorem hasTexts_of_check [GoFloat F] {df : DF} {h : Heap F} (hc : textsOk df h = true) (ff : F → GoStr) (marker : GoStr) :
    (abs h df).HasTexts ff marker := by
  unfold textsOk at hc
  simp only [Bool.and_eq_true, List.all_eq_true] at hc
  obtain ⟨h1, h2⟩ := hc
  intro k c hw r hr
  have hrl : r < df.rows.length := hr
  rw [cell_abs, List.getElem?_eq_getElem hrl, Option.bind_some]
  unfold ADF.Written at hw
  split at hw
  · rename_i hk
    subst hk
    have := h2 c (by simpa [abs] using hw) _ (List.getElem_mem hrl)
    split at this
    · rename_i e; exact ⟨_, _, e, .nil⟩
    · rename_i e; exact ⟨_, _, e, .str _⟩
    · cases this
  · rename_i hk
    simp only [abs, Option.isSome_map] at hw
    obtain ⟨s, hs⟩ := Option.isSome_iff_exists.1 hw
    have := h1 ((k, c), s) (AMap.mem_of_get hs) _ (List.getElem_mem hrl)
    have ht : tabCol (h.tab df.tab) (k, c) = s := by unfold tabCol; rw [hs]; rfl
    rw [ht]
    simp only at this
    split at this
    · rename_i b e
      cases b
      · exact ⟨_, _, e, .ff⟩
      · exact ⟨_, _, e, .tt⟩
    · rename_i n e
      cases n with
      | ofNat n => exact ⟨_, _, e, .nat n⟩
      | negSucc n => exact ⟨_, _, e, .neg n⟩
    · rename_i x e
      exact ⟨_, _, e, .float x⟩
    · exact absurd rfl hk
    · cases this

namespace Demo

/-- Nil is written as "NA". -/
def csvOpt : CSVWritingSpec := ⟨b!"NA", 0, true, 0⟩

def csvOrd : Kind → List GoStr → List GoStr := fun _ l => l.reverse

theorem csvOrd_perm (k : Kind) (l : List GoStr) : (csvOrd k l).Perm l := List.reverse_perm l

theorem df_texts : (abs h df).HasTexts fmtInt b!"NA" := hasTexts_of_check (by decide +kernel) _ _

example : ∃ w h' header, df.to1CSV fmtInt csvOrd (newCsvSink none fun n => n % 2 == 0) csvOpt h = .ok ((true, w), h') ∧
    CsvOf fmtInt b!"NA" (abs h df) header w.written ∧ NothingChanges h h' :=
  C32_to1CSV_partial df_wf csvOrd_perm (Or.inl rfl) df_texts (Or.inl rfl) _

/-- What the model writes for the demo. -/
def csvOut (df : DF) (opt : CSVWritingSpec) (h : Heap Int) : List (List GoStr) :=
  match df.to1CSV fmtInt csvOrd (newCsvSink none fun n => n % 2 == 0) opt h with
  | .ok ((true, w), _) => w.written
  | _ => []

example : csvOut df csvOpt h = [[b!"b", b!"a", b!"x", b!"s"], [b!"true", b!"10", b!"5", b!"u"], [b!"false", b!"20", b!"3", b!"v"],
    [b!"true", b!"30", b!"9", b!"u"], [b!"false", b!"40", b!"1", b!"NA"]] := by decide +kernel

/-- A writer that fails after two records. -/
example : ∃ ok w h' header out, df.to1CSV fmtInt csvOrd (newCsvSink (some 2) fun _ => false) csvOpt h = .ok ((ok, w), h') ∧
    CsvOf fmtInt b!"NA" (abs h df) header out ∧ w.written = out.take 2 ∧ (ok = true ↔ w.written = out) :=
  C64_errors_partial df_wf csvOrd_perm (Or.inl rfl) df_texts (Or.inl rfl) (by decide) 2 _

/-- A quote is no delimiter. -/
example : ∃ w h', df.to1CSV fmtInt csvOrd (newCsvSink none fun _ => false) { csvOpt with comma := 34 } h = .ok ((false, w), h') ∧
    w.written = [] ∧ NothingChanges h h' :=
  C64_bad_delimiter df_wf csvOrd_perm (by simp only [CSVWritingSpec.DelimOk]; decide) none _

/-- The rows of the demo in reverse. -/
def rdf : DF := df.reverseView

example : csvOut rdf { csvOpt with maintainOrder := false } h = [[b!"b", b!"a", b!"x", b!"s"], [b!"true", b!"10", b!"5", b!"u"],
    [b!"true", b!"10", b!"5", b!"u"], [b!"true", b!"10", b!"5", b!"u"], [b!"true", b!"10", b!"5", b!"u"]] := by decide +kernel

theorem rdf_wf : rdf.WF h := DF.wf_of_check 4 (by decide +kernel)

/-- The reversed demo is not written right. -/
example : ∃ w h', rdf.to1CSV fmtInt csvOrd (newCsvSink none fun _ => false) { csvOpt with maintainOrder := false } h = .ok ((true, w), h') ∧
    ∀ (is : List Nat), is.Perm (List.range (abs h rdf).nRows) → ∀ header,
      ¬ CsvOf fmtInt b!"NA" ((abs h rdf).select is) header w.written :=
  C32_refuted (k := .int) (c := b!"a") (r := 0) (r' := 1) rdf_wf csvOrd_perm (Or.inl rfl) (by decide) rfl (hasTexts_of_check (by decide +kernel) _ _)
    (show ((abs h rdf).col .int b!"a").isSome = true by decide +kernel) (v := .int (40 : Nat)) (v' := .int (30 : Nat)) (by decide +kernel) (by decide +kernel) (TextOf.nat _) (TextOf.nat _)
    (by decide +kernel) _

example : ∃ sinks h' parts, df.toCSVs fmtInt (fun _ => csvOrd) ([fun _ => false, fun _ => true, fun _ => false].map (newCsvSink none)) csvOpt h =
    .ok ((true, sinks), h') ∧ sinks.length = 3 ∧ parts.flatten = List.range (abs h df).nRows ∧
    ∀ (i : Nat) (w : CsvSink), sinks[i]? = some w → GetsPart fmtInt b!"NA" (abs h df) parts i w.written := by
  obtain ⟨sinks, h', parts, a, b, c, -, -, d, -⟩ := C55_toCSVs_partial (ff := fmtInt) df_wf (fun _ => csvOrd_perm) (opt := csvOpt) (Or.inl rfl) df_texts
    (Or.inl rfl) [fun _ => false, fun _ => true, fun _ => false] (by decide) (Or.inl (by decide))
  exact ⟨sinks, h', parts, a, b, c, d⟩

example : ∃ paths sinks h', df.toCSVDir fmtInt (fun _ => csvOrd) (fun p => some (newCsvSink none fun _ => false))
    { csvOpt with minRowsPerFile := 2 } b!"/tmp/r" h = .ok ((paths, true, some sinks), h') ∧ paths.length = 3 ∧ paths.Nodup := by
  obtain ⟨paths, sinks, h', parts, a, b, c, d, -⟩ := C55_toCSVDir_partial (ff := fmtInt) df_wf (fun _ => csvOrd_perm)
    (opt := { csvOpt with minRowsPerFile := 2 }) (Or.inl rfl) df_texts (Or.inl rfl) (by decide) b!"/tmp/r" (fun _ _ => false)
  refine ⟨paths, sinks, h', a, ?_, d⟩
  have : min df.maxCPU (1 + ((abs h df).nRows : Int) / 2) = 3 := by decide
  simp only [show ¬ (2 : Int) ≤ 0 by decide, if_false] at b
  omega

end Demo

end Verif
