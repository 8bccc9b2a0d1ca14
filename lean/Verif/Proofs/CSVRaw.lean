import Verif.Props.CSVWriting

/-! The writing functions again, for any dataframe whose texts can be made (`cellText`), typed or not; and the case of altered
indices (C55): every record of every file is the same. -/

namespace Verif
variable {F : Type}

/-- `CsvOf` with the texts the code makes. -/
structure CsvRaw [GoFloat F] (ff : F → GoStr) (marker : GoStr) (a : ADF (Val F)) (header : List (Kind × GoStr))
    (out : List (List GoStr)) : Prop where
  cols : ∀ k c, (k, c) ∈ header ↔ a.Written k c
  once : header.Nodup
  order : header.Pairwise fun x y => csvRank x.1 ≤ csvRank y.1
  records : ∃ recs, out = header.map (·.2) :: recs ∧ recs.length = a.nRows ∧
    ∀ r rec, recs[r]? = some rec →
      List.Forall₂ (fun (kc : Kind × GoStr) t => ∃ v, a.cell kc.1 kc.2 r = some v ∧ cellText ff marker kc.1 v = .ok t) header rec

/-- Every element to write has a text. -/
def ADF.HasRaw [GoFloat F] (a : ADF (Val F)) (ff : F → GoStr) (marker : GoStr) : Prop :=
  ∀ k c, a.Written k c → ∀ r, r < a.nRows → ∃ v t, a.cell k c r = some v ∧ cellText ff marker k v = .ok t

/-- The part a writer receives. -/
def GetsRaw [GoFloat F] (ff : F → GoStr) (marker : GoStr) (a : ADF (Val F)) (parts : List (List Nat)) (i : Nat) (out : List (List GoStr)) : Prop :=
  match parts[i]? with
  | some is => ∃ header, CsvRaw ff marker (a.select is) header out
  | none => out = [[]]

theorem to1CSV_raw [GoFloat F] {ff : F → GoStr} {df d : DF} {h : Heap F} {opt : CSVWritingSpec}
    (hd : df.sortIfNeeded opt.maintainOrder = d) (wf : d.WF h)
    {ord : Kind → List GoStr → List GoStr} (ho : ∀ k l, (ord k l).Perm l) (hdel : opt.DelimOk)
    (hx : (abs h d).HasRaw ff opt.missingMarker) (limit : Option Nat) (full : Nat → Bool) :
    ∃ ok w h' header out, df.to1CSV ff ord (newCsvSink limit full) opt h = .ok ((ok, w), h') ∧ Heap.Ext h h' ∧
      CsvRaw ff opt.missingMarker (abs h d) header out ∧ w.written = reaches limit out ∧
      (ok = false → ∃ n, limit = some n ∧ n < out.length) ∧
      (ok = true → 0 < d.numRows → ∀ n, limit = some n → out.length ≤ n) ∧
      (d.numRows = 0 → full 1 = false → ok = true) := by
  obtain ⟨e, hc, hn, hp⟩ := csvHeader_spec wf ho
  unfold DF.to1CSV
  simp only [hd]
  generalize d.csvHeader ord h = q at e hc hn hp
  obtain ⟨cols, h'⟩ := q
  dsimp only at e hc hn hp ⊢
  obtain ⟨w0, hw0⟩ : ∃ w0, w0 = (if opt.comma ≠ 0 then { newCsvSink limit full with comma := opt.comma } else newCsvSink limit full) := ⟨_, rfl⟩
  rw [← hw0]
  have hform : ∃ cm, w0 = ⟨cm, limit, full, [], [], false⟩ ∧ validDelim cm = true := by
    rw [hw0]
    rcases hdel with hz | hv
    · exact ⟨44, by rw [hz]; rfl, by decide⟩
    · by_cases hz : opt.comma = 0
      · exact ⟨44, by rw [hz]; rfl, by decide⟩
      · exact ⟨opt.comma, by rw [if_pos hz]; rfl, hv⟩
  obtain ⟨cm, rfl, hdv⟩ := hform
  clear hw0
  have habs : abs h' d = abs h d := abs_ext e wf.toWF
  -- the texts
  have htx : ∀ kc ∈ cols, ∀ i ∈ d.rows, rawText ff opt.missingMarker h' (h'.tab d.tab) kc i =
      some ((rawText ff opt.missingMarker h' (h'.tab d.tab) kc i).getD []) := by
    intro kc hkc i hi
    obtain ⟨r, hr⟩ := List.mem_iff_getElem?.1 hi
    obtain ⟨v, t, hv, ht⟩ := hx kc.1 kc.2 ((hc kc.1 kc.2).1 hkc) r (List.getElem?_eq_some_iff.1 hr).1
    rw [← habs, cell_abs, hr] at hv
    simp only [Option.bind_some] at hv
    simp only [rawText, hv, Option.bind_some, ht, Except.toOption, Option.getD_some]
  have hrec : CsvRaw ff opt.missingMarker (abs h d) cols (cols.map (·.2) :: d.rows.map fun i => cols.map fun kc =>
      (rawText ff opt.missingMarker h' (h'.tab d.tab) kc i).getD []) := by
    refine ⟨hc, hn, hp, _, rfl, by simp [abs, DF.numRows], ?_⟩
    intro r rec hr
    rw [List.getElem?_map, Option.map_eq_some_iff] at hr
    obtain ⟨i, hi, rfl⟩ := hr
    rw [List.forall₂_map_right_iff]
    refine List.forall₂_same.2 ?_
    intro kc hkc
    obtain ⟨v, t, hv, ht⟩ := hx kc.1 kc.2 ((hc kc.1 kc.2).1 hkc) r (List.getElem?_eq_some_iff.1 hi).1
    refine ⟨v, hv, ?_⟩
    rw [← habs, cell_abs, hi] at hv
    simp only [Option.bind_some] at hv
    simp only [rawText, hv, Option.bind_some, ht, Except.toOption, Option.getD_some]
  have hw := write_handed (w := ⟨cm, limit, full, [], [], false⟩) hdv rfl (cols.map (·.2))
  generalize hq : CsvSink.write ⟨cm, limit, full, [], [], false⟩ (cols.map (·.2)) = q at hw
  obtain ⟨ok1, w1⟩ := q
  dsimp only at hw ⊢
  cases ok1 with
  | false =>
    have hw' := hw.more (d.rows.map fun i => cols.map fun kc => (rawText ff opt.missingMarker h' (h'.tab d.tab) kc i).getD [])
    refine ⟨false, w1.flush, h', cols, _, rfl, e, hrec, flush_reaches hw', ?_, by simp, ?_⟩
    · intro _
      obtain ⟨-, n, h1, h2, -⟩ := hw'.bad rfl
      exact ⟨n, h1, by simpa [CsvSink.total] using h2⟩
    · intro _ hfull
      unfold CsvSink.write at hq
      simp [hdv, hfull] at hq
  | true =>
    obtain ⟨ok, w2, e2, hh, hpend⟩ := csvLoop_spec htx d.numRows 0 (List.replicate csvBatch (List.replicate cols.length [])) w1
      (by simp [DF.numRows]) (by
        refine ⟨by simp, ?_⟩
        intro p row hrow
        rw [List.getElem?_replicate] at hrow
        split at hrow
        · cases hrow; simp
        · cases hrow) (by rw [hw.comma]; exact hdv) (hw.good rfl).1
    rw [List.drop_zero] at hh
    have hall := hw.trans hh
    simp only [e2]
    refine ⟨ok, w2.flush, h', cols, _, rfl, e, hrec, flush_reaches hall, ?_, ?_, ?_⟩
    · intro hok
      subst hok
      obtain ⟨-, n, h1, h2, -⟩ := hall.bad rfl
      exact ⟨n, h1, by simpa [CsvSink.total] using h2⟩
    · intro hok hpos n hlim
      subst hok
      have hpe := hpend rfl hpos
      have htot := (hall.good rfl).2
      have hfit := hall.fits rfl n hlim (by simp)
      unfold CsvSink.total at htot
      rw [hpe] at htot
      simp only [List.append_nil, List.nil_append] at htot
      rw [htot] at hfit
      simpa using hfit
    · intro h0 _
      have hnil : d.rows = [] := List.length_eq_zero_iff.1 h0
      have : d.numRows = 0 := h0
      rw [this] at e2
      unfold csvLoop at e2
      cases e2; rfl

theorem HasRaw.select [GoFloat F] {a : ADF (Val F)} {ff : F → GoStr} {marker : GoStr} (h : a.HasRaw ff marker) {is : List Nat}
    (hi : ∀ i ∈ is, i < a.nRows) : (a.select is).HasRaw ff marker := by
  intro k c hw r hr
  have hw' : a.Written k c := by
    unfold ADF.Written at hw ⊢
    split
    · rename_i hk; rw [if_pos hk] at hw; exact hw
    · rename_i hk; rw [if_neg hk] at hw; simpa [ADF.select] using hw
  have hrl : r < is.length := hr
  obtain ⟨v, t, hv, ht⟩ := h k c hw' is[r] (hi _ (List.getElem_mem hrl))
  refine ⟨v, t, ?_, ht⟩
  rw [← hv]
  unfold ADF.cell ADF.select
  simp only
  cases a.col k c with
  | none => rfl
  | some l => simp only [Option.map_some, Option.bind_some, List.getElem?_map, List.getElem?_eq_getElem hrl]; rfl

theorem csvParts_raw [GoFloat F] {ff : F → GoStr} {ord : Nat → Kind → List GoStr → List GoStr}
    (ho : ∀ i k l, (ord i k l).Perm l) {opt : CSVWritingSpec} (hdel : opt.DelimOk) (hm : opt.maintainOrder = true)
    {dfs : List DF} (fulls : List (Nat → Bool)) : ∀ (i : Nat) (h : Heap F), 
    (∀ d ∈ dfs, d.WF h ∧ (abs h d).HasRaw ff opt.missingMarker) → i + fulls.length ≤ dfs.length →
    ∃ os h', csvParts ff ord dfs opt i (fulls.map (newCsvSink none)) h = .ok (os, h') ∧ Heap.Ext h h' ∧
      os.length = fulls.length ∧ ∀ (j : Nat) (o : Bool × CsvSink), os[j]? = some o → o.1 = true ∧ ∃ d header, dfs[i + j]? = some d ∧
        CsvRaw ff opt.missingMarker (abs h d) header o.2.written := by
  induction fulls with
  | nil => intro i h _ _; exact ⟨[], h, rfl, Heap.Ext.refl h, rfl, by simp⟩
  | cons f fulls ih =>
    intro i h hall hl
    simp only [List.length_cons] at hl
    have hi : i < dfs.length := by omega
    obtain ⟨wf, hx⟩ := hall dfs[i] (List.getElem_mem hi)
    obtain ⟨ok, w, h1, header, out, e, ex, hc, hw, hok, -, -⟩ :=
      to1CSV_raw (sortIfNeeded_eq (Or.inl hm)) wf (ho i) hdel hx none f
    cases ok with
    | false => obtain ⟨n, hn, -⟩ := hok rfl; cases hn
    | true =>
      obtain ⟨os, h2, e2, ex2, hl2, hos⟩ := ih (i + 1) h1 (fun d hd => by
        obtain ⟨a, b⟩ := hall d hd
        exact ⟨a.ext ex, by rw [abs_ext ex a.toWF]; exact b⟩) (by omega)
      refine ⟨(true, w) :: os, h2, ?_, ex.trans ex2, by simp [hl2], ?_⟩
      · simp only [List.map_cons, csvParts, List.getElem?_eq_getElem hi, e, e2]
      · intro j o ho
        cases j with
        | zero =>
          simp at ho
          subst ho
          exact ⟨rfl, dfs[i], header, by simp [hi], by rw [hw]; exact hc⟩
        | succ j =>
          obtain ⟨a, d, hd, b, c⟩ := hos j o (by simpa using ho)
          refine ⟨a, d, hd, by rw [← b]; congr 1; omega, ?_⟩
          have hmem : d ∈ dfs := List.mem_of_getElem? b
          rw [← abs_ext ex (hall d hmem).1.toWF]
          exact c

theorem toCSVs_raw [GoFloat F] {ff : F → GoStr} {marker : GoStr} {df : DF} {h : Heap F} (wf : df.WF h)
    (hx : (abs h df).HasRaw ff marker) {n : Nat} (h1 : 1 ≤ n) (hr : 0 < (abs h df).nRows ∨ n = 1) :
    ∃ dfs h1 parts, df.splitNView n h = .ok (dfs, h1) ∧ dfs.length = n ∧
      parts.flatten = List.range (abs h df).nRows ∧ parts.length ≤ n ∧
      EvenParts (abs h df).nRows n parts ∧ NothingChanges h h1 ∧
      (∀ d ∈ dfs, d.WF h1 ∧ (abs h1 d).HasRaw ff marker) ∧
      ∀ (i : Nat) (d : DF) header out, dfs[i]? = some d → CsvRaw ff marker (abs h1 d) header out →
        GetsRaw ff marker (abs h df) parts i out := by
  have main : ∃ vs pad h1 parts, df.splitNView n h = .ok (vs ++ pad, h1) ∧ (vs ++ pad).length = n ∧
      Parts h df h1 vs parts ∧ parts.flatten = List.range df.numRows ∧
      EvenParts df.numRows n parts ∧
      (∀ e ∈ pad, e.WF h1 ∧ (abs h1 e).nRows = 0 ∧ (∀ k c, (abs h1 e).col k c = none) ∧ ∀ c, (abs h1 e).isStr c = false) := by
    by_cases h0 : 0 < df.numRows
    · obtain ⟨vs, pad, h', parts, a⟩ := C10_splitNView_partial wf (n := n) (by omega) h0
      exact ⟨vs, pad, h', parts, a⟩
    · have hl : n = 1 := by
        rcases hr with hr | hr
        · exact absurd hr h0
        · exact hr
      refine ⟨[df.view], [], h, [List.range df.numRows], ?_, by simp [hl], .cons (view_rowView wf) .nil, by simp, ?_, by simp⟩
      · rw [C10_refuted_empty df h (by omega) _ (by omega)]; rfl
      · exact ⟨by intro p hp; simp at hp; subst hp; rw [hl]; simp, by simp, fun h => absurd h h0⟩
  obtain ⟨vs, pad, h1', parts, e, hlen, hp, hf, hle, hpad⟩ := main
  have hch := splitN_changes wf (by omega) e
  have hsub : ∀ is ∈ parts, ∀ i ∈ is, i < (abs h df).nRows := by
    intro is his i hi
    have : i ∈ parts.flatten := List.mem_flatten.2 ⟨is, his, hi⟩
    rw [hf] at this
    exact List.mem_range.1 this
  have hall : ∀ d ∈ vs ++ pad, d.WF h1' ∧ (abs h1' d).HasRaw ff marker := by
    intro d hd
    rcases List.mem_append.1 hd with hd | hd
    · obtain ⟨i, hi⟩ := List.mem_iff_getElem?.1 hd
      obtain ⟨is, his, rv⟩ := hp.get i d hi
      refine ⟨rv.wf, ?_⟩
      rw [rv.shows]
      exact HasRaw.select hx (hsub is (List.mem_of_getElem? his))
    · obtain ⟨a, b, c⟩ := hpad d hd
      exact ⟨a, fun k c _ r hr => by omega⟩
  refine ⟨vs ++ pad, h1', parts, e, hlen, hf, ?_, hle, hch, hall, ?_⟩
  · have := hp.length_eq
    simp at hlen; omega
  · intro i d header out hd hc
    unfold GetsRaw
    have hvl := hp.length_eq
    by_cases hi : i < vs.length
    · rw [List.getElem?_append_left hi] at hd
      obtain ⟨is, his, rv⟩ := hp.get i d hd
      rw [his]
      simp only
      rw [rv.shows] at hc
      exact ⟨header, hc⟩
    · rw [List.getElem?_append_right (by omega)] at hd
      obtain ⟨-, b, c1, c2⟩ := hpad d (List.mem_of_getElem? hd)
      rw [List.getElem?_eq_none (by omega)]
      simp only
      obtain ⟨recs, hout, hl, -⟩ := hc.records
      rw [b] at hl
      have : recs = [] := List.length_eq_zero_iff.1 hl
      subst this
      have hnil : header = [] := by
        apply List.eq_nil_iff_forall_not_mem.2
        rintro ⟨k, c⟩ hm
        have := (hc.cols k c).1 hm
        unfold ADF.Written at this
        split at this
        · rw [c2] at this; cases this
        · rw [c1] at this; cases this
      rw [hout, hnil]; rfl

theorem toCSVs_alike' [GoFloat F] {ff : F → GoStr} {df d : DF} {h : Heap F} {opt : CSVWritingSpec}
    (hd : df.sortIfNeeded opt.maintainOrder = d) (wf : d.WF h) {ord : Nat → Kind → List GoStr → List GoStr} (ho : ∀ i k l, (ord i k l).Perm l) (hdel : opt.DelimOk)
    (hx : (abs h d).HasRaw ff opt.missingMarker)
    (fulls : List (Nat → Bool)) (h1 : 1 ≤ fulls.length) (hr : 0 < (abs h d).nRows ∨ fulls.length = 1) :
    ∃ sinks h' parts, df.toCSVs ff ord (fulls.map (newCsvSink none)) opt h = .ok ((true, sinks), h') ∧
      sinks.length = fulls.length ∧ parts.flatten = List.range (abs h d).nRows ∧ parts.length ≤ fulls.length ∧
      EvenParts (abs h d).nRows fulls.length parts ∧
      (∀ (i : Nat) (w : CsvSink), sinks[i]? = some w → GetsRaw ff opt.missingMarker (abs h d) parts i w.written) ∧
      NothingChanges h h' := by
  obtain ⟨dfs, h1', parts, e, hlen, hf, hpl, hle, hch, hall, hget⟩ := toCSVs_raw wf hx h1 hr
  obtain ⟨os, h2, e2, ex2, hl2, hos⟩ := csvParts_raw ho (opt := { opt with maintainOrder := true }) hdel rfl fulls 0 h1' hall (by omega)
  refine ⟨os.map (·.2), h2, parts, ?_, by simp [hl2], hf, hpl, hle, ?_, ?_⟩
  · unfold DF.toCSVs
    simp only [hd, List.length_map, e, e2]
    congr 3
    rw [List.all_eq_true]
    intro o ho
    obtain ⟨j, hj⟩ := List.mem_iff_getElem?.1 ho
    exact (hos j o hj).1
  · intro i w hw
    rw [List.getElem?_map, Option.map_eq_some_iff] at hw
    obtain ⟨o, ho, rfl⟩ := hw
    obtain ⟨-, d, header, hd, hc⟩ := hos i o ho
    rw [Nat.zero_add] at hd
    exact hget i d header _ hd hc
  · intro d wd
    obtain ⟨a, b, c⟩ := hch d wd
    exact ⟨by rw [abs_ext ex2 c.toWF, a], by rw [locs_ext ex2 c.toWF, b], c.ext ex2⟩

theorem toCSVDir_alike' [GoFloat F] {ff : F → GoStr} {df d : DF} {h : Heap F} {opt : CSVWritingSpec}
    (hd : df.sortIfNeeded opt.maintainOrder = d) (wf : d.WF h) {ord : Nat → Kind → List GoStr → List GoStr} (ho : ∀ i k l, (ord i k l).Perm l) (hdel : opt.DelimOk)
    (hx : (abs h d).HasRaw ff opt.missingMarker)
    (hnr : d.numRows = df.numRows) (hcpu : 1 ≤ df.maxCPU) (pre : GoStr) (full : GoStr → Nat → Bool) :
    ∃ paths sinks h' parts, df.toCSVDir ff ord (fun p => some (newCsvSink none (full p))) opt pre h =
        .ok ((paths, true, some sinks), h') ∧
      (paths.length : Int) = min df.maxCPU (1 + (abs h d).nRows / (if opt.minRowsPerFile ≤ 0 then 512 else opt.minRowsPerFile)) ∧
      1 ≤ paths.length ∧ paths.Nodup ∧ (∀ p ∈ paths, pre <+: p ∧ b!".csv" <:+ p) ∧
      sinks.length = paths.length ∧ parts.flatten = List.range (abs h d).nRows ∧ parts.length ≤ paths.length ∧
      EvenParts (abs h d).nRows paths.length parts ∧
      (∀ (i : Nat) (w : CsvSink), sinks[i]? = some w → GetsRaw ff opt.missingMarker (abs h d) parts i w.written) ∧
      NothingChanges h h' := by
  generalize hM : (if opt.minRowsPerFile ≤ 0 then 512 else opt.minRowsPerFile) = M
  have hMpos : 0 < M := by rw [← hM]; split <;> omega
  have hN : csvNumFiles df.numRows opt.minRowsPerFile df.actualMaxCPU = min df.maxCPU (1 + (df.numRows : Int) / M) := by
    unfold csvNumFiles Raw.actualMaxCPU
    simp only [hM]
    rw [Int.tdiv_eq_ediv_of_nonneg (Int.natCast_nonneg _)]
    split <;> omega
  have hdiv : 0 ≤ (df.numRows : Int) / M := Int.ediv_nonneg (by omega) (by omega)
  generalize hNe : min df.maxCPU (1 + (df.numRows : Int) / M) = N at hN
  have hN1 : 1 ≤ N := by omega
  obtain ⟨width, hwd⟩ : ∃ width, width = (if N ≥ 100 then 3 else if N ≥ 10 then 2 else 0) := ⟨_, rfl⟩
  obtain ⟨paths, hpaths⟩ : ∃ paths : List GoStr, paths = (List.range N.toNat).map fun i => pre ++ (padDec width i ++ b!".csv") := ⟨_, rfl⟩
  have hp : csvPaths pre N = .ok paths := by
    unfold csvPaths
    simp only
    rw [if_neg (by omega), hpaths, hwd]
  have hpl : paths.length = N.toNat := by rw [hpaths]; simp
  have hmap : ∀ ps : List GoStr, ps.mapM (fun p => some (newCsvSink none (full p))) = some (ps.map fun p => newCsvSink none (full p)) := by
    intro ps
    induction ps with
    | nil => rfl
    | cons p ps ih => rw [List.mapM_cons, ih]; rfl
  have hone : 0 < (abs h d).nRows ∨ (paths.map full).length = 1 := by
    by_cases h0 : 0 < (abs h d).nRows
    · exact Or.inl h0
    · right
      have : df.numRows = 0 := by have : (abs h d).nRows = 0 := by omega
                                  rw [← hnr]; exact this
      rw [this] at hNe
      simp at hNe
      simp [hpl]; omega
  obtain ⟨sinks, h', parts, e, c1, c2, c3, c4, c5, c6⟩ :=
    toCSVs_alike' hd wf ho hdel hx (paths.map full) (by simp [hpl]; omega) hone
  rw [List.length_map] at c1 c3 c4
  refine ⟨paths, sinks, h', parts, ?_, ?_, by omega, ?_, ?_, c1, c2, c3, c4, c5, c6⟩
  · unfold DF.toCSVDir DF.toCSVFiles
    rw [hN, hp]
    simp only [hmap]
    have : (paths.map fun p => newCsvSink none (full p)) = (paths.map full).map (newCsvSink none) := by
      rw [List.map_map]; rfl
    rw [this, e]
  · rw [hpl]
    have : ((abs h d).nRows : Int) = df.numRows := congrArg (Nat.cast (R := Int)) hnr
    rw [this]; omega
  · rw [hpaths]
    refine List.Nodup.map ?_ List.nodup_range
    intro i j hij
    have h1 := List.append_cancel_left hij
    exact padDec_inj (List.append_cancel_right h1)
  · intro p hpm
    rw [hpaths] at hpm
    obtain ⟨i, -, rfl⟩ := List.mem_map.1 hpm
    refine ⟨List.prefix_append _ _, ?_⟩
    rw [← List.append_assoc]
    exact List.suffix_append _ _

/-- What a file of number `i` holds when all the records are the same: the names of the written columns, then `text` of each of
them, once for every row of the part of that number. The order of the columns may differ from file to file (but bools come first,
then ints, floats, strings). -/
def AlikeFile (a : ADF (Val F)) (text : Kind → GoStr → GoStr) (parts : List (List Nat)) (i : Nat) (out : List (List GoStr)) : Prop :=
  match parts[i]? with
  | some is => ∃ header : List (Kind × GoStr), header.Nodup ∧ header.Pairwise (fun x y => csvRank x.1 ≤ csvRank y.1) ∧
      (∀ k c, (k, c) ∈ header ↔ a.Written k c) ∧ out = header.map (·.2) :: List.replicate is.length (header.map fun kc => text kc.1 kc.2)
  | none => out = [[]]

/-- The cells of the sorted view. -/
theorem zeros_cell {df : DF} {h : Heap F} (hv : df.indexViewed = true) (k : Kind) (c : GoStr) {r : Nat} (hr : r < df.numRows) :
    (abs h (df.sortIfNeeded false)).cell k c r = h.cell (tabCol (h.tab df.tab) (k, c)) 0 := by
  rw [cell_abs, sortIfNeeded_zeros hv]
  simp only [DF.rows, Idx.rows, Idx.mk', List.take_length, List.getElem?_replicate]
  rw [if_pos hr]
  rfl

theorem zeros_written {df : DF} {h : Heap F} (hv : df.indexViewed = true) (k : Kind) (c : GoStr) :
    (abs h (df.sortIfNeeded false)).Written k c ↔ (abs h df).Written k c := by
  rw [sortIfNeeded_zeros hv]
  unfold ADF.Written
  simp only [abs, DF.view]
  split
  · rfl
  · simp

theorem zeros_nRows {df : DF} (hv : df.indexViewed = true) : (df.sortIfNeeded false).numRows = df.numRows := by
  rw [sortIfNeeded_zeros hv]
  simp [DF.numRows, DF.rows, Idx.rows, Idx.mk']

/-- Bool, int and float columns have texts. -/
theorem zeros_raw [GoFloat F] {ff : F → GoStr} {marker : GoStr} {df : DF} {h : Heap F} (wf : df.WF h) (hv : df.indexViewed = true)
    (hs : ∀ c, (abs h df).isStr c = false) : (abs h (df.sortIfNeeded false)).HasRaw ff marker := by
  intro k c hw r hr
  have hr' : r < df.numRows := by rw [← zeros_nRows hv]; exact hr
  rw [zeros_written hv] at hw
  unfold ADF.Written at hw
  have hk : k ≠ .obj := by
    rintro rfl
    rw [if_pos rfl, hs] at hw
    cases hw
  rw [if_neg hk] at hw
  obtain ⟨s, hg⟩ : ∃ s, AMap.get (h.tab df.tab) (k, c) = some s := by
    simp only [abs, Option.isSome_map] at hw
    exact Option.isSome_iff_exists.1 hw
  have hlen : 0 < s.len := by
    obtain ⟨N, h1, h2, -⟩ := wf.rect
    have hne : df.rows ≠ [] := fun e => by simp [DF.numRows, e] at hr'
    obtain ⟨x, hx⟩ := List.exists_mem_of_ne_nil _ hne
    have := h2 x hx
    rw [h1 _ _ hg]
    omega
  have hcell : ∃ v, h.cell s 0 = some v := by
    rw [Heap.cell_eq_read]
    have := (wf.slices _ _ hg).read_length
    exact ⟨_, List.getElem?_eq_getElem (by omega)⟩
  obtain ⟨v, hv'⟩ := hcell
  have ht : ∃ t, cellText ff marker k v = .ok t := by
    cases k <;> cases v <;> first | exact absurd rfl hk | exact ⟨_, rfl⟩
  obtain ⟨t, ht⟩ := ht
  refine ⟨v, t, ?_, ht⟩
  rw [zeros_cell hv k c hr']
  unfold tabCol
  rw [hg]
  exact hv'

/-- The text of the first element of a column. -/
def firstText [GoFloat F] (ff : F → GoStr) (marker : GoStr) (df : DF) (h : Heap F) (k : Kind) (c : GoStr) : GoStr :=
  match (h.cell (tabCol (h.tab df.tab) (k, c)) 0).map (cellText ff marker k) with
  | some (.ok t) => t
  | _ => []

theorem alike_of_raw [GoFloat F] {ff : F → GoStr} {marker : GoStr} {df : DF} {h : Heap F} (hv : df.indexViewed = true) {parts : List (List Nat)}
    (hp : ∀ is ∈ parts, ∀ r ∈ is, r < df.numRows) {i : Nat} {out : List (List GoStr)}
    (hg : GetsRaw ff marker (abs h (df.sortIfNeeded false)) parts i out) :
    AlikeFile (abs h df) (firstText ff marker df h) parts i out := by
  unfold GetsRaw at hg
  unfold AlikeFile
  cases hi : parts[i]? with
  | none => rw [hi] at hg; exact hg
  | some is =>
    rw [hi] at hg
    obtain ⟨header, hc⟩ := hg
    have hw : ∀ k c, ((abs h (df.sortIfNeeded false)).select is).Written k c ↔ (abs h df).Written k c := by
      intro k c
      rw [← zeros_written hv]
      unfold ADF.Written
      simp only [ADF.select, Option.isSome_map]
    refine ⟨header, hc.once, hc.order, fun k c => (hc.cols k c).trans (hw k c), ?_⟩
    obtain ⟨recs, rfl, hl, hrec⟩ := hc.records
    congr 1
    refine List.eq_replicate_iff.2 ⟨hl, ?_⟩
    intro rec hm
    obtain ⟨r, hr⟩ := List.mem_iff_getElem?.1 hm
    have hrl : r < is.length := by
      have := (List.getElem?_eq_some_iff.1 hr).1
      rw [hl] at this
      exact this
    have hf := hrec r rec hr
    have hcell : ∀ k c, ((abs h (df.sortIfNeeded false)).select is).cell k c r = h.cell (tabCol (h.tab df.tab) (k, c)) 0 := by
      intro k c
      have hin : is[r] < df.numRows := hp is (List.mem_of_getElem? hi) _ (List.getElem_mem hrl)
      rw [← zeros_cell hv k c hin]
      unfold ADF.cell ADF.select
      simp only
      cases (abs h (df.sortIfNeeded false)).col k c with
      | none => rfl
      | some l => simp only [Option.map_some, Option.bind_some, List.getElem?_map, List.getElem?_eq_getElem hrl]; rfl
    clear hrec hm hr hl hw hc hi
    induction hf with
    | nil => rfl
    | cons a _ ih =>
      obtain ⟨v, v1, v2⟩ := a
      rw [hcell] at v1
      rw [List.map_cons, ← ih]
      unfold firstText
      rw [v1]
      simp only [Option.map_some, v2]

/-- C55 is false of `ToCSVDir` when the indices are altered and the order need not be maintained (no string columns, for
simplicity): as many files as documented, the records shared out as documented, but every record of every file is the same one: the very first row of the columns (position 0), whether or not
the dataframe shows it. -/
theorem C55_alike [GoFloat F] {ff : F → GoStr} {df : DF} {h : Heap F} {opt : CSVWritingSpec} (wf : df.WF h)
    (hv : df.indexViewed = true) (hm : opt.maintainOrder = false) (hs : ∀ c, (abs h df).isStr c = false)
    {ord : Nat → Kind → List GoStr → List GoStr} (ho : ∀ i k l, (ord i k l).Perm l) (hdel : opt.DelimOk)
    (hcpu : 1 ≤ df.maxCPU) (pre : GoStr) (full : GoStr → Nat → Bool) :
    ∃ paths sinks h' parts text, df.toCSVDir ff ord (fun p => some (newCsvSink none (full p))) opt pre h =
        .ok ((paths, true, some sinks), h') ∧
      (paths.length : Int) = min df.maxCPU (1 + (abs h df).nRows / (if opt.minRowsPerFile ≤ 0 then 512 else opt.minRowsPerFile)) ∧
      1 ≤ paths.length ∧ paths.Nodup ∧ (∀ p ∈ paths, pre <+: p ∧ b!".csv" <:+ p) ∧
      sinks.length = paths.length ∧ parts.flatten = List.range (abs h df).nRows ∧ parts.length ≤ paths.length ∧
      EvenParts (abs h df).nRows paths.length parts ∧
      (∀ (i : Nat) (w : CsvSink), sinks[i]? = some w → AlikeFile (abs h df) text parts i w.written) ∧
      (∀ (d : DF) (r : Nat) (k : Kind) (c : GoStr) (v : Val F), d.tab = df.tab → d.rows[r]? = some 0 → (abs h d).cell k c r = some v →
        ∀ s, cellText ff opt.missingMarker k v = .ok s → text k c = s) ∧
      NothingChanges h h' := by
  obtain ⟨paths, sinks, h', parts, e, c1, c2, c3, c4, c5, c6, c7, c8, c9, c10⟩ :=
    toCSVDir_alike' (d := df.sortIfNeeded false) (by rw [hm]) (zeros_wf wf hv) ho hdel (zeros_raw wf hv hs) (zeros_nRows hv) hcpu pre full
  have hn : (abs h (df.sortIfNeeded false)).nRows = (abs h df).nRows := zeros_nRows hv
  rw [hn] at c1 c6 c8
  refine ⟨paths, sinks, h', parts, firstText ff opt.missingMarker df h, e, c1, c2, c3, c4, c5, c6, c7, c8, ?_, ?_, c10⟩
  rotate_left
  · intro d r k c v ht hr hv s hs
    rw [cell_abs, hr, ht] at hv
    unfold firstText
    simp only [Option.bind_some] at hv
    rw [hv]
    simp only [Option.map_some, hs]
  intro i w hw
  refine alike_of_raw hv ?_ (c9 i w hw)
  intro is his r hr
  have : r ∈ parts.flatten := List.mem_flatten.2 ⟨is, his, hr⟩
  rw [c6] at this
  exact List.mem_range.1 this

end Verif
