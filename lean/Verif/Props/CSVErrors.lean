import Verif.Props.CSVWriting

/-! C64 for the functions that write several CSVs, and for files that cannot be created. -/

namespace Verif
variable {F : Type}

/-- **C64** (files that cannot be created). When one of the files cannot be created, `ToCSVFiles` returns an error
and hands no record to any of them; nothing else happens. -/
theorem C64_create_error [GoFloat F] {ff : F → GoStr} {df : DF} {h : Heap F} {opt : CSVWritingSpec}
    {ord : Nat → Kind → List GoStr → List GoStr} {create : GoStr → Option CsvSink} {paths : List GoStr}
    (hp : ∃ p ∈ paths, create p = none) :
    df.toCSVFiles ff ord create opt paths h = .ok ((false, none), h) := by
  have : paths.mapM create = none := by
    obtain ⟨p, hp, hn⟩ := hp
    induction paths with
    | nil => cases hp
    | cons q qs ih =>
      rw [List.mapM_cons]
      rcases List.mem_cons.1 hp with rfl | hp
      · rw [hn]; rfl
      · rw [ih hp]
        cases create q <;> rfl
  unfold DF.toCSVFiles
  rw [this]

/-- **C64** (directories). When one of the files of `ToCSVDir` cannot be created, for example because the directory does
not exist, it returns an error (next to the paths) and hands no record to any file. -/
theorem C64_dir_error [GoFloat F] {ff : F → GoStr} {df : DF} {h : Heap F} {opt : CSVWritingSpec}
    {ord : Nat → Kind → List GoStr → List GoStr} (hcpu : 1 ≤ df.maxCPU) (pre : GoStr) {create : GoStr → Option CsvSink}
    (hp : ∀ p, pre <+: p → create p = none) :
    ∃ paths, df.toCSVDir ff ord create opt pre h = .ok ((paths, false, none), h) := by
  have hN : 1 ≤ csvNumFiles df.numRows opt.minRowsPerFile df.actualMaxCPU := by
    unfold csvNumFiles Raw.actualMaxCPU
    dsimp only
    have hdiv : 0 ≤ Int.tdiv (df.numRows : Int) (if opt.minRowsPerFile ≤ 0 then 512 else opt.minRowsPerFile) :=
      Int.tdiv_nonneg (by omega) (by split <;> omega)
    generalize Int.tdiv (df.numRows : Int) (if opt.minRowsPerFile ≤ 0 then 512 else opt.minRowsPerFile) = q at hdiv ⊢
    by_cases hq : df.maxCPU < 1 + q
    · rw [if_pos hq]; exact hcpu
    · rw [if_neg hq]; omega
  generalize hn : csvNumFiles df.numRows opt.minRowsPerFile df.actualMaxCPU = n at hN
  unfold DF.toCSVDir
  rw [hn]
  obtain ⟨ps, he, q, hq, hpre⟩ : ∃ ps, csvPaths pre n = .ok ps ∧ ∃ q ∈ ps, pre <+: q := by
    unfold csvPaths
    simp only [show ¬ n < 0 by omega, if_false]
    refine ⟨_, rfl, _, List.mem_map.2 ⟨0, by rw [List.mem_range]; omega, rfl⟩, ?_⟩
    exact List.prefix_append _ _
  simp only [he]
  rw [C64_create_error ⟨q, hq, hp q hpre⟩]
  exact ⟨ps, rfl⟩

/-- `csvParts` on writers that may fail. -/
theorem csvParts_limits [GoFloat F] {ff : F → GoStr} {ord : Nat → Kind → List GoStr → List GoStr}
    (ho : ∀ i k l, (ord i k l).Perm l) {opt : CSVWritingSpec} (hdel : opt.DelimOk) (hm : opt.maintainOrder = true)
    {dfs : List DF} (ws : List (Option Nat × (Nat → Bool))) : ∀ (i : Nat) (h : Heap F),
    (∀ d ∈ dfs, d.WF h ∧ (abs h d).HasTexts ff opt.missingMarker) → i + ws.length ≤ dfs.length →
    ∃ os h', csvParts ff ord dfs opt i (ws.map fun w => newCsvSink w.1 w.2) h = .ok (os, h') ∧ Heap.Ext h h' ∧
      os.length = ws.length ∧ ∀ (j : Nat) (o : Bool × CsvSink), os[j]? = some o → ∃ w d header out, ws[j]? = some w ∧
        dfs[i + j]? = some d ∧ CsvOf ff opt.missingMarker (abs h d) header out ∧ o.2.written = reaches w.1 out ∧
        (o.1 = true → 0 < (abs h d).nRows → o.2.written = out) ∧ (o.1 = false → o.2.written ≠ out) := by
  induction ws with
  | nil => intro i h _ _; exact ⟨[], h, rfl, Heap.Ext.refl h, rfl, by simp⟩
  | cons f ws ih =>
    intro i h hall hl
    simp only [List.length_cons] at hl
    have hi : i < dfs.length := by omega
    obtain ⟨wf, hx⟩ := hall dfs[i] (List.getElem_mem hi)
    obtain ⟨ok, w, h1, header, out, e, ex, hc, hw, hok, hfit, -⟩ :=
      to1CSV_core (sortIfNeeded_eq (Or.inl hm)) wf (ho i) hdel hx f.1 f.2
    obtain ⟨os, h2, e2, ex2, hl2, hos⟩ := ih (i + 1) h1 (fun d hd => by
      obtain ⟨a, b⟩ := hall d hd
      exact ⟨a.ext ex, by rw [abs_ext ex a.toWF]; exact b⟩) (by omega)
    refine ⟨(ok, w) :: os, h2, ?_, ex.trans ex2, by simp [hl2], ?_⟩
    · simp only [List.map_cons, csvParts, List.getElem?_eq_getElem hi, e, e2]
    · intro j o ho
      cases j with
      | zero =>
        simp at ho
        subst ho
        refine ⟨f, dfs[i], header, out, rfl, by simp [hi], hc, hw, ?_, ?_⟩
        · intro h1 h2
          rw [hw]
          cases hlim : f.1 with
          | none => rfl
          | some n => exact List.take_of_length_le (hfit h1 h2 n hlim)
        · intro h1 h2
          obtain ⟨n, hn, hlt⟩ := hok h1
          rw [hw, hn] at h2
          have := congrArg List.length h2
          simp only [reaches, List.length_take] at this
          omega
      | succ j =>
        obtain ⟨w', d, hd, out', a, b, c, c2, c3, c4⟩ := hos j o (by simpa using ho)
        have hmem : d ∈ dfs := List.mem_of_getElem? b
        rw [abs_ext ex (hall d hmem).1.toWF] at c c3
        exact ⟨w', d, hd, out', by simpa using a, by rw [← b]; congr 1; omega, c, c2, c3, c4⟩

/-- **C64** (`ToCSVs`). Every writer `i` takes `limits i` records and then fails. Each gets a prefix of the CSV of its part of
the rows; if `ToCSVs` returns nil then every writer that was given rows got all of its CSV, and if it returns an
error then some writer did not get all of its. For every buffering. Partial: as `C55_toCSVs_partial`, and a writer
that is given no rows may lose its header (`C64_refuted`). -/
theorem C64_toCSVs_partial [GoFloat F] {ff : F → GoStr} {df : DF} {h : Heap F} {opt : CSVWritingSpec}
    (wf : df.WF h) {ord : Nat → Kind → List GoStr → List GoStr} (ho : ∀ i k l, (ord i k l).Perm l) (hdel : opt.DelimOk)
    (hx : (abs h df).HasTexts ff opt.missingMarker) (hm : opt.maintainOrder = true ∨ df.indexViewed = false)
    (ws : List (Option Nat × (Nat → Bool))) (h1 : 1 ≤ ws.length) (hr : 0 < (abs h df).nRows) :
    ∃ ok sinks h' parts, ∃ outs : List (List (List GoStr)), df.toCSVs ff ord (ws.map fun w => newCsvSink w.1 w.2) opt h = .ok ((ok, sinks), h') ∧
      sinks.length = ws.length ∧ outs.length = ws.length ∧ parts.flatten = List.range (abs h df).nRows ∧
      (∀ (i : Nat) (out : List (List GoStr)), outs[i]? = some out → GetsPart ff opt.missingMarker (abs h df) parts i out) ∧
      (∀ (i : Nat) (w : CsvSink) (out : List (List GoStr)), sinks[i]? = some w → outs[i]? = some out → w.written <+: out) ∧
      (ok = true → ∀ (i : Nat) (w : CsvSink) (out : List (List GoStr)) (is : List Nat), sinks[i]? = some w → outs[i]? = some out →
        parts[i]? = some is → is ≠ [] → w.written = out) ∧
      (ok = false → ∃ (i : Nat) (w : CsvSink) (out : List (List GoStr)), sinks[i]? = some w ∧ outs[i]? = some out ∧ w.written ≠ out) := by
  obtain ⟨vs, pad, h1', parts, e, hlen, hp, hf, hle, hpad⟩ := C10_splitNView_partial wf (n := ws.length) (by omega) hr
  have hsub : ∀ is ∈ parts, ∀ i ∈ is, i < (abs h df).nRows := by
    intro is his i hi
    have : i ∈ parts.flatten := List.mem_flatten.2 ⟨is, his, hi⟩
    rw [hf] at this
    exact List.mem_range.1 this
  have hall : ∀ d ∈ vs ++ pad, d.WF h1' ∧ (abs h1' d).HasTexts ff opt.missingMarker := by
    intro d hd
    rcases List.mem_append.1 hd with hd | hd
    · obtain ⟨i, hi⟩ := List.mem_iff_getElem?.1 hd
      obtain ⟨is, his, rv⟩ := hp.get i d hi
      refine ⟨rv.wf, ?_⟩
      rw [rv.shows]
      exact HasTexts.select hx (hsub is (List.mem_of_getElem? his))
    · obtain ⟨a, b, c⟩ := hpad d hd
      exact ⟨a, fun k c _ r hr => by omega⟩
  obtain ⟨os, h2, e2, ex2, hl2, hos⟩ := csvParts_limits ho (opt := { opt with maintainOrder := true }) hdel rfl ws 0 h1' hall (by omega)
  have key : ∀ j : Fin os.length, ∃ out, GetsPart ff opt.missingMarker (abs h df) parts j out ∧
      os[j].2.written <+: out ∧ (os[j].1 = true → ∀ is, parts[j.1]? = some is → is ≠ [] → os[j].2.written = out) ∧
      (os[j].1 = false → os[j].2.written ≠ out) := by
    intro j
    obtain ⟨w, d, header, out, hw, hd, hc, r1, r2, r3⟩ := hos j os[j] (List.getElem?_eq_getElem j.2)
    have hvl := hp.length_eq
    refine ⟨out, ?_, ?_, ?_, r3⟩
    · rw [Nat.zero_add] at hd
      unfold GetsPart
      by_cases hi : j.1 < vs.length
      · rw [List.getElem?_append_left hi] at hd
        obtain ⟨is, his, rv⟩ := hp.get j d hd
        rw [his]
        simp only
        rw [rv.shows] at hc
        exact ⟨header, hc⟩
      · rw [List.getElem?_append_right (by omega)] at hd
        obtain ⟨-, b, c1, c2⟩ := hpad d (List.mem_of_getElem? hd)
        rw [List.getElem?_eq_none (by omega)]
        simp only
        obtain ⟨recs, hout, hl, -⟩ := hc.records
        rw [b] at hl
        have : recs = [] := List.length_eq_zero_iff.1 hl
        subst this
        have hnil : header = [] := by
          apply List.eq_nil_iff_forall_not_mem.2
          rintro ⟨k, c⟩ hm
          have := (hc.cols k c).1 hm
          unfold ADF.Written at this
          split at this
          · rw [c2] at this; cases this
          · rw [c1] at this; cases this
        rw [hout, hnil]; rfl
    · rw [r1]
      cases w.1 with
      | none => exact List.prefix_refl _
      | some n => exact List.take_prefix _ _
    · intro hok is his hne
      apply r2 hok
      rw [Nat.zero_add] at hd
      have hi : j.1 < vs.length := by
        have := (List.getElem?_eq_some_iff.1 his).1
        omega
      rw [List.getElem?_append_left hi] at hd
      obtain ⟨is', his', rv⟩ := hp.get j d hd
      rw [his] at his'
      cases his'
      rw [rv.shows]
      exact List.length_pos_of_ne_nil hne
  choose outs ho1 ho2 ho3 ho4 using key
  have hget : ∀ (i : Nat) (out : List (List GoStr)), (List.ofFn outs)[i]? = some out → ∃ hi : i < os.length, out = outs ⟨i, hi⟩ := by
    intro i out hi
    rw [List.getElem?_ofFn] at hi
    split at hi
    · rename_i hlt; cases hi; exact ⟨hlt, rfl⟩
    · cases hi
  have hsink : ∀ (i : Nat) (w : CsvSink), (os.map (·.2))[i]? = some w → ∃ hi : i < os.length, w = os[i].2 := by
    intro i w hi
    rw [List.getElem?_map, Option.map_eq_some_iff] at hi
    obtain ⟨o, ho, rfl⟩ := hi
    obtain ⟨hlt, rfl⟩ := List.getElem?_eq_some_iff.1 ho
    exact ⟨hlt, rfl⟩
  refine ⟨os.all (·.1), os.map (·.2), h2, parts, List.ofFn outs, ?_, by simp [hl2], by simp [hl2], hf, ?_, ?_, ?_, ?_⟩
  · unfold DF.toCSVs
    simp only [sortIfNeeded_eq hm, List.length_map, e, e2]
  · intro i out hi
    obtain ⟨hlt, rfl⟩ := hget i out hi
    exact ho1 ⟨i, hlt⟩
  · intro i w out hw hi
    obtain ⟨hlt, rfl⟩ := hget i out hi
    obtain ⟨-, rfl⟩ := hsink i w hw
    exact ho2 ⟨i, hlt⟩
  · intro hok i w out is hw hi his hne
    obtain ⟨hlt, rfl⟩ := hget i out hi
    obtain ⟨-, rfl⟩ := hsink i w hw
    exact ho3 ⟨i, hlt⟩ (List.all_eq_true.1 hok _ (List.getElem_mem hlt)) is his hne
  · intro hok
    rw [List.all_eq_false] at hok
    obtain ⟨o, ho, hfalse⟩ := hok
    obtain ⟨j, hj, rfl⟩ := List.mem_iff_getElem.1 ho
    refine ⟨j, os[j].2, outs ⟨j, hj⟩, by simp [hj], by simp [hj], ho4 ⟨j, hj⟩ (by simpa using hfalse)⟩

namespace Demo

-- a writer that fails is reported, whichever it is
example : okAnd (df.toCSVs fmtInt (fun _ => csvOrd) [newCsvSink none (fun _ => false), newCsvSink (some 1) (fun _ => false)]
    csvOpt h) (fun r => r.1.1 == false && r.1.2.map (·.written.length) == [3, 1]) = true := by decide +kernel

-- a file that cannot be created
example : ∃ r, df.toCSVFiles fmtInt (fun _ => csvOrd) (fun p => if p = b!"b" then none else some (newCsvSink none (fun _ => false)))
    csvOpt [b!"a", b!"b"] h = .ok ((false, none), r) := ⟨_, C64_create_error ⟨b!"b", by simp, by simp⟩⟩

end Demo

end Verif
