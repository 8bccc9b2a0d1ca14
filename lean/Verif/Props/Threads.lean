import Verif.Proofs.ForkCSV
import Verif.Props.CSVParsing

/-! **C78**: the goroutines of `FromCSV` and `ToCSVs`, in every order of their steps. -/

namespace Verif
variable {σ α F : Type}

theorem wsteps_trans {prog : Nat → GoStr → List (σ → σ)} {n m : Nat} {s t u : WPool σ} (a : WPool.Steps prog n s t)
    (b : WPool.Steps prog m t u) : WPool.Steps prog (n + m) s u := by
  induction b with
  | refl => exact a
  | tail _ b ih => exact .tail (ih a) b

/-- From every reachable state the caller can come back. -/
theorem wpool_returns {prog : Nat → GoStr → List (σ → σ)} (hl : ∀ i k, (prog i k).length = (prog 0 k).length)
    {all : List GoStr} {W : Nat} (hne : [] ∉ all) (hW : 0 < W) : ∀ (N : Nat) (s : WPool σ), s.pool.weight ⟨false, prog 0⟩ ≤ N →
    Pool.Inv all W s.pool → ∃ n t, WPool.Steps prog n s t ∧ t.pool.caller = .returned := by
  intro N
  induction N with
  | zero =>
    intro s hs iv
    by_cases hc : s.pool.caller = .returned
    · exact ⟨0, s, .refl s, hc⟩
    · obtain ⟨t, st⟩ := wpool_never_blocked prog iv hne hW hc
      have := wweight_steps hl iv (.tail (.refl s) st)
      omega
  | succ N ih =>
    intro s hs iv
    by_cases hc : s.pool.caller = .returned
    · exact ⟨0, s, .refl s, hc⟩
    · obtain ⟨t, st⟩ := wpool_never_blocked prog iv hne hW hc
      have one : WPool.Steps prog (0 + 1) s t := .tail (.refl s) st
      have := wweight_steps hl iv one
      obtain ⟨n, u, st', hu⟩ := ih t (by omega) (winv_steps iv one)
      exact ⟨_, u, wsteps_trans one st', hu⟩

theorem csvProg_eq [GoFloat F] (pf : GoStr → Option F) (spec : CSVReadingSpec) (records : List (List GoStr)) (header : List GoStr) :
    csvProg pf spec records header = fun i c => (csvJobOps pf spec records header c).map (onFrame i) := rfl

section
variable [GoFloat F] (pf : GoStr → Option F) {inp : CsvInput} {spec : CSVReadingSpec} {header : List GoStr}
  {records : List (List GoStr)} {order : List GoStr} {numCPU n : Nat} {t : WPool (Nat → CsvFrame F)}

/-- The frames of the goroutines when the caller is back. -/
theorem csvThreads_frames (hh : Holds spec inp header records)
    (hp : order.Perm (csvColumns header spec.exclude))
    (st : WPool.Steps (csvProg pf spec records header) n (csvThreads numCPU spec header records order) t)
    (hr : t.pool.caller = .returned) :
    (t.taken.map (·.2)).Perm (csvColumns header spec.exclude) ∧
    (∀ p ∈ t.taken, p.1 < (queueWorkers (csvColumns header spec.exclude) (clampCPU numCPU spec.maxCPU)).toNat) ∧
    ∀ i, FrameOK pf spec (cellsUnder header records) records.length (takenBy t.taken i) (t.pool.mem i) := by
  rw [csvProg_eq] at st
  obtain ⟨h1, h2, h3⟩ := wpool_result hp st hr
  have hperm : (t.taken.map (·.2)).Perm (csvColumns header spec.exclude) := by rw [h2]; exact hp
  have nd : (t.taken.map (·.2)).Nodup := hperm.nodup_iff.2 (nodup_csvColumns _ _)
  refine ⟨hperm, h3, fun i => ?_⟩
  rw [h1 i]
  have := frames_run (takenBy t.taken i) (header := header) (frameOK_new pf spec (cellsUnder header records) records.length)
    (by simpa using takenBy_nodup nd i) (by
      intro c hc
      have hc : c ∈ header := (mem_csvColumns.1 (hperm.mem_iff.1 (List.mem_map.2 ⟨_, mem_takenBy.1 hc, rfl⟩))).1
      rw [indexOfString_eq, if_pos hc]
      simp only [Nat.zero_add]
      exact colCells_ok (fun r hr => by rw [hh.fields r hr]; exact List.idxOf_lt_length_of_mem hc)) (by simp [cellsUnder])
  simpa using this

/-- **C78** (`FromCSV`, what the goroutines read). Whatever the order of the steps of the goroutines: when the caller has
collected the results, each column that is not excluded is in the proto-frame of exactly one goroutine, with the documented
type and values, marked as string if and only if its type is string; and there is nothing else. -/
theorem C78_fromCSV_frames (hd : spec.Default) (hh : Holds spec inp header records)
    (hp : order.Perm (csvColumns header spec.exclude))
    (st : WPool.Steps (csvProg pf spec records header) n (csvThreads numCPU spec header records order) t)
    (hr : t.pool.caller = .returned) :
    (∀ c, c ∈ header → c ∉ spec.exclude → ∃ i k vs, Inferred pf spec.missingValues (cellsUnder header records c) k vs ∧
      AMap.get (t.pool.mem i).cols (k, c) = some vs ∧
      ∀ j k' vs', AMap.get (t.pool.mem j).cols (k', c) = some vs' → j = i ∧ k' = k ∧ vs' = vs) ∧
    (∀ c, ¬ (c ∈ header ∧ c ∉ spec.exclude) → ∀ i k, AMap.get (t.pool.mem i).cols (k, c) = none) ∧
    (∀ i c, c ∈ (t.pool.mem i).strs ↔ (AMap.get (t.pool.mem i).cols (.obj, c)).isSome) := by
  obtain ⟨hperm, hlt, hf⟩ := csvThreads_frames pf hh hp st hr
  have nd : (t.taken.map (·.2)).Nodup := hperm.nodup_iff.2 (nodup_csvColumns _ _)
  refine ⟨fun c hc hx => ?_, fun c hc i k => ?_, fun i c => ?_⟩
  · obtain ⟨⟨i, c'⟩, hm, e⟩ := List.mem_map.1 (hperm.mem_iff.2 (mem_csvColumns.2 ⟨hc, hx⟩))
    dsimp only at e; subst e
    refine ⟨i, _, _, (csvKind_default hd).1 (Prod.eta _).symm, ?_, ?_⟩
    · rw [(hf i).cols, if_pos ⟨mem_takenBy.2 hm, rfl⟩]
    · intro j k' vs' h
      rw [(hf j).cols] at h
      split at h
      · rename_i h'
        injection h with h
        exact ⟨taken_unique nd (mem_takenBy.1 h'.1) hm, h'.2.symm, h.symm⟩
      · cases h
  · rw [(hf i).cols, if_neg]
    rintro ⟨h, -⟩
    exact hc (mem_csvColumns.1 (hperm.mem_iff.1 (List.mem_map.2 ⟨_, mem_takenBy.1 h, rfl⟩)))
  · rw [(hf i).strs, (hf i).cols]
    split
    · rename_i h; simpa using h
    · rename_i h; simpa using h

/-- **C78** (`FromCSV`, same result as one goroutine after the other). Whatever the options and the order of the steps, the
columns and string marks found in the proto-frames are those of the `RawData` that the sequential model of `FromCSV` returns. -/
theorem C78_fromCSV_sequential (hh : Holds spec inp header records) (hemp : [] ∈ header → [] ∈ spec.exclude)
    (hp : order.Perm (csvColumns header spec.exclude))
    (st : WPool.Steps (csvProg pf spec records header) n (csvThreads numCPU spec header records order) t)
    (hr : t.pool.caller = .returned) {jobs : List GoStr → List GoStr} (hj : ∀ l, (jobs l).Perm l) (who : GoStr → Nat) (h : Heap F) :
    ∃ r h', fromCSV pf jobs who inp spec h = .ok (some r, h') ∧
      (∀ k c vs, rawCol h' r k c = some vs ↔ ∃ i, AMap.get (t.pool.mem i).cols (k, c) = some vs) ∧
      ∀ c, rawStr h' r c = true ↔ ∃ i, c ∈ (t.pool.mem i).strs := by
  obtain ⟨hperm, hlt, hf⟩ := csvThreads_frames pf hh hp st hr
  obtain ⟨r, h', e, -, -, -, -, hcol, hstr⟩ := fromCSV_spec pf hj who hh hemp h
  have hin : ∀ c, (c ∈ header ∧ c ∉ spec.exclude) ↔ ∃ i, c ∈ takenBy t.taken i := by
    intro c
    rw [← mem_csvColumns, ← hperm.mem_iff, List.mem_map]
    constructor
    · rintro ⟨⟨i, c'⟩, hm, e⟩
      dsimp only at e; subst e
      exact ⟨i, mem_takenBy.2 hm⟩
    · rintro ⟨i, hi⟩; exact ⟨_, mem_takenBy.1 hi, rfl⟩
  refine ⟨r, h', e, fun k c vs => ?_, fun c => ?_⟩
  · rw [hcol]
    constructor
    · intro h1
      split at h1
      · rename_i h2
        obtain ⟨i, hi⟩ := (hin c).1 ⟨h2.1, h2.2.1⟩
        exact ⟨i, by rw [(hf i).cols, if_pos ⟨hi, h2.2.2⟩]; exact h1⟩
      · cases h1
    · rintro ⟨i, hi⟩
      rw [(hf i).cols] at hi
      split at hi
      · rename_i h2
        have := (hin c).2 ⟨i, h2.1⟩
        rw [if_pos ⟨this.1, this.2, h2.2⟩]; exact hi
      · cases hi
  · rw [hstr, decide_eq_true_iff, ← and_assoc, hin]
    constructor
    · rintro ⟨⟨i, hi⟩, hk⟩; exact ⟨i, ((hf i).strs c).2 ⟨hi, hk⟩⟩
    · rintro ⟨i, hi⟩
      obtain ⟨a, b⟩ := ((hf i).strs c).1 hi
      exact ⟨⟨i, a⟩, b⟩

/-- **C78** (`FromCSV` ends). From every reachable state the caller can come back; as long as it has not, some goroutine can make
a step; no goroutine sends on a closed channel; and no execution is longer than a number fixed at the start. -/
theorem C78_fromCSV_ends (hemp : [] ∈ header → [] ∈ spec.exclude) (hcpu : 0 < numCPU)
    (hp : order.Perm (csvColumns header spec.exclude)) :
    ∃ N, ∀ n t, WPool.Steps (csvProg pf spec records header) n (csvThreads numCPU spec header records order) t →
      n ≤ N ∧ t.pool.crashed = false ∧
      (t.pool.caller ≠ .returned → ∃ u, WPool.Step (csvProg pf spec records header) t u) ∧
      ∃ m u, WPool.Steps (csvProg pf spec records header) m t u ∧ u.pool.caller = .returned := by
  have hl : ∀ i k, (csvProg pf spec records header i k).length = (csvProg pf spec records header 0 k).length := by
    intro i k; simp [csvProg]
  have hne : [] ∉ csvColumns header spec.exclude := by
    rw [mem_csvColumns]; rintro ⟨a, b⟩; exact b (hemp a)
  have iv0 := inv_init hp (clampCPU numCPU spec.maxCPU) (fun _ : Nat => (newCsvFrame records.length : CsvFrame F))
  have hW : 0 < (queueWorkers (csvColumns header spec.exclude) (clampCPU numCPU spec.maxCPU)).toNat :=
    csvQueueWorkers_pos (clampCPU_pos hcpu _)
  refine ⟨(csvThreads (F := F) numCPU spec header records order).pool.weight ⟨false, csvProg pf spec records header 0⟩, fun n t st => ?_⟩
  have iv := winv_steps (s := csvThreads numCPU spec header records order) iv0 st
  refine ⟨?_, iv.ok, wpool_never_blocked _ iv hne hW, wpool_returns hl hne hW _ t (Nat.le_refl _) iv⟩
  have := wweight_steps hl (s := csvThreads numCPU spec header records order) iv0 st
  exact Nat.le_trans (Nat.le_add_right _ _) this

end

/-! ### ToCSVs -/

theorem fsteps_trans {n a b : Nat} {prog : Nat → List (σ → σ)} {s t u : Fork σ} (x : Fork.Steps n prog a s t)
    (y : Fork.Steps n prog b t u) : Fork.Steps n prog (a + b) s u := by
  induction y with
  | refl => exact x
  | tail _ b ih => exact .tail (ih x) b

theorem fork_returns {n : Nat} {P : Nat → List (α → α)} {m0 : Nat → α} : ∀ (N : Nat) (s : Fork (Nat → α)),
    s.weight n (fun i => (P i).map (onFrame i)) ≤ N → Fork.Inv n P m0 s →
    ∃ m t, Fork.Steps n (fun i => (P i).map (onFrame i)) m s t ∧ t.returned = true := by
  intro N
  induction N with
  | zero =>
    intro s hs iv
    cases hc : s.returned with
    | true => exact ⟨0, s, .refl s, hc⟩
    | false =>
      obtain ⟨t, st⟩ := fork_never_blocked iv hc
      have := Fork.weight_step st
      omega
  | succ N ih =>
    intro s hs iv
    cases hc : s.returned with
    | true => exact ⟨0, s, .refl s, hc⟩
    | false =>
      obtain ⟨t, st⟩ := fork_never_blocked iv hc
      have := Fork.weight_step st
      obtain ⟨m, u, st', hu⟩ := ih t (by omega) (iv.step st)
      exact ⟨_, u, fsteps_trans (.tail (.refl s) st) st', hu⟩

section
variable [GoFloat F] {ff : F → GoStr} {ord : Nat → Kind → List GoStr → List GoStr} {opt : CSVWritingSpec} {h : Heap F}
  {dfs : List DF} {ws : List CsvSink} {n : Nat} {t : Fork (Nat → CsvOut)}

/-- The accesses of goroutine number `i`, in its own memory. -/
def csvOutJob (ff : F → GoStr) (ord : Nat → Kind → List GoStr → List GoStr) (opt : CSVWritingSpec) (h : Heap F) (dfs : List DF)
    (i : Nat) : List (CsvOut → CsvOut) :=
  match dfs[i]? with
  | none => []
  | some d => csvOutOps ff opt h d (d.csvHeader (ord i) h).1

theorem csvOutProg_eq : csvOutProg ff ord opt h dfs = fun i => (csvOutJob ff ord opt h dfs i).map (onFrame i) := by
  funext i
  unfold csvOutProg csvOutJob
  cases dfs[i]? <;> rfl

/-- What goroutine number `i` did when the caller is back. -/
theorem csvFork_result (hm : opt.maintainOrder = true)
    (st : Fork.Steps ws.length (csvOutProg ff ord opt h dfs) n (csvFork ws) t) (hr : t.returned = true)
    {i : Nat} {d : DF} {w w' : CsvSink} {ok : Bool} {h' : Heap F} (hd : dfs[i]? = some d) (wf : d.WF h) (hw : ws[i]? = some w)
    (e : d.to1CSV ff (ord i) w opt h = .ok ((ok, w'), h')) : (t.mem i).ret = some ok ∧ (t.mem i).w = w' := by
  rw [csvOutProg_eq] at st
  obtain ⟨h1, -⟩ := fork_result st hr (List.getElem?_eq_some_iff.1 hw).1
  simp only [csvOutJob, hd, hw, Option.getD_some] at h1
  obtain ⟨b, hb⟩ := csvOut_run wf.toWF hm [] e
  rw [h1, hb]
  exact ⟨rfl, rfl⟩

theorem csvParts_get (ws : List CsvSink) (hm : opt.maintainOrder = true) {h0 : Heap F} : ∀ (i : Nat) (h : Heap F) {os h'}, Heap.Ext h0 h →
    (∀ d ∈ dfs, d.WF h0) → csvParts ff ord dfs opt i ws h = .ok (os, h') →
    os.length = ws.length ∧ ∀ (j : Nat) (o : Bool × CsvSink) (w : CsvSink), os[j]? = some o → ws[j]? = some w →
      ∃ d h1, dfs[i + j]? = some d ∧ d.to1CSV ff (ord (i + j)) w opt h0 = .ok (o, h1) := by
  induction ws with
  | nil => intro i h os h' _ _ e; cases e; exact ⟨rfl, by simp⟩
  | cons w ws ih =>
    intro i h os h' ex hwf e
    unfold csvParts at e
    cases hd : dfs[i]? with
    | none => rw [hd] at e; cases e
    | some d =>
      rw [hd] at e
      dsimp only at e
      have wd := hwf d (List.mem_of_getElem? hd)
      cases e1 : d.to1CSV ff (ord i) w opt h with
      | error x => rw [e1] at e; cases e
      | ok p =>
        obtain ⟨o, h1⟩ := p
        rw [e1] at e
        dsimp only at e
        have ex1 : Heap.Ext h h1 := by
          rw [to1CSV_eq (wd.toWF.ext ex) hm] at e1
          have hx : Heap.Ext h (d.csvHeader (ord i) h).2 := by
            unfold DF.csvHeader
            exact ((kindHeader_spec h d.tab .bool).1.trans (kindHeader_spec _ d.tab .int).1).trans (kindHeader_spec _ d.tab .float).1
          generalize CsvSink.write _ _ = q at e1
          obtain ⟨b, w1⟩ := q
          cases b with
          | false => cases e1; exact hx
          | true =>
            dsimp only at e1
            generalize csvLoop ff opt.missingMarker h _ _ _ _ _ _ _ = q at e1
            cases q with
            | error e => cases e1
            | ok q => cases e1; exact hx
        cases e2 : csvParts ff ord dfs opt (i + 1) ws h1 with
        | error x => rw [e2] at e; cases e
        | ok p =>
          obtain ⟨os1, h2⟩ := p
          rw [e2] at e
          cases e
          obtain ⟨a, b⟩ := ih (i + 1) h1 (ex.trans ex1) hwf e2
          refine ⟨by simp [a], ?_⟩
          intro j o' w' ho hw
          cases j with
          | zero =>
            simp only [List.getElem?_cons_zero, Option.some.injEq] at ho hw
            subst ho; subst hw
            obtain ⟨h3, e3⟩ := to1CSV_ext wd.toWF ex hm e1
            exact ⟨d, h3, hd, e3⟩
          | succ j =>
            obtain ⟨d', h3, x, y⟩ := b j o' w' (by simpa using ho) (by simpa using hw)
            rw [show i + 1 + j = i + (j + 1) by omega] at x y
            exact ⟨d', h3, x, y⟩

omit [GoFloat F] in
/-- The rows that `sortIfNeeded` makes up are rows of the dataframe. -/
theorem sortIfNeeded_wf {df : DF} {h : Heap F} (wf : df.WF h) (m : Bool) : (df.sortIfNeeded m).WF h := by
  unfold DF.sortIfNeeded
  split
  · rename_i hc
    simp only [Bool.and_eq_true] at hc
    obtain ⟨N, h1, h2, h3⟩ := wf.rect
    refine ⟨(view_wf wf).toWF, by simp [Idx.mk'], N, h1, ?_, ?_⟩
    · intro i hi
      have hz : i = 0 := by
        have : i ∈ sortNat (List.replicate df.idx.rows.length 0) := by
          simpa [DF.rows, Idx.rows, Idx.mk'] using hi
        have := (sortNat_perm _).mem_iff.1 this
        exact (List.mem_replicate.1 this).2
      subst hz
      have hne : df.rows ≠ [] := by
        intro e
        have e' : df.idx.rows = [] := e
        have hm : 0 ∈ sortNat (List.replicate df.idx.rows.length 0) := by simpa [DF.rows, Idx.rows, Idx.mk'] using hi
        rw [e'] at hm
        cases hm
      obtain ⟨x, hx⟩ := List.exists_mem_of_ne_nil _ hne
      have := h2 x hx
      omega
    · intro hv
      rw [show ({ df.view with idx := Idx.mk' (sortNat (List.replicate df.idx.rows.length 0)) } : DF).indexViewed = df.indexViewed from rfl] at hv
      rw [hc.1] at hv; cases hv
  · exact wf

omit [GoFloat F] in
theorem split_wf {df : DF} {h h1 : Heap F} (wf : df.WF h) {n : Nat} (hn : 1 ≤ n) {dfs : List DF}
    (e : df.splitNView n h = .ok (dfs, h1)) : ∀ d ∈ dfs, d.WF h1 := by
  by_cases h0 : 0 < df.numRows
  · obtain ⟨vs, pad, h', parts, e', -, hp, -, -, hpad⟩ := C10_splitNView_partial wf (n := n) (by omega) h0
    rw [e] at e'
    cases e'
    intro d hd
    rcases List.mem_append.1 hd with hd | hd
    · obtain ⟨i, hi⟩ := List.mem_iff_getElem?.1 hd
      obtain ⟨is, -, rv⟩ := hp.get i d hi
      exact rv.wf
    · exact (hpad d hd).1
  · rw [C10_refuted_empty df h (by omega) _ (by omega)] at e
    cases e
    intro d hd
    simp only [List.mem_singleton] at hd
    subst hd
    exact view_wf wf

/-- **C78** (`ToCSVs`, same result as one goroutine after the other). Whatever the order of the steps, whatever the options and the
writers (failing or not): when `wg.Wait()` has returned, each writer and the returned error are what the sequential model
gives. -/
theorem C78_toCSVs_sequential {df : DF} {opt : CSVWritingSpec} {h0 h1 h2 : Heap F} {ok : Bool} {sinks : List CsvSink} (wf : df.WF h0)
    (hsplit : (df.sortIfNeeded opt.maintainOrder).splitNView ws.length h0 = .ok (dfs, h1))
    (hseq : df.toCSVs ff ord ws opt h0 = .ok ((ok, sinks), h2))
    (st : Fork.Steps ws.length (csvOutProg ff ord { opt with maintainOrder := true } h1 dfs) n (csvFork ws) t)
    (hr : t.returned = true) :
    sinks.length = ws.length ∧ csvForkOk ws.length t = ok ∧ ∀ (i : Nat) (w : CsvSink), sinks[i]? = some w → (t.mem i).w = w := by
  unfold DF.toCSVs at hseq
  rw [hsplit] at hseq
  dsimp only at hseq
  by_cases hz : ws = []
  · subst hz
    cases hseq
    exact ⟨rfl, rfl, by simp⟩
  have hwf := split_wf (sortIfNeeded_wf wf _) (List.length_pos_iff.2 hz) hsplit
  cases e : csvParts ff ord dfs { opt with maintainOrder := true } 0 ws h1 with
  | error x => rw [e] at hseq; cases hseq
  | ok p =>
    obtain ⟨os, h3⟩ := p
    rw [e] at hseq
    cases hseq
    obtain ⟨hl, hget⟩ := csvParts_get ws rfl 0 h1 (Heap.Ext.refl h1) hwf e
    have key : ∀ (i : Nat) (o : Bool × CsvSink), os[i]? = some o → (t.mem i).ret = some o.1 ∧ (t.mem i).w = o.2 := by
      intro i o ho
      have hi := (List.getElem?_eq_some_iff.1 ho).1
      obtain ⟨d, h4, hd, e4⟩ := hget i o ws[i] ho (List.getElem?_eq_getElem (by omega))
      rw [Nat.zero_add] at hd e4
      exact csvFork_result rfl st hr hd (hwf d (List.mem_of_getElem? hd)) (List.getElem?_eq_getElem (by omega)) e4
    refine ⟨by simp [hl], ?_, ?_⟩
    · unfold csvForkOk
      rw [Bool.eq_iff_iff, List.all_eq_true, List.all_eq_true]
      constructor
      · intro hall o ho
        obtain ⟨i, hi⟩ := List.mem_iff_getElem?.1 ho
        have hi' := (List.getElem?_eq_some_iff.1 hi).1
        have := hall i (List.mem_range.2 (by omega))
        rw [(key i o hi).1] at this
        simpa using this
      · intro hall i hi
        have hi := List.mem_range.1 hi
        have ho : os[i]? = some os[i] := List.getElem?_eq_getElem (by omega)
        rw [(key i _ ho).1, hall _ (List.getElem_mem (by omega))]
        rfl
    · intro i w hw
      rw [List.getElem?_map, Option.map_eq_some_iff] at hw
      obtain ⟨o, ho, rfl⟩ := hw
      exact (key i o ho).2

/-- **C78** (`ToCSVs`, what is written). On a dataframe with rows or with a single writer, with writers that take everything:
whatever the order of the steps of the goroutines, when `wg.Wait()` has returned the error is nil and the writers have the
CSVs of consecutive parts of the dataframe, whose rows one after the other are its rows. (The order is
maintained or the indices are not altered: see `C32_refuted` for the other case, where `C78_toCSVs_sequential` still holds.) -/
theorem C78_toCSVs_written {df : DF} {opt : CSVWritingSpec} {h0 : Heap F}
    (wf : df.WF h0) (ho : ∀ i k l, (ord i k l).Perm l) (hdel : opt.DelimOk)
    (hx : (abs h0 df).HasTexts ff opt.missingMarker) (hm : opt.maintainOrder = true ∨ df.indexViewed = false)
    (fulls : List (Nat → Bool)) (hn : 1 ≤ fulls.length) (hrow : 0 < (abs h0 df).nRows ∨ fulls.length = 1) :
    ∃ dfs h1 parts, (df.sortIfNeeded opt.maintainOrder).splitNView fulls.length h0 = .ok (dfs, h1) ∧
      parts.flatten = List.range (abs h0 df).nRows ∧ parts.length ≤ fulls.length ∧
      EvenParts (abs h0 df).nRows fulls.length parts ∧
      ∀ n t, Fork.Steps fulls.length (csvOutProg ff ord { opt with maintainOrder := true } h1 dfs) n
          (csvFork (fulls.map (newCsvSink none))) t → t.returned = true →
        csvForkOk fulls.length t = true ∧
        ∀ i, i < fulls.length → GetsPart ff opt.missingMarker (abs h0 df) parts i (t.mem i).w.written := by
  obtain ⟨dfs, h1, parts, e, hlen, hf, hpl, hle, hch, hall, hget⟩ := toCSVs_parts wf hx hn hrow
  refine ⟨dfs, h1, parts, by rw [sortIfNeeded_eq hm]; exact e, hf, hpl, hle, fun n t st hr => ?_⟩
  have key : ∀ i, i < fulls.length → (t.mem i).ret = some true ∧
      GetsPart ff opt.missingMarker (abs h0 df) parts i (t.mem i).w.written := by
    intro i hi
    have hd : dfs[i]? = some dfs[i] := List.getElem?_eq_getElem (by omega)
    obtain ⟨wd, tx⟩ := hall dfs[i] (List.getElem_mem (by omega))
    obtain ⟨ok, w, h2, header, out, e2, -, hc, hw, hok, -, -⟩ :=
      to1CSV_core (ff := ff) (opt := { opt with maintainOrder := true }) (sortIfNeeded_eq (df := dfs[i]) (Or.inl rfl)) wd (ho i) hdel
        tx none fulls[i]
    have hr' := csvFork_result (ws := fulls.map (newCsvSink none)) rfl (by rw [List.length_map]; exact st) hr hd wd
      (by rw [List.getElem?_map, List.getElem?_eq_getElem hi]; rfl) e2
    cases ok with
    | false => obtain ⟨n, hn, -⟩ := hok rfl; cases hn
    | true =>
      refine ⟨hr'.1, ?_⟩
      rw [hr'.2, hw]
      exact hget i _ header _ hd hc
  refine ⟨?_, fun i hi => (key i hi).2⟩
  unfold csvForkOk
  rw [List.all_eq_true]
  intro i hi
  rw [(key i (List.mem_range.1 hi)).1]
  rfl

/-- **C78** (`ToCSVs` ends). From every reachable state `wg.Wait()` can return; as long as it has not, some goroutine can make a
step; it does not return before every goroutine is gone; and no execution is longer than a number fixed at the start. -/
theorem C78_toCSVs_ends :
    ∃ N, ∀ n t, Fork.Steps ws.length (csvOutProg ff ord opt h dfs) n (csvFork ws) t →
      n ≤ N ∧ (t.returned = false → ∃ u, Fork.Step ws.length (csvOutProg ff ord opt h dfs) t u) ∧
      (t.returned = true → t.threads = List.replicate ws.length none) ∧
      ∃ m u, Fork.Steps ws.length (csvOutProg ff ord opt h dfs) m t u ∧ u.returned = true := by
  rw [csvOutProg_eq]
  refine ⟨(csvFork ws).weight ws.length (fun i => (csvOutJob ff ord opt h dfs i).map (onFrame i)), fun n t st => ?_⟩
  have iv := (Fork.Inv.init ws.length (csvOutJob ff ord opt h dfs) _).steps (s := csvFork ws) st
  refine ⟨?_, fork_never_blocked iv, fun hr => ?_, fork_returns _ t (Nat.le_refl _) iv⟩
  · have := Fork.weight_steps st
    exact Nat.le_trans (Nat.le_add_right _ _) this
  · rw [List.eq_replicate_iff]
    refine ⟨(iv.ret hr).1, fun x hx => ?_⟩
    obtain ⟨i, hi⟩ := List.mem_iff_getElem?.1 hx
    have hlt := (List.getElem?_eq_some_iff.1 hi).1
    have hl := (iv.ret hr).1
    have := (fork_result st hr (i := i) (by omega)).2
    rw [hi] at this
    exact Option.some.inj this

end

namespace Demo

/-- Two goroutines read the demonstration file. -/
example : ∃ n t, WPool.Steps (csvProg pf csvSpec csvRecords csvHeader) n
    (csvThreads 4 csvSpec csvHeader csvRecords (csvColumns csvHeader csvSpec.exclude)) t ∧ t.pool.caller = .returned ∧
    ∃ i, AMap.get (t.pool.mem i).cols (.int, b!"i") = some [.int 12, .int (-1), .int (-3)] := by
  obtain ⟨N, hN⟩ := C78_fromCSV_ends pf (spec := csvSpec) (header := csvHeader) (records := csvRecords) (numCPU := 4)
    (by decide) (by decide) (List.Perm.refl _)
  obtain ⟨-, -, -, m, u, st, hu⟩ := hN 0 _ (.refl _)
  obtain ⟨r, h', e, hc, -⟩ := C78_fromCSV_sequential pf csv_holds (by decide) (List.Perm.refl _) st hu (jobs := id)
    (fun l => List.Perm.refl l) (fun _ => 0) heap0
  obtain ⟨r2, h2, e2, -, -, -, -, hcol, -⟩ := fromCSV_spec pf (jobs := id) (fun l => List.Perm.refl l) (fun _ => 0) csv_holds (by decide) heap0
  rw [e] at e2
  cases e2
  exact ⟨m, u, st, hu, (hc _ _ _).1 (by rw [hcol]; decide +kernel)⟩

example : (csvColumns csvHeader csvSpec.exclude).length = 4 ∧
    (queueWorkers (csvColumns csvHeader csvSpec.exclude) (clampCPU 4 csvSpec.maxCPU)).toNat = 2 := by decide

/-- Three goroutines write the demonstration dataframe. -/
example : ∃ dfs h1 parts n t, Fork.Steps 3 (csvOutProg fmtInt (fun _ => csvOrd) { csvOpt with maintainOrder := true } h1 dfs) n
      (csvFork ([fun _ => false, fun _ => true, fun _ => false].map (newCsvSink none))) t ∧ t.returned = true ∧
    parts.flatten = List.range (abs h df).nRows ∧
    ∀ i, i < 3 → GetsPart fmtInt b!"NA" (abs h df) parts i (t.mem i).w.written := by
  obtain ⟨dfs, h1, parts, -, a, -, -, b⟩ := C78_toCSVs_written (ff := fmtInt) (ord := fun _ => csvOrd) df_wf (fun _ => csvOrd_perm)
    (opt := csvOpt) (Or.inl rfl) df_texts (Or.inl rfl) [fun _ => false, fun _ => true, fun _ => false] (by decide) (Or.inl (by decide))
  obtain ⟨N, hN⟩ := C78_toCSVs_ends (ff := fmtInt) (ord := fun _ => csvOrd) (opt := { csvOpt with maintainOrder := true }) (h := h1) (dfs := dfs)
    (ws := [fun _ => false, fun _ => true, fun _ => false].map (newCsvSink none))
  obtain ⟨-, -, -, n, t, st, ht⟩ := hN 0 _ (.refl _)
  exact ⟨dfs, h1, parts, n, t, st, ht, a, (b n t st ht).2⟩

/-- The same against the sequential model. -/
example : ∃ sinks h' n t dfs h1, df.toCSVs fmtInt (fun _ => csvOrd) ([fun _ => false, fun _ => true].map (newCsvSink none)) csvOpt h =
      .ok ((true, sinks), h') ∧
    Fork.Steps 2 (csvOutProg fmtInt (fun _ => csvOrd) { csvOpt with maintainOrder := true } h1 dfs) n
      (csvFork ([fun _ => false, fun _ => true].map (newCsvSink none))) t ∧ t.returned = true ∧
    ∀ (i : Nat) (w : CsvSink), sinks[i]? = some w → (t.mem i).w = w := by
  obtain ⟨sinks, h', parts, a, -⟩ := C55_toCSVs_partial (ff := fmtInt) df_wf (fun _ => csvOrd_perm) (opt := csvOpt) (Or.inl rfl) df_texts
    (Or.inl rfl) [fun _ => false, fun _ => true] (by decide) (Or.inl (by decide))
  obtain ⟨dfs, h1, -, b, -⟩ := C78_toCSVs_written (ff := fmtInt) (ord := fun _ => csvOrd) df_wf (fun _ => csvOrd_perm)
    (opt := csvOpt) (Or.inl rfl) df_texts (Or.inl rfl) [fun _ => false, fun _ => true] (by decide) (Or.inl (by decide))
  obtain ⟨N, hN⟩ := C78_toCSVs_ends (ff := fmtInt) (ord := fun _ => csvOrd) (opt := { csvOpt with maintainOrder := true }) (h := h1) (dfs := dfs)
    (ws := [fun _ => false, fun _ => true].map (newCsvSink none))
  obtain ⟨-, -, -, n, t, st, ht⟩ := hN 0 _ (.refl _)
  exact ⟨sinks, h', n, t, dfs, h1, a, st, ht, (C78_toCSVs_sequential df_wf b a st ht).2.2⟩

end Demo

end Verif
