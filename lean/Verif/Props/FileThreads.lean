import Verif.Proofs.FileThreads
import Verif.Props.Threads
import Verif.Props.CSVFiles

/-! **C78**, **C68**: the goroutines of `FromCSVFilePattern`, in every order of their steps. -/

namespace Verif
open scoped Demo
variable {F : Type}

/-- `FilesRun … n s`: after `n` steps of the goroutines of `FromCSVFilePattern` on these files, in some order, the state is `s`.
`order` is the order of the files in the queue of files, `cols p` the order of the columns in the queue of file `p`. -/
def FilesRun [GoFloat F] (pf : GoStr → Option F) (numCPU : Nat) (spec : CSVReadingSpec) (files : GoStr → Option CsvInput)
    (paths order : List GoStr) (cols : GoStr → List GoStr) (n : Nat) (s : Nest (Option (WPool (Nat → CsvFrame F)))) : Prop :=
  Nest.Steps (fileInit numCPU (fileSpec numCPU spec paths) files cols) (fileStep pf (fileSpec numCPU spec paths) files) fileEnded n
    (fileThreads numCPU spec paths order) s

theorem fileTable_bad {spec : CSVReadingSpec} {files : GoStr → Option CsvInput} {p : GoStr} (hb : FileBad spec files p) :
    fileTable spec files p = none := by
  unfold fileTable
  rcases hb with h | ⟨inp, h, hb⟩
  · rw [h]; rfl
  · rw [h]; exact readTable_bad hb

theorem fileTable_good {spec : CSVReadingSpec} {files : GoStr → Option CsvInput} {p : GoStr} {hdr : List GoStr}
    {rec : List (List GoStr)} (hg : FileHolds spec files p hdr rec) : fileTable spec files p = some (hdr, rec) := by
  obtain ⟨inp, h, hh⟩ := hg
  unfold fileTable
  rw [h]; exact readTable_ok hh

theorem FileBad.cpu {spec : CSVReadingSpec} {files : GoStr → Option CsvInput} {p : GoStr} (hb : FileBad spec files p) (numCPU : Nat)
    (paths : List GoStr) : FileBad (fileSpec numCPU spec paths) files p := hb

theorem FileHolds.cpu {spec : CSVReadingSpec} {files : GoStr → Option CsvInput} {p : GoStr} {hdr : List GoStr}
    {rec : List (List GoStr)} (hg : FileHolds spec files p hdr rec) (numCPU : Nat)
    (paths : List GoStr) : FileHolds (fileSpec numCPU spec paths) files p hdr rec := by
  obtain ⟨inp, h, hh⟩ := hg
  exact ⟨inp, h, hh.maxCPU _⟩

section
variable [GoFloat F] {pf : GoStr → Option F} {spec : CSVReadingSpec} {files : GoStr → Option CsvInput}

/-- The goroutines of a file that is a table. -/
theorem fileRun_good {p : GoStr} {tb : List GoStr × List (List GoStr)} (ht : fileTable spec files p = some tb) {n : Nat}
    {w0 w : Option (WPool (Nat → CsvFrame F))} {a : WPool (Nat → CsvFrame F)}
    (st : IRun (fileStep pf spec files) p n w0 w) (e : w0 = some a) :
    ∃ t, w = some t ∧ WPool.Steps (csvProg pf spec tb.2 tb.1) n a t := by
  induction st with
  | refl => exact ⟨a, e, .refl _⟩
  | tail _ b ih =>
    obtain ⟨t, e1, s1⟩ := ih e
    obtain ⟨tb', x, y, h1, h2, h3, h4⟩ := b
    rw [ht] at h1; cases h1
    rw [e1] at h2; cases h2
    exact ⟨y, h3, .tail s1 h4⟩

theorem fileRun_bad {p : GoStr} (ht : fileTable spec files p = none) {n : Nat} {w0 w : Option (WPool (Nat → CsvFrame F))}
    (st : IRun (fileStep pf spec files) p n w0 w) : w = w0 := by
  induction st with
  | refl => rfl
  | tail _ b ih =>
    obtain ⟨tb', x, y, h1, -⟩ := b
    rw [ht] at h1; cases h1

theorem pool_returned_stable {σ : Type} {c : PoolCfg σ} {s t : Pool σ} (st : Pool.Step c s t) (h : s.caller = .returned) :
    t.caller = .returned := by
  cases st <;> simp_all

theorem fileStep_stable (p : GoStr) (w w' : Option (WPool (Nat → CsvFrame F))) (he : fileEnded p w)
    (st : fileStep pf spec files p w w') : fileEnded p w' := by
  obtain ⟨tb, x, y, h1, rfl, rfl, h4⟩ := st
  intro z hz
  cases hz
  have := he x rfl
  cases h4 with
  | take hw hk hne => exact this
  | other st hk => exact pool_returned_stable st this

end

section
variable [GoFloat F] {pf : GoStr → Option F} {spec : CSVReadingSpec} {files : GoStr → Option CsvInput} {numCPU n : Nat}
  {paths order : List GoStr} {cols : GoStr → List GoStr} {s : Nest (Option (WPool (Nat → CsvFrame F)))}
  {hdr : GoStr → List GoStr} {rec : GoStr → List (List GoStr)}

/-- **C78** (`FromCSVFilePattern`, what the goroutines read). Whatever the order of the steps of all the goroutines, those that
take files and those that parse columns: when the caller has collected the results there is exactly one per file; the one of a file
that cannot be opened or is not a table is an error; and for any other file, each column that is not excluded is in the proto-frame of
exactly one goroutine of this file, with the documented type and values, marked as string if and only if its type is string, and there
is nothing else. -/
theorem C78_files_results (hd : spec.Default) (nd : paths.Nodup) (hp : order.Perm paths)
    (hg : ∀ p ∈ paths, FileBad spec files p ∨ (FileHolds spec files p (hdr p) (rec p) ∧
      (cols p).Perm (csvColumns (hdr p) spec.exclude)))
    (st : FilesRun pf numCPU spec files paths order cols n s) (hr : s.outer.caller = .returned) :
    s.outer.got.Perm paths ∧ ∀ p ∈ paths,
      (FileBad spec files p → s.inner p = some none) ∧
      (¬ FileBad spec files p → ∃ t, s.inner p = some (some t) ∧ t.pool.caller = .returned ∧
        (∀ k c vs, ReadsCol pf spec (hdr p) (rec p) k c vs ↔ ∃ i, AMap.get (t.pool.mem i).cols (k, c) = some vs) ∧
        (∀ k c i j, (AMap.get (t.pool.mem i).cols (k, c)).isSome → (AMap.get (t.pool.mem j).cols (k, c)).isSome → i = j) ∧
        ∀ i c, c ∈ (t.pool.mem i).strs ↔ (AMap.get (t.pool.mem i).cols (.obj, c)).isSome) := by
  obtain ⟨h1, h2⟩ := nest_result hp nd fileStep_stable st hr
  refine ⟨h1, fun p hpm => ⟨fun hb => ?_, fun hb => ?_⟩⟩
  · obtain ⟨w, m, hw, r, -⟩ := h2 p hpm
    have ht := fileTable_bad (hb.cpu numCPU paths)
    rw [hw, fileRun_bad ht r]
    unfold fileInit; rw [ht]; rfl
  · obtain ⟨hf, hc⟩ := (hg p hpm).resolve_left hb
    obtain ⟨w, m, hw, r, he⟩ := h2 p hpm
    have ht := fileTable_good (hf.cpu numCPU paths)
    obtain ⟨t, rfl, st'⟩ := fileRun_good ht r (by unfold fileInit; rw [ht]; rfl)
    obtain ⟨inp, _, hh⟩ := hf.cpu numCPU paths
    have hret := he t rfl
    obtain ⟨c1, c2, c3⟩ := C78_fromCSV_frames (spec := fileSpec numCPU spec paths) pf hd hh hc st' hret
    have uniq : ∀ c, c ∈ hdr p → c ∉ spec.exclude → ∃ i k vs, Inferred pf spec.missingValues (cellsUnder (hdr p) (rec p) c) k vs ∧
        AMap.get (t.pool.mem i).cols (k, c) = some vs ∧
        ∀ j k' vs', AMap.get (t.pool.mem j).cols (k', c) = some vs' → j = i ∧ k' = k ∧ vs' = vs := c1
    refine ⟨t, hw, hret, fun k c vs => ⟨?_, ?_⟩, fun k c i j => ?_, c3⟩
    · rintro ⟨h3, h4, h5⟩
      obtain ⟨i, k', vs', h6, h7, -⟩ := uniq c h3 h4
      obtain ⟨k0, v0, -, -, hu⟩ := Inferred.unique pf spec.missingValues (cellsUnder (hdr p) (rec p) c)
      obtain ⟨rfl, rfl⟩ := hu _ _ h5
      obtain ⟨rfl, rfl⟩ := hu _ _ h6
      exact ⟨i, h7⟩
    · rintro ⟨i, hi⟩
      by_cases hc' : c ∈ hdr p ∧ c ∉ spec.exclude
      · obtain ⟨i', k', vs', h6, h7, h8⟩ := uniq c hc'.1 hc'.2
        obtain ⟨-, rfl, rfl⟩ := h8 _ _ _ hi
        exact ⟨hc'.1, hc'.2, h6⟩
      · rw [c2 c hc'] at hi; cases hi
    · intro hi hj
      obtain ⟨a, ha⟩ := Option.isSome_iff_exists.1 hi
      obtain ⟨b, hb⟩ := Option.isSome_iff_exists.1 hj
      by_cases hc' : c ∈ hdr p ∧ c ∉ spec.exclude
      · obtain ⟨i', k', vs', h6, h7, h8⟩ := uniq c hc'.1 hc'.2
        rw [(h8 _ _ _ ha).1, (h8 _ _ _ hb).1]
      · rw [c2 c hc'] at ha; cases ha

/-- **C78** (`FromCSVFilePattern` ends). When it does start a goroutine (`C36_filePattern_hangs_iff`): as long as the caller is not back,
some goroutine can make a step; none sends on a closed channel; no execution is longer than a number fixed at the start; and from
every reachable state the caller can come back. -/
theorem C78_files_ends (nd : paths.Nodup) (hp : order.Perm paths) (hne : [] ∉ paths) (hcpu : 0 < numCPU)
    (hw : 0 < filePatternWorkers numCPU spec.maxCPU paths.length)
    (hg : ∀ p ∈ paths, FileBad spec files p ∨ (FileHolds spec files p (hdr p) (rec p) ∧
      (cols p).Perm (csvColumns (hdr p) spec.exclude) ∧ ([] ∈ hdr p → [] ∈ spec.exclude))) :
    ∃ N, ∀ n s, FilesRun pf numCPU spec files paths order cols n s →
      n ≤ N ∧ s.outer.crashed = false ∧
      (s.outer.caller ≠ .returned → ∃ s', FilesRun pf numCPU spec files paths order cols (n + 1) s') ∧
      ∃ m s', FilesRun pf numCPU spec files paths order cols (n + m) s' ∧ s'.outer.caller = .returned := by
  obtain ⟨sp, hsp⟩ : ∃ sp, sp = fileSpec numCPU spec paths := ⟨_, rfl⟩
  let left : GoStr → Option (WPool (Nat → CsvFrame F)) → Nat := fun p w =>
    match w, fileTable sp files p with
    | some t, some tb => t.pool.weight ⟨false, csvProg pf sp tb.2 tb.1 0⟩
    | _, _ => 0
  have hlen : ∀ (tb : List GoStr × List (List GoStr)) i k, (csvProg pf sp tb.2 tb.1 i k).length = (csvProg pf sp tb.2 tb.1 0 k).length := by
    intro tb i k; simp [csvProg]
  have step1 : ∀ p ∈ paths, ∀ n w, IRun (fileStep pf sp files) p n (fileInit numCPU sp files cols p) w →
      fileTable sp files p = none ∧ w = none ∨ ∃ t, fileTable sp files p = some (hdr p, rec p) ∧ w = some t ∧
        Pool.Inv (csvColumns (hdr p) spec.exclude) (queueWorkers (csvColumns (hdr p) spec.exclude)
          (clampCPU numCPU sp.maxCPU)).toNat t.pool ∧ [] ∉ csvColumns (hdr p) spec.exclude := by
    intro p hpm n w r
    rcases hg p hpm with hb | ⟨hf, hc, hem⟩
    · have ht := fileTable_bad (hb.cpu numCPU paths)
      rw [← hsp] at ht
      refine .inl ⟨ht, ?_⟩
      rw [fileRun_bad ht r]; unfold fileInit; rw [ht]; rfl
    · have ht := fileTable_good (hf.cpu numCPU paths)
      rw [← hsp] at ht
      obtain ⟨t, rfl, st'⟩ := fileRun_good ht r (by unfold fileInit; rw [ht]; rfl)
      refine .inr ⟨t, ht, rfl, ?_, ?_⟩
      · have hx : sp.exclude = spec.exclude := by rw [hsp]; rfl
        have iv0 := inv_init hc (clampCPU numCPU sp.maxCPU) (fun _ : Nat => (newCsvFrame (rec p).length : CsvFrame F))
        refine winv_steps ?_ st'
        unfold csvThreads WPool.init
        rw [hx]; exact iv0
      · rw [mem_csvColumns]; rintro ⟨a, b⟩; exact b (hem a)
  have dec : ∀ p ∈ paths, ∀ w w', (∃ n, IRun (fileStep pf sp files) p n (fileInit numCPU sp files cols p) w) →
      fileStep pf sp files p w w' → left p w' < left p w := by
    rintro p hpm w w' ⟨n, r⟩ b
    obtain ⟨tb, x, y, h1, rfl, rfl, h4⟩ := b
    rcases step1 p hpm n _ r with ⟨-, h⟩ | ⟨t, h2, h3, iv, -⟩
    · cases h
    · cases h3
      have := wweight_steps (hlen tb) iv (.tail (.refl _) h4)
      show (match some y, fileTable sp files p with | some t, some tb => t.pool.weight ⟨false, csvProg pf sp tb.2 tb.1 0⟩ | _, _ => 0) <
        (match some x, fileTable sp files p with | some t, some tb => t.pool.weight ⟨false, csvProg pf sp tb.2 tb.1 0⟩ | _, _ => 0)
      rw [h1]
      dsimp only
      omega
  have live : ∀ p ∈ paths, ∀ n w, IRun (fileStep pf sp files) p n (fileInit numCPU sp files cols p) w →
      fileEnded p w ∨ ∃ w', fileStep pf sp files p w w' := by
    intro p hpm n w r
    rcases step1 p hpm n _ r with ⟨-, rfl⟩ | ⟨t, h2, rfl, iv, h5⟩
    · left; intro z hz; cases hz
    · by_cases hc : t.pool.caller = .returned
      · left; intro z hz; cases hz; exact hc
      · right
        obtain ⟨u, hu⟩ := wpool_never_blocked (csvProg pf sp (rec p) (hdr p)) iv h5 (csvQueueWorkers_pos (clampCPU_pos hcpu _)) hc
        exact ⟨some u, _, t, u, h2, rfl, rfl, hu⟩
  have hwk : 0 < (queueWorkers paths (filePatternWorkers numCPU spec.maxCPU paths.length)).toNat := queueWorkers_pos.2 (.inr hw)
  have bound : ∀ n s, FilesRun pf numCPU spec files paths order cols n s →
      n + nestLeft (fileInit numCPU sp files cols) left paths s ≤
        nestLeft (fileInit numCPU sp files cols) left paths (fileThreads numCPU spec paths order) := by
    intro n s st
    unfold FilesRun at st
    rw [← hsp] at st
    exact st.left hp nd fileStep_stable dec rfl
  have block : ∀ n s, FilesRun pf numCPU spec files paths order cols n s → s.outer.caller ≠ .returned →
      ∃ s', FilesRun pf numCPU spec files paths order cols (n + 1) s' ∧
        nestLeft (fileInit numCPU sp files cols) left paths s' < nestLeft (fileInit numCPU sp files cols) left paths s := by
    intro n s st hr
    unfold FilesRun at st ⊢
    rw [← hsp] at st ⊢
    obtain ⟨s', h⟩ := nest_never_blocked hp nd hwk hne fileStep_stable live st hr
    exact ⟨s', .tail st h, h.left nd dec (st.inv hp nd fileStep_stable rfl) (st.unstarted hp nd rfl).2⟩
  have finish : ∀ N n s, FilesRun pf numCPU spec files paths order cols n s →
      nestLeft (fileInit numCPU sp files cols) left paths s ≤ N →
      ∃ m s', FilesRun pf numCPU spec files paths order cols (n + m) s' ∧ s'.outer.caller = .returned := by
    intro N
    induction N with
    | zero =>
      intro n s st hN
      by_cases hc : s.outer.caller = .returned
      · exact ⟨0, s, st, hc⟩
      · obtain ⟨s', -, h⟩ := block n s st hc; omega
    | succ N ih =>
      intro n s st hN
      by_cases hc : s.outer.caller = .returned
      · exact ⟨0, s, st, hc⟩
      · obtain ⟨s', h1, h⟩ := block n s st hc
        obtain ⟨m, s'', a, b⟩ := ih (n + 1) s' h1 (by omega)
        exact ⟨1 + m, s'', by rw [← Nat.add_assoc]; exact a, b⟩
  refine ⟨nestLeft (fileInit numCPU sp files cols) left paths (fileThreads numCPU spec paths order), fun n s st => ?_⟩
  refine ⟨by have := bound n s st; omega, ?_, fun hc => ?_, finish _ n s st (Nat.le_refl _)⟩
  · obtain ⟨m, pst⟩ := Nest.Steps.outer st
    exact (inv_steps (inv_init hp _ ()) pst).ok
  · obtain ⟨s', h, -⟩ := block n s st hc
    exact ⟨s', h⟩

/-- **C78** (when it does not end). If it starts no goroutine, no execution brings the caller back. -/
theorem C78_files_hang (h1 : paths ≠ []) (hp : order.Perm paths) (hw : filePatternWorkers numCPU spec.maxCPU paths.length ≤ 0)
    (st : FilesRun pf numCPU spec files paths order cols n s) : s.outer.caller ≠ .returned := by
  intro hr
  obtain ⟨m, pst⟩ := Nest.Steps.outer st
  rcases ((C36_returns_iff c0 hp _ ()).1 ⟨m, _, pst, hr⟩).1 with h | h
  · exact h1 h
  · omega

/-- A schedule of the sequential model in which the results arrive in this order. -/
theorem schedule_arrives {got paths : List GoStr} (nd : paths.Nodup) (hp : got.Perm paths) :
    ∃ sch : FilesSched, ∀ res : List (GoStr × Option Raw), res.map (·.1) = sch.take paths → (sch.arrive res).map (·.1) = got := by
  classical
  let pickBy : List (GoStr × Option Raw) → List (GoStr × Option Raw) := fun l => got.filterMap fun p => l.find? fun x => x.1 == p
  refine ⟨⟨id, fun l => if (pickBy l).Perm l then pickBy l else l, fun _ => id, fun _ _ => 0, fun l => .refl l, fun l => ?_,
    fun _ l => .refl l⟩, fun res hres => ?_⟩
  · split
    · assumption
    · exact .refl l
  · dsimp only [id] at hres ⊢
    have hnd : (res.map (·.1)).Nodup := by rw [hres]; exact nd
    have hnd' : got.Nodup := hp.nodup_iff.2 nd
    have hfind : ∀ p ∈ got, ∃ x, res.find? (fun x => x.1 == p) = some x ∧ x.1 = p ∧ x ∈ res := by
      intro p hpm
      have : p ∈ res.map (·.1) := by rw [hres]; exact hp.mem_iff.1 hpm
      obtain ⟨y, hy, rfl⟩ := List.mem_map.1 this
      cases hf : res.find? fun x => x.1 == y.1 with
      | none => have := List.find?_eq_none.1 hf y hy; simp at this
      | some x => exact ⟨x, rfl, by simpa using List.find?_some hf, List.mem_of_find?_eq_some hf⟩
    have hmap : (pickBy res).map (·.1) = got := by
      show (got.filterMap fun p => res.find? fun x => x.1 == p).map (·.1) = got
      clear hnd' hp
      induction got with
      | nil => rfl
      | cons p got ih =>
        obtain ⟨x, h1, h2, -⟩ := hfind p (by simp)
        rw [List.filterMap_cons, h1]
        dsimp only
        rw [List.map_cons, h2, ih (fun q hq => hfind q (by simp [hq]))]
    have hperm : (pickBy res).Perm res := by
      have nd1 : (pickBy res).Nodup := List.Nodup.of_map (·.1) (by rw [hmap]; exact hnd')
      have nd2 : res.Nodup := List.Nodup.of_map (·.1) hnd
      refine (List.perm_ext_iff_of_nodup nd1 nd2).2 fun x => ⟨fun hx => ?_, fun hx => ?_⟩
      · obtain ⟨p, -, hf⟩ := List.mem_filterMap.1 hx
        exact List.mem_of_find?_eq_some hf
      · have : x.1 ∈ got := hp.mem_iff.2 (by rw [← hres]; exact List.mem_map.2 ⟨x, hx, rfl⟩)
        obtain ⟨y, h1, h2, h3⟩ := hfind _ this
        have : y = x := List.inj_on_of_nodup_map hnd h3 hx h2
        subst this
        exact List.mem_filterMap.2 ⟨y.1, this, h1⟩
    rw [if_pos hperm, hmap]

/-- **C68** (the goroutines and the result), partial as `C68_several_files_partial`. Whatever the order of the steps of all the goroutines:
when the caller is back, in the structure it makes of the results each column holds what the goroutines of the files found, one file
after the other in the order `got` in which the results came, the same for all the columns. (The structure is the one of the sequential
model for a schedule with this order.) -/
theorem C68_threads_partial (hd : spec.Default) (nd : paths.Nodup) (hp : order.Perm paths) {found : List (GoStr × Option Bool)}
    (hl : Lists found paths) (h2 : 2 ≤ paths.length) (hne : [] ∉ paths) (h : Heap F) (hcpu : numCPU = h.rt.numCPU)
    (hg : ∀ p ∈ paths, FileHolds spec files p (hdr p) (rec p) ∧ (cols p).Perm (csvColumns (hdr p) spec.exclude) ∧
      ([] ∈ hdr p → [] ∈ spec.exclude))
    (st : FilesRun pf numCPU spec files paths order cols n s) (hr : s.outer.caller = .returned) :
    s.outer.got.Perm paths ∧ ∃ (frames : GoStr → Nat → CsvFrame F) (sch : FilesSched) (r : Raw) (h' : Heap F),
      (∀ p ∈ paths, ∃ t, s.inner p = some (some t) ∧ t.pool.caller = .returned ∧ frames p = t.pool.mem) ∧
      fromCSVFilePattern pf sch (some found) files spec h = .ok (some (some r), h') ∧ r.WF h' ∧ Heap.Ext h h' ∧
      ∀ k c (part : GoStr → List (Val F)),
        (∀ p ∈ paths, (∃ i, AMap.get (frames p i).cols (k, c) = some (part p)) ∨
          ((∀ i, AMap.get (frames p i).cols (k, c) = none) ∧ part p = [])) →
        ((∃ p ∈ paths, ∃ i, (AMap.get (frames p i).cols (k, c)).isSome) → rawCol h' r k c = some (s.outer.got.flatMap part)) ∧
        ((∀ p ∈ paths, ∀ i, AMap.get (frames p i).cols (k, c) = none) → rawCol h' r k c = none) := by
  have notBad : ∀ p ∈ paths, ¬ FileBad spec files p := by
    intro p hpm hb
    have h1 := fileTable_bad hb
    rw [fileTable_good (hg p hpm).1] at h1; cases h1
  obtain ⟨hgot, hres⟩ := C78_files_results hd nd hp (fun p hpm => .inr ⟨(hg p hpm).1, (hg p hpm).2.1⟩) st hr
  refine ⟨hgot, ?_⟩
  have hfr : ∀ p, ∃ f : Nat → CsvFrame F, p ∈ paths → (∃ t, s.inner p = some (some t) ∧ t.pool.caller = .returned ∧ f = t.pool.mem) ∧
      ∀ k c vs, ReadsCol pf spec (hdr p) (rec p) k c vs ↔ ∃ i, AMap.get (f i).cols (k, c) = some vs := by
    intro p
    by_cases hpm : p ∈ paths
    · obtain ⟨t, a, b, c, -⟩ := (hres p hpm).2 (notBad p hpm)
      exact ⟨t.pool.mem, fun _ => ⟨⟨t, a, b, rfl⟩, c⟩⟩
    · exact ⟨fun _ => newCsvFrame 0, fun h => absurd h hpm⟩
  choose frames hframes using hfr
  obtain ⟨sch, harr⟩ := schedule_arrives nd hgot
  have hw : 0 < filePatternWorkers h.rt.numCPU spec.maxCPU paths.length := by
    by_contra hc
    refine C78_files_hang (paths := paths) (fun h0 => by rw [h0] at h2; simp at h2) hp ?_ st hr
    rw [hcpu]; omega
  obtain ⟨ord, r, h', e, ⟨res, ho, hm⟩, -, wf, ext, -, -, hcol⟩ := filePattern_several pf sch hl h2 hne hd
    (fun p hpm => ⟨(hg p hpm).1, (hg p hpm).2.2⟩) h hw
  rw [harr res hm] at ho
  subst ho
  refine ⟨frames, sch, r, h', fun p hpm => (hframes p hpm).1, e, wf, ext, fun k c part hpart => ?_⟩
  have hrc := fun p hpm => (hframes p hpm).2 k c
  obtain ⟨q1, q2⟩ := hcol k c part (fun p hpm => by
    rcases hpart p hpm with hx | ⟨hx, h0⟩
    · exact .inl ((hrc p hpm _).2 hx)
    · refine .inr ⟨h0, fun ws hws => ?_⟩
      obtain ⟨i, hi⟩ := (hrc p hpm _).1 hws
      rw [hx i] at hi; cases hi)
  constructor
  · rintro ⟨p, hpm, i, hi⟩
    refine q1 ⟨p, hpm, ?_⟩
    rcases hpart p hpm with hx | ⟨hx, -⟩
    · exact (hrc p hpm _).2 hx
    · rw [hx i] at hi; cases hi
  · intro hx
    refine q2 fun p hpm hr => ?_
    obtain ⟨i, hi⟩ := (hrc p hpm _).1 hr
    rw [hx p hpm i] at hi; cases hi

end

/-! #### demonstration -/

namespace Demo

/-- The two files of `Demo.files`: there is an execution in which the caller comes back, and there the results are as stated. -/
example : ∃ n s, FilesRun Demo.pf 2 filesSpec files [b!"a.csv", b!"b.csv"] [b!"b.csv", b!"a.csv"] (fun p => csvColumns (hdrs p) []) n s ∧
    s.outer.caller = .returned ∧ s.outer.got.Perm [b!"a.csv", b!"b.csv"] ∧
    ∃ t, s.inner b!"a.csv" = some (some t) ∧ ∃ i, AMap.get (t.pool.mem i).cols (.int, b!"i") = some [.int 12, .int (-1)] := by
  have hg : ∀ p ∈ [b!"a.csv", b!"b.csv"], FileHolds filesSpec files p (hdrs p) (recs p) ∧
      ((fun p => csvColumns (hdrs p) []) p).Perm (csvColumns (hdrs p) filesSpec.exclude) ∧ ([] ∈ hdrs p → [] ∈ filesSpec.exclude) :=
    fun p hp => ⟨(files_good p hp).1, .refl _, (files_good p hp).2⟩
  have nd : [b!"a.csv", b!"b.csv"].Nodup := by decide
  have hp : [b!"b.csv", b!"a.csv"].Perm [b!"a.csv", b!"b.csv"] := by decide
  obtain ⟨N, hN⟩ := C78_files_ends (pf := Demo.pf) (numCPU := 2) (spec := filesSpec) (files := files) nd hp (by decide) (by decide)
    (by decide) (fun p h => .inr (hg p h))
  obtain ⟨-, -, -, m, s, hs, hr⟩ := hN 0 _ (.refl _)
  obtain ⟨h1, h2⟩ := C78_files_results ⟨rfl, rfl, rfl⟩ nd hp (fun p h => .inr ⟨(hg p h).1, (hg p h).2.1⟩) hs hr
  obtain ⟨t, a, -, b, -⟩ := (h2 b!"a.csv" (by decide)).2 (fun hb => by
    have := fileTable_bad hb
    rw [fileTable_good (hg b!"a.csv" (by decide)).1] at this; cases this)
  refine ⟨_, s, hs, hr, h1, t, a, (b _ _ _).1 ⟨by decide, by decide, ?_⟩⟩
  exact (csvKind_default (spec := filesSpec) ⟨rfl, rfl, rfl⟩).1 (by decide +kernel)

/-- On eight cores the call on these two files hangs. -/
example {n s} (st : FilesRun Demo.pf 8 { filesSpec with maxCPU := 0 } files [b!"a.csv", b!"b.csv"] [b!"b.csv", b!"a.csv"]
    (fun p => csvColumns (hdrs p) []) n s) : s.outer.caller ≠ .returned :=
  C78_files_hang (by decide) (by decide) (by decide) st

/-- `C68_threads_partial` on these two files. -/
example {n s} (st : FilesRun Demo.pf 2 filesSpec files [b!"a.csv", b!"b.csv"] [b!"b.csv", b!"a.csv"]
    (fun p => csvColumns (hdrs p) []) n s) (hr : s.outer.caller = .returned) (h : Heap Int) (hc : 2 = h.rt.numCPU) :
    ∃ (sch : FilesSched) (r : Raw) (h' : Heap Int),
      fromCSVFilePattern Demo.pf sch (some found) files filesSpec h = .ok (some (some r), h') ∧ r.WF h' := by
  obtain ⟨-, fr, sch, r, h', -, e, wf, -⟩ := C68_threads_partial (hdr := hdrs) (rec := recs) ⟨rfl, rfl, rfl⟩ (by decide) (by decide)
    found_lists (by decide) (by decide) h hc
    (fun p hp => ⟨(files_good p hp).1, .refl _, (files_good p hp).2⟩) st hr
  exact ⟨sch, r, h', e, wf⟩

end Demo
end Verif
