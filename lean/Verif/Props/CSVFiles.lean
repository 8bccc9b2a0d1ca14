import Verif.Spec.CSVFiles
import Verif.Props.CSVParsing
import Verif.Props.Merge
import Verif.Props.Pool
import Verif.Proofs.Fit

/-! C68: reading the files that match a pattern. -/

namespace Verif
open scoped Demo
variable {F : Type}

theorem Heap.read_ext {h h' : Heap F} {s : Slice} (v : s.Valid h) (e : Heap.Ext h h') : h'.read s = h.read s := by
  unfold Heap.read
  rcases v.2 with h0 | ⟨h1, _⟩
  · have : s.len = 0 := by have := v.1; omega
    simp [this]
  · rw [e.arr _ h1]

theorem rawCol_ext {h h' : Heap F} {r : Raw} (wf : r.WF h) (e : Heap.Ext h h') (k : Kind) (c : GoStr) :
    rawCol h' r k c = rawCol h r k c := by
  unfold rawCol
  rw [e.tab _ wf.tab_lt]
  cases hg : AMap.get (h.tab r.tab) (k, c) with
  | none => rfl
  | some s => simp only [Option.map_some, Heap.read_ext (wf.slices _ _ hg) e]

theorem Holds.maxCPU {spec : CSVReadingSpec} {inp : CsvInput} {hdr : List GoStr} {rec : List (List GoStr)}
    (hh : Holds spec inp hdr rec) (m : Int) : Holds { spec with maxCPU := m } inp hdr rec :=
  ⟨hh.text, hh.fields⟩

/-- What the structure read from one file holds. -/
def ReadFrom [GoFloat F] (pf : GoStr → Option F) (spec : CSVReadingSpec) (hdr : List GoStr) (rec : List (List GoStr))
    (h : Heap F) (r : Raw) : Prop :=
  r.WF h ∧ ∀ k c vs, rawCol h r k c = some vs ↔ ReadsCol pf spec hdr rec k c vs

theorem ReadFrom.ext [GoFloat F] {pf : GoStr → Option F} {spec : CSVReadingSpec} {hdr : List GoStr}
    {rec : List (List GoStr)} {h h' : Heap F} {r : Raw} (w : ReadFrom pf spec hdr rec h r) (e : Heap.Ext h h') :
    ReadFrom pf spec hdr rec h' r :=
  ⟨w.1.ext e, fun k c vs => by rw [rawCol_ext w.1 e]; exact w.2 k c vs⟩

/-- A file that can be read. -/
structure FileGood (spec : CSVReadingSpec) (files : GoStr → Option CsvInput) (p : GoStr) (hdr : List GoStr)
    (rec : List (List GoStr)) : Prop where
  holds : FileHolds spec files p hdr rec
  names : [] ∈ hdr → [] ∈ spec.exclude

theorem fromCSVFile_good [GoFloat F] (pf : GoStr → Option F) {jobs : List GoStr → List GoStr} (hj : ∀ l, (jobs l).Perm l)
    (who : GoStr → Nat) {files : GoStr → Option CsvInput} {spec : CSVReadingSpec} (hd : spec.Default) {p : GoStr}
    {hdr : List GoStr} {rec : List (List GoStr)} (g : FileGood spec files p hdr rec) (h : Heap F) :
    ∃ r h', fromCSVFile pf jobs who files p spec h = .ok (some r, h') ∧ Heap.Ext h h' ∧ ReadFrom pf spec hdr rec h' r := by
  obtain ⟨inp, hf, hh⟩ := g.holds
  obtain ⟨r, h', e, wf, ext, _, col, ncol, _⟩ := C30_fromCSV pf hj who hd hh g.names h
  refine ⟨r, h', by unfold fromCSVFile; rw [hf]; exact e, ext, wf, fun k c vs => ?_⟩
  unfold ReadsCol
  by_cases hc : c ∈ hdr ∧ c ∉ spec.exclude
  · rw [col c hc.1 hc.2]; simp [hc]
  · rw [ncol c hc]
    constructor
    · intro h; cases h
    · rintro ⟨h1, h2, _⟩; exact absurd ⟨h1, h2⟩ hc

theorem fromCSVFile_bad [GoFloat F] (pf : GoStr → Option F) (jobs : List GoStr → List GoStr) (who : GoStr → Nat)
    {files : GoStr → Option CsvInput} {spec : CSVReadingSpec} {p : GoStr} (g : FileBad spec files p) (h : Heap F) :
    fromCSVFile pf jobs who files p spec h = .ok (none, h) := by
  unfold fromCSVFile
  rcases g with g | ⟨inp, g, hb⟩
  · rw [g]
  · rw [g]; exact C30_errors pf jobs who h hb

/-- The result of a file: an error for a bad one, otherwise what it holds. -/
def ResultOK [GoFloat F] (pf : GoStr → Option F) (spec : CSVReadingSpec) (bad : GoStr → Prop) (hdr : GoStr → List GoStr)
    (rec : GoStr → List (List GoStr)) (h : Heap F) (x : GoStr × Option Raw) : Prop :=
  (bad x.1 ∧ x.2 = none) ∨ (¬ bad x.1 ∧ ∃ r, x.2 = some r ∧ ReadFrom pf spec (hdr x.1) (rec x.1) h r)

theorem ResultOK.ext [GoFloat F] {pf : GoStr → Option F} {spec : CSVReadingSpec} {bad : GoStr → Prop}
    {hdr : GoStr → List GoStr} {rec : GoStr → List (List GoStr)} {h h' : Heap F} {x : GoStr × Option Raw}
    (w : ResultOK pf spec bad hdr rec h x) (e : Heap.Ext h h') : ResultOK pf spec bad hdr rec h' x := by
  rcases w with w | ⟨nb, r, hr, w⟩
  · exact Or.inl w
  · exact Or.inr ⟨nb, r, hr, w.ext e⟩

theorem fileJobs_ok [GoFloat F] (pf : GoStr → Option F) (sch : FilesSched) {files : GoStr → Option CsvInput}
    {spec : CSVReadingSpec} (hd : spec.Default) {bad : GoStr → Prop} {hdr : GoStr → List GoStr}
    {rec : GoStr → List (List GoStr)} (L : List GoStr) (hb : ∀ p ∈ L, bad p → FileBad spec files p)
    (hg : ∀ p ∈ L, ¬ bad p → FileGood spec files p (hdr p) (rec p)) (acc : List (GoStr × Option Raw)) (h : Heap F)
    (hacc : ∀ x ∈ acc, ResultOK pf spec bad hdr rec h x) :
    ∃ res h', L.foldlM (fun s k => fileJob pf sch files spec k s) (acc, h) = .ok (res, h') ∧ Heap.Ext h h' ∧
      res.map (·.1) = acc.map (·.1) ++ L ∧ ∀ x ∈ res, ResultOK pf spec bad hdr rec h' x := by
  induction L generalizing acc h with
  | nil => exact ⟨acc, h, rfl, Heap.Ext.refl h, by simp, hacc⟩
  | cons p L ih =>
    have step : ∃ o h1, fileJob pf sch files spec p (acc, h) = .ok (acc ++ [(p, o)], h1) ∧ Heap.Ext h h1 ∧
        ResultOK pf spec bad hdr rec h1 (p, o) := by
      unfold fileJob
      by_cases b : bad p
      · rw [fromCSVFile_bad pf _ _ (hb p (by simp) b)]
        exact ⟨none, h, rfl, Heap.Ext.refl h, Or.inl ⟨b, rfl⟩⟩
      · obtain ⟨r, h1, e, ext, w⟩ := fromCSVFile_good pf (sch.jobs_perm p) (sch.who p) hd (hg p (by simp) b) h
        dsimp only
        rw [e]
        exact ⟨some r, h1, rfl, ext, Or.inr ⟨b, r, rfl, w⟩⟩
    obtain ⟨o, h1, e, ext, w⟩ := step
    obtain ⟨res, h', e2, ext2, m, hr⟩ := ih (fun q hq => hb q (by simp [hq])) (fun q hq => hg q (by simp [hq]))
      (acc ++ [(p, o)]) h1 (by
        intro x hx
        rcases List.mem_append.1 hx with hx | hx
        · exact (hacc x hx).ext ext
        · simp only [List.mem_singleton] at hx; subst hx; exact w)
    refine ⟨res, h', ?_, ext.trans ext2, ?_, hr⟩
    · rw [List.foldlM_cons]
      show (fileJob pf sch files spec p (acc, h) >>= _) = _
      rw [e]; exact e2
    · rw [m]; simp

theorem collectResults_eq_none {l : List (GoStr × Option Raw)} (h : ∃ x ∈ l, x.2 = none) : collectResults l = none := by
  induction l with
  | nil => obtain ⟨_, h, _⟩ := h; cases h
  | cons y l ih =>
    obtain ⟨p, o⟩ := y
    cases o with
    | none => rfl
    | some r =>
      obtain ⟨x, hx, e⟩ := h
      rcases List.mem_cons.1 hx with rfl | hx
      · cases e
      · simp only [collectResults]
        rw [ih ⟨x, hx, e⟩]; rfl

theorem collectResults_eq_some {l : List (GoStr × Option Raw)} {P : GoStr → Raw → Prop}
    (h : ∀ x ∈ l, ∃ r, x.2 = some r ∧ P x.1 r) :
    ∃ rs, collectResults l = some rs ∧ List.Forall₂ P (l.map (·.1)) rs := by
  induction l with
  | nil => exact ⟨[], rfl, .nil⟩
  | cons y l ih =>
    obtain ⟨p, o⟩ := y
    obtain ⟨r, e, w⟩ := h (p, o) (by simp)
    dsimp only at e; subst e
    obtain ⟨rs, e2, w2⟩ := ih (fun x hx => h x (by simp [hx]))
    refine ⟨r :: rs, ?_, .cons w w2⟩
    simp only [collectResults]
    rw [e2]; rfl

/-- **C68** (no file). If the pattern matches no regular file the result is `(nil, nil)` and nothing is touched. -/
theorem C68_no_file [GoFloat F] (pf : GoStr → Option F) (sch : FilesSched) {found : List (GoStr × Option Bool)}
    (hn : ∀ x ∈ found, x.2 = some false) (files : GoStr → Option CsvInput) (spec : CSVReadingSpec) (h : Heap F) :
    fromCSVFilePattern pf sch (some found) files spec h = .ok (some none, h) := by
  have : regularFiles found = some [] := by
    induction found with
    | nil => rfl
    | cons x l ih =>
      obtain ⟨p, o⟩ := x
      have h0 := hn (p, o) (by simp)
      dsimp only at h0; subst h0
      unfold regularFiles
      rw [ih (fun y hy => hn y (by simp [hy]))]; rfl
  unfold fromCSVFilePattern
  simp only [Option.bind_some, this]

theorem regularFiles_eq {found : List (GoStr × Option Bool)} (hs : ∀ x ∈ found, x.2.isSome) :
    regularFiles found = some ((found.filter fun x => x.2 == some true).map (·.1)) := by
  induction found with
  | nil => rfl
  | cons x l ih =>
    obtain ⟨p, o⟩ := x
    have h0 := hs (p, o) (by simp)
    obtain ⟨b, rfl⟩ := Option.isSome_iff_exists.1 h0
    unfold regularFiles
    rw [ih (fun y hy => hs y (by simp [hy]))]
    cases b <;> simp

theorem regularFiles_none {found : List (GoStr × Option Bool)} (hs : ∃ x ∈ found, x.2 = none) :
    regularFiles found = none := by
  induction found with
  | nil => obtain ⟨_, h, _⟩ := hs; cases h
  | cons x l ih =>
    obtain ⟨p, o⟩ := x
    cases o with
    | none => rfl
    | some b =>
      obtain ⟨y, hy, e⟩ := hs
      rcases List.mem_cons.1 hy with rfl | hy
      · cases e
      · unfold regularFiles
        rw [ih ⟨y, hy, e⟩]; rfl

/-- **C68** (the listing fails). A malformed pattern, or a match that cannot be examined, is an error. -/
theorem C68_listing_error [GoFloat F] (pf : GoStr → Option F) (sch : FilesSched) {found : Option (List (GoStr × Option Bool))}
    (hn : found = none ∨ ∃ l, found = some l ∧ ∃ x ∈ l, x.2 = none) (files : GoStr → Option CsvInput)
    (spec : CSVReadingSpec) (h : Heap F) : fromCSVFilePattern pf sch found files spec h = .ok (none, h) := by
  have : found.bind regularFiles = none := by
    rcases hn with rfl | ⟨l, rfl, hl⟩
    · rfl
    · exact regularFiles_none hl
  unfold fromCSVFilePattern
  rw [this]

/-- The answer of the file system: these matches, of which `paths` are the regular files. -/
def Lists (found : List (GoStr × Option Bool)) (paths : List GoStr) : Prop :=
  (∀ x ∈ found, x.2.isSome) ∧ paths = (found.filter fun x => x.2 == some true).map (·.1)

/-- **C68** (one file). A pattern that matches a single regular file reads as that file. -/
theorem C68_one_file [GoFloat F] (pf : GoStr → Option F) (sch : FilesSched) {found : List (GoStr × Option Bool)} {p : GoStr}
    (hl : Lists found [p]) (files : GoStr → Option CsvInput) (spec : CSVReadingSpec) (h : Heap F) :
    fromCSVFilePattern pf sch (some found) files spec h =
      (fromCSVFile pf (sch.jobs p) (sch.who p) files p spec h).map fun x => (x.1.map some, x.2) := by
  have : regularFiles found = some [p] := by rw [regularFiles_eq hl.1, ← hl.2]
  unfold fromCSVFilePattern
  simp only [Option.bind_some, this]
  generalize fromCSVFile pf (sch.jobs p) (sch.who p) files p spec h = x
  cases x <;> rfl

/-- The part shared by the theorems on several files. -/
theorem filePattern_run [GoFloat F] (pf : GoStr → Option F) (sch : FilesSched) {found : List (GoStr × Option Bool)}
    {paths : List GoStr} (hl : Lists found paths) (h2 : 2 ≤ paths.length) (hne : [] ∉ paths)
    {files : GoStr → Option CsvInput} {spec : CSVReadingSpec} (hd : spec.Default) {bad : GoStr → Prop}
    {hdr : GoStr → List GoStr} {rec : GoStr → List (List GoStr)} (hb : ∀ p ∈ paths, bad p → FileBad spec files p)
    (hg : ∀ p ∈ paths, ¬ bad p → FileGood spec files p (hdr p) (rec p)) {h : Heap F}
    (hw : 0 < filePatternWorkers h.rt.numCPU spec.maxCPU paths.length) :
    ∃ res h', res.map (·.1) = sch.take paths ∧ Heap.Ext h h' ∧ (∀ x ∈ res, ResultOK pf spec bad hdr rec h' x) ∧
      fromCSVFilePattern pf sch (some found) files spec h =
        match collectResults (sch.arrive res) with
        | none => .ok (none, h')
        | some rs => .ok (some (some (mergeRawDataRows rs h').1), (mergeRawDataRows rs h').2) := by
  have hr : regularFiles found = some paths := by rw [regularFiles_eq hl.1, ← hl.2]
  obtain ⟨p, p', ps, rfl⟩ : ∃ p p' ps, paths = p :: p' :: ps := by
    match paths, h2 with
    | p :: p' :: ps, _ => exact ⟨p, p', ps, rfl⟩
  unfold fromCSVFilePattern
  simp only [Option.bind_some, hr]
  generalize hP : p :: p' :: ps = paths at *
  generalize hm : cpuPerFile h.rt.numCPU spec.maxCPU paths.length = m
  have hd' : ({ spec with maxCPU := m } : CSVReadingSpec).Default := hd
  have hb' : ∀ q ∈ sch.take paths, bad q → FileBad { spec with maxCPU := m } files q :=
    fun q hq b => hb q ((sch.take_perm paths).mem_iff.1 hq) b
  have hg' : ∀ q ∈ sch.take paths, ¬ bad q → FileGood { spec with maxCPU := m } files q (hdr q) (rec q) := by
    intro q hq b
    obtain ⟨⟨inp, e, hh⟩, n⟩ := hg q ((sch.take_perm paths).mem_iff.1 hq) b
    exact ⟨⟨inp, e, hh.maxCPU m⟩, n⟩
  obtain ⟨res, h', e, ext, hm', hres⟩ := fileJobs_ok pf sch hd' (sch.take paths) hb' hg' [] h (by simp)
  refine ⟨res, h', by simpa using hm', ext, hres, ?_⟩
  have hq : runQueue paths (sch.take paths) (filePatternWorkers h.rt.numCPU spec.maxCPU paths.length)
      (fileJob pf sch files { spec with maxCPU := m }) ([], h) = .ok (res, h') := by
    unfold runQueue
    rw [if_neg (by rw [← hP]; simp), if_neg (fun hx => hx.elim (fun hx => by omega) hne)]
    exact e
  rw [hq]
  dsimp only
  generalize collectResults (sch.arrive res) = o
  cases o <;> rfl

/-- **C68** (errors). With several matching files, one that cannot be opened or is not a CSV table makes the call
return an error, whatever the other files and the schedule. -/
theorem C68_file_error [GoFloat F] (pf : GoStr → Option F) (sch : FilesSched) {found : List (GoStr × Option Bool)}
    {paths : List GoStr} (hl : Lists found paths) (h2 : 2 ≤ paths.length) (hne : [] ∉ paths)
    {files : GoStr → Option CsvInput} {spec : CSVReadingSpec} (hd : spec.Default)
    {hdr : GoStr → List GoStr} {rec : GoStr → List (List GoStr)}
    (hb : ∃ p ∈ paths, FileBad spec files p)
    (hg : ∀ p ∈ paths, ¬ FileBad spec files p → FileGood spec files p (hdr p) (rec p)) (h : Heap F)
    (hw : 0 < filePatternWorkers h.rt.numCPU spec.maxCPU paths.length) :
    ∃ h', fromCSVFilePattern pf sch (some found) files spec h = .ok (none, h') ∧ Heap.Ext h h' := by
  obtain ⟨res, h', hm, ext, hres, e⟩ := filePattern_run pf sch hl h2 hne hd (bad := FileBad spec files) (fun _ _ b => b) hg hw
  refine ⟨h', ?_, ext⟩
  rw [e, collectResults_eq_none]
  obtain ⟨p, hp, b⟩ := hb
  have : p ∈ res.map (·.1) := by rw [hm]; exact (sch.take_perm paths).mem_iff.2 hp
  obtain ⟨x, hx, rfl⟩ := List.mem_map.1 this
  refine ⟨x, (sch.arrive_perm res).mem_iff.2 hx, ?_⟩
  rcases hres x hx with w | w
  · exact w.2
  · exact absurd b w.1

theorem forall₂_flatten_filterMap {α β γ : Type} {P : α → β → Prop} {f : β → Option (List γ)}
    {g : α → List γ} {l : List α} {rs : List β} (h : List.Forall₂ P l rs)
    (hs : ∀ a b, a ∈ l → P a b → (f b).getD [] = g a) : (rs.filterMap f).flatten = l.flatMap g := by
  induction h with
  | nil => rfl
  | @cons a b l rs hp _ ih =>
    have h1 := hs a b (by simp) hp
    have h2 := ih (fun a b ha => hs a b (by simp [ha]))
    rw [List.flatMap_cons, ← h2, ← h1, List.filterMap_cons]
    cases f b <;> simp

/-- The order of the files is the one in which the results arrive. -/
theorem filePattern_several [GoFloat F] (pf : GoStr → Option F) (sch : FilesSched)
    {found : List (GoStr × Option Bool)} {paths : List GoStr} (hl : Lists found paths) (h2 : 2 ≤ paths.length)
    (hne : [] ∉ paths) {files : GoStr → Option CsvInput} {spec : CSVReadingSpec} (hd : spec.Default)
    {hdr : GoStr → List GoStr} {rec : GoStr → List (List GoStr)}
    (hg : ∀ p ∈ paths, FileHolds spec files p (hdr p) (rec p) ∧ ([] ∈ hdr p → [] ∈ spec.exclude)) (h : Heap F)
    (hw : 0 < filePatternWorkers h.rt.numCPU spec.maxCPU paths.length) :
    ∃ (order : List GoStr) (r : Raw) (h' : Heap F),
      fromCSVFilePattern pf sch (some found) files spec h = .ok (some (some r), h') ∧
      (∃ res : List (GoStr × Option Raw), order = (sch.arrive res).map (·.1) ∧ res.map (·.1) = sch.take paths) ∧
      order.Perm paths ∧ r.WF h' ∧
      Heap.Ext h h' ∧ (∀ c, rawStr h' r c = false) ∧ r.enc = none ∧ ∀ k c (part : GoStr → List (Val F)),
        (∀ p ∈ paths, Contributes pf spec (hdr p) (rec p) k c (part p)) →
        ((∃ p ∈ paths, ReadsCol pf spec (hdr p) (rec p) k c (part p)) → rawCol h' r k c = some (order.flatMap part)) ∧
        ((∀ p ∈ paths, ¬ ReadsCol pf spec (hdr p) (rec p) k c (part p)) → rawCol h' r k c = none) := by
  obtain ⟨res, h1, hm, ext, hres, e⟩ := filePattern_run pf sch hl h2 hne hd (bad := fun _ => False) (fun _ _ b => b.elim)
    (fun p hp _ => ⟨(hg p hp).1, (hg p hp).2⟩) hw
  obtain ⟨rs, ers, hrs⟩ := collectResults_eq_some (l := sch.arrive res) (P := fun p r => ReadFrom pf spec (hdr p) (rec p) h1 r) (by
    intro x hx
    rcases hres x ((sch.arrive_perm res).mem_iff.1 hx) with w | w
    · exact w.1.elim
    · exact w.2)
  rw [ers] at e
  dsimp only at e
  obtain ⟨order, ho⟩ : ∃ order, order = (sch.arrive res).map (·.1) := ⟨_, rfl⟩
  rw [← ho] at hrs
  have hperm : order.Perm paths := by
    rw [ho]
    exact ((sch.arrive_perm res).map _).trans (hm ▸ sch.take_perm paths)
  have hwf : ∀ d ∈ rs, d.WF h1 := by
    intro d hdm
    obtain ⟨i, hi, rfl⟩ := List.mem_iff_getElem.1 hdm
    have hlen := hrs.length_eq
    exact ((List.forall₂_iff_get.1 hrs).2 i (by omega) hi).1
  obtain ⟨m1, m2, m3, _⟩ := C56_rows_partial hwf
  obtain ⟨f1, f2⟩ := C56_rows_forget_marks hwf
  refine ⟨order, _, _, e, ⟨res, ho, hm⟩, hperm, m3, ext.trans m2, f1, f2, ?_⟩
  intro k c part hpart
  have key : ∀ p d, p ∈ order → ReadFrom pf spec (hdr p) (rec p) h1 d →
      (rawCol h1 d k c).getD [] = part p ∧ ((rawCol h1 d k c).isSome ↔ ReadsCol pf spec (hdr p) (rec p) k c (part p)) := by
    intro p d hp w
    rcases hpart p (hperm.mem_iff.1 hp) with hx | ⟨h0, hx⟩
    · rw [(w.2 k c _).2 hx]; exact ⟨rfl, by simp [hx]⟩
    · have : rawCol h1 d k c = none := by
        cases hq : rawCol h1 d k c with
        | none => rfl
        | some vs => exact absurd ((w.2 k c vs).1 hq) (hx vs)
      rw [this]
      exact ⟨h0.symm, by simp [hx]⟩
  have hsome : (∃ d ∈ rs, (rawCol h1 d k c).isSome) ↔ ∃ p ∈ paths, ReadsCol pf spec (hdr p) (rec p) k c (part p) := by
    have hlen := hrs.length_eq
    constructor
    · rintro ⟨d, hdm, hs⟩
      obtain ⟨i, hi, rfl⟩ := List.mem_iff_getElem.1 hdm
      have hw := (List.forall₂_iff_get.1 hrs).2 i (by omega) hi
      have hmem : order[i]'(by omega) ∈ order := List.getElem_mem _
      exact ⟨_, hperm.mem_iff.1 hmem, (key _ _ hmem hw).2.1 hs⟩
    · rintro ⟨p, hp, hx⟩
      obtain ⟨i, hi, rfl⟩ := List.mem_iff_getElem.1 (hperm.mem_iff.2 hp)
      have hw := (List.forall₂_iff_get.1 hrs).2 i hi (by omega)
      exact ⟨_, List.getElem_mem _, (key _ _ (List.getElem_mem hi) hw).2.2 hx⟩
  constructor
  · intro hx
    rw [m1, if_pos (hsome.2 hx)]
    congr 1
    exact forall₂_flatten_filterMap hrs (fun p d hp w => (key p d hp w).1)
  · intro hx
    rw [m1, if_neg]
    intro hy
    obtain ⟨p, hp, hr⟩ := hsome.1 hy
    exact hx p hp hr

/-- **C68** (several files), partial: string marks and the text encoding are lost, see `C68_marks_refuted`. If the call
does not hang (`C36_filePattern_hangs_iff`), the structure returned holds, for some order of the files that is the same
for all the columns, the columns of the files one file after the other, and nothing that existed before is altered. -/
theorem C68_several_files_partial [GoFloat F] (pf : GoStr → Option F) (sch : FilesSched)
    {found : List (GoStr × Option Bool)} {paths : List GoStr} (hl : Lists found paths) (h2 : 2 ≤ paths.length)
    (hne : [] ∉ paths) {files : GoStr → Option CsvInput} {spec : CSVReadingSpec} (hd : spec.Default)
    {hdr : GoStr → List GoStr} {rec : GoStr → List (List GoStr)}
    (hg : ∀ p ∈ paths, FileHolds spec files p (hdr p) (rec p) ∧ ([] ∈ hdr p → [] ∈ spec.exclude)) (h : Heap F)
    (hw : 0 < filePatternWorkers h.rt.numCPU spec.maxCPU paths.length) :
    ∃ (order : List GoStr) (r : Raw) (h' : Heap F),
      fromCSVFilePattern pf sch (some found) files spec h = .ok (some (some r), h') ∧ order.Perm paths ∧ r.WF h' ∧
      Heap.Ext h h' ∧ (∀ c, rawStr h' r c = false) ∧ r.enc = none ∧ ∀ k c (part : GoStr → List (Val F)),
        (∀ p ∈ paths, Contributes pf spec (hdr p) (rec p) k c (part p)) →
        ((∃ p ∈ paths, ReadsCol pf spec (hdr p) (rec p) k c (part p)) → rawCol h' r k c = some (order.flatMap part)) ∧
        ((∀ p ∈ paths, ¬ ReadsCol pf spec (hdr p) (rec p) k c (part p)) → rawCol h' r k c = none) := by
  obtain ⟨order, r, h', a, _, b⟩ := filePattern_several pf sch hl h2 hne hd hg h hw
  exact ⟨order, r, h', a, b⟩

/-- The dataframe made from a structure whose columns have the same length. -/
theorem toDataFrame_shows {r : Raw} {h1 : Heap F} (wf : r.WF h1) {N : Nat}
    (hlen : ∀ k c vs, rawCol h1 r k c = some vs → vs.length = N) (hne : ∃ k c, (rawCol h1 r k c).isSome) :
    ∃ df h2, r.toDataFrame h1 = .ok (df, h2) ∧ df.WF h2 ∧ Heap.Ext h1 h2 ∧ (abs h2 df).nRows = N ∧
      (abs h2 df).enc = r.enc ∧ (∀ c, (abs h2 df).isStr c = rawStr h1 r c) ∧
      ∀ k c, (abs h2 df).col k c = (rawCol h1 r k c).map fun vs => vs.map some := by
  have hN : ∀ k s, AMap.get (h1.tab r.tab) k = some s → s.len = N := by
    intro ⟨k, c⟩ s hs
    rw [← (wf.slices _ _ hs).read_length]
    exact hlen k c _ (by unfold rawCol; rw [hs]; rfl)
  have hne' : h1.tab r.tab ≠ [] := by
    obtain ⟨k, c, hc⟩ := hne
    intro h0
    unfold rawCol at hc
    rw [h0] at hc
    cases hc
  obtain ⟨df, h2, e2, wf2, _, ext, hrows, _, htab, hstr, henc, _, t1, t2, t3⟩ := toDataFrame_ok wf hN hne'
  refine ⟨df, h2, e2, wf2, ext, ?_, henc, ?_, ?_⟩
  · show df.numRows = _
    rw [DF.numRows, hrows, List.length_range]
  · intro c
    unfold abs rawStr
    simp only [hstr]
    unfold hdrList
    rw [t3]
  · intro k c
    unfold abs rawCol
    simp only [htab, t1, Option.map_map]
    cases hg : AMap.get (h1.tab r.tab) (k, c) with
    | none => rfl
    | some s =>
      simp only [Option.map_some, Function.comp, Option.some.injEq]
      have hl := (wf.slices _ _ hg).read_length
      have hs := hN _ _ hg
      rw [hrows]
      apply List.ext_getElem
      · simp [hl, hs]
      · intro i hi1 hi2
        simp only [List.getElem_map, List.getElem_range]
        rw [Heap.cell_eq_read]
        have : h2.read s = h1.read s := by unfold Heap.read; rw [t2]
        rw [this]
        simp at hi2
        exact List.getElem?_eq_getElem _

theorem Inferred.length_eq [GoFloat F] {pf : GoStr → Option F} {missing cells : List GoStr} {k : Kind} {vs : List (Val F)}
    (h : Inferred pf missing cells k vs) : vs.length = cells.length := by
  cases h with
  | bool _ r => exact r.length_eq.symm
  | int _ _ r => exact r.length_eq.symm
  | float _ _ _ r => exact r.length_eq.symm
  | str _ _ _ r => exact r.length_eq.symm

/-- **C68** (the dataframe), partial for the same reason. When the files have the same columns and the documented rule
gives every column the same kind in all of them, the dataframe has the rows of all the files: file after file, in an
order that is the same for all the columns. No column of it is a string column. -/
theorem C68_dataframe_partial [GoFloat F] (pf : GoStr → Option F) (sch : FilesSched)
    {found : List (GoStr × Option Bool)} {paths : List GoStr} (hl : Lists found paths) (h2 : 2 ≤ paths.length)
    (hne : [] ∉ paths) {files : GoStr → Option CsvInput} {spec : CSVReadingSpec} (hd : spec.Default)
    {hdr : GoStr → List GoStr} {rec : GoStr → List (List GoStr)} {names : List GoStr} {kinds : GoStr → Kind}
    {vals : GoStr → GoStr → List (Val F)}
    (hg : ∀ p ∈ paths, FileHolds spec files p (hdr p) (rec p) ∧ ([] ∈ hdr p → [] ∈ spec.exclude))
    (hn : ∀ p ∈ paths, ∀ c, c ∈ hdr p ↔ c ∈ names)
    (hk : ∀ p ∈ paths, ∀ c ∈ names, c ∉ spec.exclude →
      Inferred pf spec.missingValues (cellsUnder (hdr p) (rec p) c) (kinds c) (vals p c))
    (hone : ∃ c ∈ names, c ∉ spec.exclude) (h : Heap F)
    (hw : 0 < filePatternWorkers h.rt.numCPU spec.maxCPU paths.length) :
    ∃ (order : List GoStr) (r : Raw) (h1 : Heap F) (df : DF) (h2 : Heap F),
      fromCSVFilePattern pf sch (some found) files spec h = .ok (some (some r), h1) ∧ r.toDataFrame h1 = .ok (df, h2) ∧
      df.WF h2 ∧ Heap.Ext h h2 ∧ order.Perm paths ∧
      (abs h2 df).nRows = (paths.map fun p => (rec p).length).sum ∧
      (∀ c ∈ names, c ∉ spec.exclude → ∀ k, (abs h2 df).col k c =
        if k = kinds c then some (order.flatMap fun p => (vals p c).map some) else none) ∧
      (∀ c, ¬ (c ∈ names ∧ c ∉ spec.exclude) → ∀ k, (abs h2 df).col k c = none) ∧
      (∀ c, (abs h2 df).isStr c = false) ∧ (abs h2 df).enc = none := by
  obtain ⟨order, r, h1, e, hperm, wf, ext, hs, he, hcol⟩ := C68_several_files_partial pf sch hl h2 hne hd hg h hw
  have hpos : ∃ p, p ∈ paths := by
    match paths, h2 with
    | p :: _, _ => exact ⟨p, by simp⟩
  have c1 : ∀ c ∈ names, c ∉ spec.exclude → ∀ k, rawCol h1 r k c =
      if k = kinds c then some (order.flatMap fun p => vals p c) else none := by
    intro c hc hx k
    split
    · rename_i hkk; subst hkk
      have hr : ∀ p ∈ paths, ReadsCol pf spec (hdr p) (rec p) (kinds c) c (vals p c) :=
        fun p hp => ⟨(hn p hp c).2 hc, hx, hk p hp c hc hx⟩
      obtain ⟨p, hp⟩ := hpos
      exact (hcol (kinds c) c (fun p => vals p c) (fun p hp => Or.inl (hr p hp))).1 ⟨p, hp, hr p hp⟩
    · rename_i hkk
      have hnr : ∀ p ∈ paths, ∀ ws : List (Val F), ¬ ReadsCol pf spec (hdr p) (rec p) k c ws := by
        rintro p hp ws ⟨_, _, hi⟩
        obtain ⟨k', vs', _, _, hu⟩ := Inferred.unique pf spec.missingValues (cellsUnder (hdr p) (rec p) c)
        exact hkk ((hu _ _ hi).1.trans (hu _ _ (hk p hp c hc hx)).1.symm)
      exact (hcol k c (fun _ => []) (fun p hp => Or.inr ⟨rfl, hnr p hp⟩)).2 (fun p hp => hnr p hp _)
  have c2 : ∀ c, ¬ (c ∈ names ∧ c ∉ spec.exclude) → ∀ k, rawCol h1 r k c = none := by
    intro c hc k
    have hnr : ∀ p ∈ paths, ∀ ws : List (Val F), ¬ ReadsCol pf spec (hdr p) (rec p) k c ws := by
      rintro p hp ws ⟨h1, h2, _⟩
      exact hc ⟨(hn p hp c).1 h1, h2⟩
    exact (hcol k c (fun _ => []) (fun p hp => Or.inr ⟨rfl, hnr p hp⟩)).2 (fun p hp => hnr p hp _)
  have hlen : ∀ k c vs, rawCol h1 r k c = some vs → vs.length = (paths.map fun p => (rec p).length).sum := by
    intro k c vs hv
    by_cases hc : c ∈ names ∧ c ∉ spec.exclude
    · rw [c1 c hc.1 hc.2] at hv
      split at hv
      · cases hv
        rw [List.length_flatMap, ← (hperm.map fun p => (rec p).length).sum_nat]
        congr 1
        apply List.map_congr_left
        intro p hp
        have hp := hperm.mem_iff.1 hp
        rw [(hk p hp c hc.1 hc.2).length_eq]
        simp [cellsUnder]
      · cases hv
    · rw [c2 c hc] at hv; cases hv
  obtain ⟨c0, hc0, hx0⟩ := hone
  obtain ⟨df, h3, e3, wf3, ext3, n3, enc3, str3, col3⟩ := toDataFrame_shows wf hlen
    ⟨kinds c0, c0, by rw [c1 c0 hc0 hx0, if_pos rfl]; rfl⟩
  refine ⟨order, r, h1, df, h3, e, e3, wf3, ext.trans ext3, hperm, n3, ?_, ?_, fun c => (str3 c).trans (hs c), enc3.trans he⟩
  · intro c hc hx k
    rw [col3, c1 c hc hx]
    split
    · simp only [Option.map_some, List.map_flatMap]
    · rfl
  · intro c hc k
    rw [col3, c2 c hc]; rfl

/-- C68: with several files the call hangs exactly when their number `n` is such that `n * (n + 1)` is at most the number
of CPUs, or a path is empty (which no file system lists). -/
theorem C68_hangs [GoFloat F] (pf : GoStr → Option F) (sch : FilesSched) {found : List (GoStr × Option Bool)}
    {paths : List GoStr} (hl : Lists found paths) (h2 : 2 ≤ paths.length) (files : GoStr → Option CsvInput)
    (spec : CSVReadingSpec) (h : Heap F)
    (hc : (paths.length : Int) * (paths.length + 1) ≤ if spec.maxCPU ≤ 0 then (h.rt.numCPU : Int) else spec.maxCPU) :
    fromCSVFilePattern pf sch (some found) files spec h = .error .hang := by
  have hr : regularFiles found = some paths := by rw [regularFiles_eq hl.1, ← hl.2]
  have hw := (C36_filePattern_hangs_iff h.rt.numCPU spec.maxCPU paths.length h2 h.rt.numCPU_pos).2 hc
  obtain ⟨p, p', ps, rfl⟩ : ∃ p p' ps, paths = p :: p' :: ps := by
    match paths, h2 with
    | p :: p' :: ps, _ => exact ⟨p, p', ps, rfl⟩
  unfold fromCSVFilePattern
  simp only [Option.bind_some, hr]
  unfold runQueue
  rw [if_neg (by simp), if_pos (Or.inl hw)]

/-! #### demonstration and refutations -/

namespace Demo

def filesSched : FilesSched where
  take := List.reverse
  arrive := id
  jobs _ := id
  who _ _ := 0
  take_perm := List.reverse_perm
  arrive_perm l := List.Perm.refl l
  jobs_perm _ l := List.Perm.refl l

def filesSpec : CSVReadingSpec := ⟨1, [], [], [b!"NA"], false, false, false, some 7⟩

/-- Two files with the columns `i` and `s`, the second one in another order, and a directory. -/
def files (p : GoStr) : Option CsvInput :=
  if p = b!"a.csv" then some ⟨[[b!"i", b!"s"], [b!"12", b!"x"], [b!"NA", b!"y"]], false⟩
  else if p = b!"b.csv" then some ⟨[[b!"s", b!"i"], [b!"z", b!"-3"]], false⟩
  else none

def found : List (GoStr × Option Bool) := [(b!"a.csv", some true), (b!"b.csv", some true), (b!"d", some false)]

def hdrs (p : GoStr) : List GoStr := if p = b!"a.csv" then [b!"i", b!"s"] else [b!"s", b!"i"]
def recs (p : GoStr) : List (List GoStr) :=
  if p = b!"a.csv" then [[b!"12", b!"x"], [b!"NA", b!"y"]] else [[b!"z", b!"-3"]]

theorem found_lists : Lists found [b!"a.csv", b!"b.csv"] := ⟨by decide, by decide⟩

theorem files_good : ∀ p ∈ [b!"a.csv", b!"b.csv"], FileHolds filesSpec files p (hdrs p) (recs p) ∧
    ([] ∈ hdrs p → [] ∈ filesSpec.exclude) := by
  intro p hp
  simp only [List.mem_cons, List.not_mem_nil, or_false] at hp
  rcases hp with rfl | rfl
  · exact ⟨⟨_, by rfl, ⟨Or.inl ⟨rfl, by rfl⟩, by decide⟩⟩, by decide⟩
  · exact ⟨⟨_, by rfl, ⟨Or.inl ⟨rfl, by rfl⟩, by decide⟩⟩, by decide⟩

def filesKinds (c : GoStr) : Kind := if c = b!"i" then .int else .obj

def filesVals (p c : GoStr) : List (Val Int) :=
  if p = b!"a.csv" then (if c = b!"i" then [.int 12, .int (-1)] else [.str b!"x", .str b!"y"])
  else if c = b!"i" then [.int (-3)] else [.str b!"z"]

example : ∃ (order : List GoStr) (r : Raw) (h1 : Heap Int) (df : DF) (h2 : Heap Int),
    fromCSVFilePattern pf filesSched (some found) files filesSpec heap0 = .ok (some (some r), h1) ∧
    r.toDataFrame h1 = .ok (df, h2) ∧ (abs h2 df).nRows = 3 ∧
    (abs h2 df).col .int b!"i" = some (order.flatMap fun p => (filesVals p b!"i").map some) := by
  obtain ⟨order, r, h1, df, h2, a, b, _, _, _, n, c, _, _⟩ := C68_dataframe_partial pf filesSched found_lists (by decide) (by decide)
    (spec := filesSpec) (hdr := hdrs) (rec := recs) (names := [b!"i", b!"s"]) (kinds := filesKinds) (vals := filesVals)
    ⟨rfl, rfl, rfl⟩ files_good
    (by
      intro p hp c
      simp only [List.mem_cons, List.not_mem_nil, or_false] at hp
      rcases hp with rfl | rfl
      · rfl
      · show c ∈ [b!"s", b!"i"] ↔ _
        simp only [List.mem_cons, List.not_mem_nil, or_false]
        exact Or.comm)
    (by
      intro p hp c hc _
      simp only [List.mem_cons, List.not_mem_nil, or_false] at hp hc
      rcases hp with rfl | rfl <;> rcases hc with rfl | rfl <;>
        exact (csvKind_default (spec := filesSpec) ⟨rfl, rfl, rfl⟩).1 (by decide +kernel))
    ⟨b!"i", by decide, by decide⟩ heap0 (by decide)
  exact ⟨order, r, h1, df, h2, a, b, n, c _ (by decide) (by decide) _⟩

/-- One of the files is not a table. -/
def filesBad (p : GoStr) : Option CsvInput :=
  if p = b!"b.csv" then some ⟨[[b!"s", b!"i"], [b!"z"]], false⟩ else files p

example : ∃ h', fromCSVFilePattern pf filesSched (some found) filesBad filesSpec heap0 = .ok (none, h') ∧ Heap.Ext heap0 h' := by
  refine C68_file_error pf filesSched found_lists (by decide) (by decide) (hdr := hdrs) (rec := recs) ⟨rfl, rfl, rfl⟩
    ⟨b!"b.csv", by decide, Or.inr ⟨_, rfl, Or.inr (Or.inl ⟨[b!"s", b!"i"], by decide, [b!"z"], by decide, by decide⟩)⟩⟩ ?_ heap0
    (by decide)
  intro p hp hb
  simp only [List.mem_cons, List.not_mem_nil, or_false] at hp
  rcases hp with rfl | rfl
  · exact ⟨⟨_, by rfl, ⟨Or.inl ⟨rfl, by rfl⟩, by decide⟩⟩, by decide⟩
  · exact absurd (Or.inr ⟨_, rfl, Or.inr (Or.inl ⟨[b!"s", b!"i"], by decide, [b!"z"], by decide, by decide⟩)⟩) hb

/-- Two files of one row whose column `x` is read as ints in one, as floats in the other. -/
def filesMixed (p : GoStr) : Option CsvInput :=
  if p = b!"a.csv" then some ⟨[[b!"x"], [b!"12"]], false⟩ else some ⟨[[b!"x"], [b!"1.5"]], false⟩

/-- The same with a column `y` read as strings in both. -/
def filesMixed2 (p : GoStr) : Option CsvInput :=
  if p = b!"a.csv" then some ⟨[[b!"x", b!"y"], [b!"12", b!"u"]], false⟩
  else some ⟨[[b!"x", b!"y"], [b!"1.5", b!"v"]], false⟩

/-- The dataframe made from the files, what it shows of the column `x`, and its number of rows. -/
def showX (fs : GoStr → Option CsvInput) : Except Abort (Nat × Option (List (Option (Val Int))) × Option (List (Option (Val Int)))) :=
  match fromCSVFilePattern pf filesSched (some found) fs filesSpec heap0 with
  | .ok (some (some r), h) =>
    match r.toDataFrame h with
    | .ok (df, h) => .ok ((abs h df).nRows, (abs h df).col .int b!"x", (abs h df).col .float b!"x")
    | .error e => .error e
  | .ok _ => .error .hang
  | .error e => .error e

end Demo

/-- C68 refuted: the files are read as tables of one row each with the same header; the dataframe has a single row, made
of the value of one file in an int column and the value of the other in a float column of the same name. -/
theorem C68_kinds_refuted : Demo.showX Demo.filesMixed = .ok (1, some [some (.int 12)], some [some (.float 1)]) := by
  with_unfolding_all rfl

/-- C68 refuted: with a second column on which the files agree, the conversion to a dataframe panics. -/
theorem C68_kinds_panic_refuted : Demo.showX Demo.filesMixed2 = .error .panic := by
  with_unfolding_all rfl

/-- C68 refuted: each of the files read alone has the string column `s` and the text encoding of the options, the two
read together have neither. -/
theorem C68_marks_refuted :
    (∀ p ∈ [b!"a.csv", b!"b.csv"], ∃ r h', fromCSVFile Demo.pf id (fun _ => 0) Demo.files p Demo.filesSpec Demo.heap0 =
      .ok (some r, h') ∧ rawStr h' r b!"s" = true ∧ r.enc = some 7) ∧
    ∃ r h', fromCSVFilePattern Demo.pf Demo.filesSched (some Demo.found) Demo.files Demo.filesSpec Demo.heap0 =
      .ok (some (some r), h') ∧ rawStr h' r b!"s" = false ∧ r.enc = none := by
  refine ⟨?_, ?_⟩
  · intro p hp
    obtain ⟨⟨inp, hf, hh⟩, hn⟩ := Demo.files_good p hp
    obtain ⟨r, h', e, _, _, enc, _, _, str⟩ := fromCSV_spec Demo.pf (jobs := id) (fun l => List.Perm.refl l) (fun _ => 0) hh
      hn Demo.heap0
    refine ⟨r, h', by unfold fromCSVFile; rw [hf]; exact e, ?_, enc⟩
    rw [str]
    simp only [List.mem_cons, List.not_mem_nil, or_false] at hp
    rcases hp with rfl | rfl <;> decide +kernel
  · obtain ⟨_, r, h', e, _, _, _, a, b, _⟩ := C68_several_files_partial Demo.pf Demo.filesSched Demo.found_lists (by decide)
      (by decide) (spec := Demo.filesSpec) ⟨rfl, rfl, rfl⟩ Demo.files_good Demo.heap0 (by decide)
    exact ⟨r, h', e, a _, b⟩

end Verif
