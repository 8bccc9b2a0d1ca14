import Verif.Props.ExampleMain

/-! C82: the example program reads again the files it has written. -/

namespace Verif
variable {F : Type} [GoFloat F]

theorem dropCRLF_eq_nil {f : GoStr} (h : dropCRLF f = []) : f = [] := by
  induction f with
  | nil => rfl
  | cons b s ih =>
    unfold dropCRLF at h
    split at h
    · rename_i hb
      have := ih h
      rw [this] at hb
      simp at hb
    · cases h

/-- The text of a file with two columns at least, read again. -/
theorem csvRead_file {comma : Nat} (hv : validDelim (if comma ≠ 0 then comma else 44) = true) {names row : List GoStr}
    (h2 : 2 ≤ names.length) (hl : row.length = names.length) (n : Nat) :
    csvRead (exampleText comma) (csvText comma false (names :: List.replicate n row)) =
      ⟨names.map dropCRLF :: List.replicate n (row.map dropCRLF), false⟩ := by
  have hb : ∀ r : List GoStr, 2 ≤ r.length → blank r = false := by
    intro r hr
    unfold blank
    simp only [decide_eq_false_iff_not, not_or]
    constructor <;> rintro rfl <;> simp at hr
  rw [C74_text (comma := comma) (t := exampleText comma) ⟨rfl, hv, fun h => (by cases h), fun h => absurd rfl h⟩ false _ (fun h => absurd rfl h)]
  congr 1
  rw [List.filter_eq_self.2]
  · simp only [List.map_cons, List.map_replicate]
    rfl
  · intro r hr
    rcases List.mem_cons.1 hr with rfl | hr
    · rw [hb _ h2]; rfl
    · rw [(List.mem_replicate.1 hr).2, hb _ (by omega)]; rfl

/-- The first column of that name is the one of the lowest rank. -/
theorem first_named {header : List (Kind × GoStr)} (text : Kind × GoStr → GoStr) (ho : header.Pairwise fun x y => csvRank x.1 ≤ csvRank y.1)
    {c : GoStr} (hc : c ∈ header.map (·.2)) :
    ∃ k, (k, c) ∈ header ∧ (∀ k', (k', c) ∈ header → csvRank k ≤ csvRank k') ∧
      (header.map text).getD ((header.map (·.2)).idxOf c) [] = text (k, c) := by
  induction header with
  | nil => cases hc
  | cons x header ih =>
    obtain ⟨k, d⟩ := x
    rw [List.pairwise_cons] at ho
    by_cases hd : d = c
    · subst hd
      refine ⟨k, by simp, ?_, by simp⟩
      intro k' hk'
      rcases List.mem_cons.1 hk' with h | h
      · cases h; exact Nat.le_refl _
      · exact ho.1 _ h
    · have hc' : c ∈ header.map (·.2) := by
        rcases List.mem_cons.1 hc with h | h
        · exact absurd h.symm hd
        · exact h
      obtain ⟨k1, m1, m2, m3⟩ := ih ho.2 hc'
      refine ⟨k1, by simp [m1], ?_, ?_⟩
      · intro k' hk'
        rcases List.mem_cons.1 hk' with h | h
        · cases h; exact absurd rfl hd
        · exact m2 k' h
      · rw [List.map_cons, List.map_cons, List.idxOf_cons_ne _ (by exact hd)]
        simpa using m3

theorem csvRank_inj {k k' : Kind} (h : csvRank k = csvRank k') : k = k' := by
  cases k <;> cases k' <;> first | rfl | cases h

theorem cellsUnder_replicate {hdr row : List GoStr} {n : Nat} {c : GoStr} :
    cellsUnder hdr (List.replicate n row) c = List.replicate n (row.getD (hdr.idxOf c) []) := by
  simp [cellsUnder]

/-- Reading several files, in terms of what is known of each file. -/
theorem filePattern_any (pf : GoStr → Option F) (sch : FilesSched) {found : List (GoStr × Option Bool)}
    {paths : List GoStr} (hl : Lists found paths) (h2 : 2 ≤ paths.length) (hne : [] ∉ paths)
    {files : GoStr → Option CsvInput} {spec : CSVReadingSpec} {h : Heap F} {G : GoStr → Heap F → Raw → Prop}
    (ext : ∀ p h h' r, G p h r → Heap.Ext h h' → G p h' r)
    (hg : ∀ m, ∀ p ∈ paths, ∀ h, ∃ r h', fromCSVFile pf (sch.jobs p) (sch.who p) files p { spec with maxCPU := m } h = .ok (some r, h') ∧
      Heap.Ext h h' ∧ G p h' r)
    (hw : 0 < filePatternWorkers h.rt.numCPU spec.maxCPU paths.length) :
    ∃ order rs h1, order.Perm paths ∧ List.Forall₂ (fun p r => G p h1 r) order rs ∧ Heap.Ext h h1 ∧
      fromCSVFilePattern pf sch (some found) files spec h = .ok (some (some (mergeRawDataRows rs h1).1), (mergeRawDataRows rs h1).2) := by
  have hr : regularFiles found = some paths := by rw [regularFiles_eq hl.1, ← hl.2]
  have jobs : ∀ m (L : List GoStr), (∀ p ∈ L, p ∈ paths) → ∀ (acc : List (GoStr × Option Raw)) (h : Heap F),
      (∀ x ∈ acc, ∃ r, x.2 = some r ∧ G x.1 h r) →
      ∃ res h', L.foldlM (fun s k => fileJob pf sch files { spec with maxCPU := m } k s) (acc, h) = .ok (res, h') ∧ Heap.Ext h h' ∧
        res.map (·.1) = acc.map (·.1) ++ L ∧ ∀ x ∈ res, ∃ r, x.2 = some r ∧ G x.1 h' r := by
    intro m L
    induction L with
    | nil => intro _ acc h hacc; exact ⟨acc, h, rfl, Heap.Ext.refl h, by simp, hacc⟩
    | cons p L ih =>
      intro hL acc h hacc
      obtain ⟨r, h1, e, ex, w⟩ := hg m p (hL p (by simp)) h
      obtain ⟨res, h', e2, ex2, mm, hres⟩ := ih (fun q hq => hL q (by simp [hq])) (acc ++ [(p, some r)]) h1 (by
        intro x hx
        rcases List.mem_append.1 hx with hx | hx
        · obtain ⟨r, h1, h2⟩ := hacc x hx
          exact ⟨r, h1, ext _ _ _ _ h2 ex⟩
        · simp only [List.mem_singleton] at hx; subst hx; exact ⟨r, rfl, w⟩)
      refine ⟨res, h', ?_, ex.trans ex2, by rw [mm]; simp, hres⟩
      rw [List.foldlM_cons]
      have : fileJob pf sch files { spec with maxCPU := m } p (acc, h) = .ok (acc ++ [(p, some r)], h1) := by
        unfold fileJob
        dsimp only
        rw [e]
      show (fileJob pf sch files { spec with maxCPU := m } p (acc, h) >>= _) = _
      rw [this]; exact e2
  obtain ⟨p, p', ps, rfl⟩ : ∃ p p' ps, paths = p :: p' :: ps := by
    match paths, h2 with
    | p :: p' :: ps, _ => exact ⟨p, p', ps, rfl⟩
  unfold fromCSVFilePattern
  simp only [Option.bind_some, hr]
  generalize hP : p :: p' :: ps = paths at *
  generalize hm : cpuPerFile h.rt.numCPU spec.maxCPU paths.length = m
  obtain ⟨res, h1, e, ex, hm', hres⟩ := jobs m (sch.take paths) (fun q hq => (sch.take_perm paths).mem_iff.1 hq) [] h (by simp)
  have hq : runQueue paths (sch.take paths) (filePatternWorkers h.rt.numCPU spec.maxCPU paths.length)
      (fileJob pf sch files { spec with maxCPU := m }) ([], h) = .ok (res, h1) := by
    unfold runQueue
    rw [if_neg (by rw [← hP]; simp), if_neg (fun hx => hx.elim (fun hx => by omega) hne)]
    exact e
  obtain ⟨rs, ers, hrs⟩ := collectResults_eq_some (l := sch.arrive res) (P := fun p r => G p h1 r) (by
    intro x hx
    exact hres x ((sch.arrive_perm res).mem_iff.1 hx))
  refine ⟨_, rs, h1, ?_, hrs, ex, ?_⟩
  · have := (sch.arrive_perm res).map (·.1)
    rw [hm'] at this
    exact this.trans (by simpa using sch.take_perm paths)
  · rw [hq]
    dsimp only
    rw [ers]

/-- Columns of the same length make a dataframe. -/
theorem toDataFrame_any {r : Raw} {h : Heap F} (wf : r.WF h)
    (hlen : ∀ k c k' c' vs vs', rawCol h r k c = some vs → rawCol h r k' c' = some vs' → vs.length = vs'.length) :
    ∃ df h2, r.toDataFrame h = .ok (df, h2) ∧ Heap.Ext h h2 := by
  by_cases hne : ∃ k c, (rawCol h r k c).isSome
  · obtain ⟨k, c, hc⟩ := hne
    obtain ⟨vs, hvs⟩ := Option.isSome_iff_exists.1 hc
    obtain ⟨df, h2, e, _, ext, _⟩ := toDataFrame_shows wf (N := vs.length) (fun k' c' vs' h' => hlen _ _ _ _ _ _ h' hvs) ⟨k, c, hc⟩
    exact ⟨df, h2, e, ext⟩
  · obtain ⟨df, h2, e, _, _, ext, _⟩ := toDataFrame_nil wf (by
      cases hx : h.tab r.tab with
      | nil => rfl
      | cons x t =>
        obtain ⟨⟨k, c⟩, s⟩ := x
        refine absurd ⟨k, c, ?_⟩ hne
        unfold rawCol
        rw [AMap.get_of_mem wf.keys (k := (k, c)) (v := s) (by rw [hx]; simp)]
        rfl)
    exact ⟨df, h2, e, ext⟩

/-- A text with a header and a record that is repeated. -/
structure Repeats (W : Kind → GoStr → Prop) (text : Kind → GoStr → GoStr) (comma : Nat) (header : List (Kind × GoStr)) (n : Nat) (s : GoStr) : Prop where
  once : header.Nodup
  order : header.Pairwise fun x y => csvRank x.1 ≤ csvRank y.1
  cols : ∀ k c, (k, c) ∈ header ↔ W k c
  some_row : 0 < n
  text : s = csvText comma false (header.map (·.2) :: List.replicate n (header.map fun kc => text kc.1 kc.2))

section
variable {pf : GoStr → Option F} {W : Kind → GoStr → Prop} {text : Kind → GoStr → GoStr} {comma : Nat}
  {header : List (Kind × GoStr)} {n : Nat} {s : GoStr}

open Classical in
theorem Repeats.read (rp : Repeats W text comma header n s) (hv : validDelim (if comma ≠ 0 then comma else 44) = true)
    (h2 : ∃ k c k' c', W k c ∧ W k' c' ∧ (k, c) ≠ (k', c')) (hne : ∀ k, ¬ W k [])
    {jobs : List GoStr → List GoStr} (hj : ∀ l, (jobs l).Perm l) (who : GoStr → Nat) (m : Int) (exclude : List GoStr) (h : Heap F) :
    ∃ r h', fromCSV pf jobs who (csvRead (exampleText comma) s) (exampleSpec m exclude) h = .ok (some r, h') ∧ r.WF h' ∧ Heap.Ext h h' ∧
      ∃ vals : GoStr → List (Val F), (∀ c, (vals c).length = n) ∧ ∀ k c, rawCol h' r k c =
        if c ∈ header.map (fun kc => dropCRLF kc.2) ∧ c ∉ exclude ∧
          k = (if FloatCell pf exampleMissing ((header.map fun kc => dropCRLF (text kc.1 kc.2)).getD ((header.map fun kc => dropCRLF kc.2).idxOf c) [])
            then .float else .obj)
        then some (vals c) else none := by
  have hl : 2 ≤ header.length := by
    obtain ⟨k, c, k', c', w, w', hd⟩ := h2
    have m1 := (rp.cols k c).2 w
    have m2 := (rp.cols k' c').2 w'
    match header, m1, m2 with
    | [], m1, _ => cases m1
    | [x], m1, m2 =>
      simp only [List.mem_singleton] at m1 m2
      exact absurd (m1.trans m2.symm) hd
    | _ :: _ :: l, _, _ => simp
  have hread := csvRead_file hv (names := header.map (·.2)) (row := header.map fun kc => text kc.1 kc.2) (by simpa using hl) (by simp) n
  rw [← rp.text, List.map_map, List.map_map] at hread
  obtain ⟨hdr, hh⟩ : ∃ hdr, hdr = header.map (dropCRLF ∘ fun kc => kc.2) := ⟨_, rfl⟩
  obtain ⟨row, hr⟩ : ∃ row, row = header.map (dropCRLF ∘ fun kc => text kc.1 kc.2) := ⟨_, rfl⟩
  rw [← hh, ← hr] at hread
  have holds : Holds (exampleSpec m exclude) (csvRead (exampleText comma) s) hdr (List.replicate n row) := by
    refine ⟨Or.inl ⟨rfl, hread⟩, ?_⟩
    intro r hr'
    rw [(List.mem_replicate.1 hr').2, hr, hh]
    simp
  have hemp : [] ∈ hdr → [] ∈ (exampleSpec m exclude).exclude := by
    intro hx
    rw [hh] at hx
    obtain ⟨⟨k, c⟩, hm, hc⟩ := List.mem_map.1 hx
    have := dropCRLF_eq_nil hc
    dsimp only at this
    subst this
    exact absurd ((rp.cols k []).1 hm) (hne k)
  obtain ⟨r, h', e, wf, ext, _, _, col, _⟩ := fromCSV_spec pf hj who holds hemp h
  refine ⟨r, h', e, wf, ext, fun c => (csvKind pf (exampleSpec m exclude) (cellsUnder hdr (List.replicate n row) c)).2, ?_, ?_⟩
  · intro c
    dsimp only
    rw [csvKind_example]
    split
    · simp [fileFloats, cellsUnder]
    · simp [toStrings, missOf, cellsUnder]
  · intro k c
    rw [col k c]
    have hnum : NumberColumn pf hdr (List.replicate n row) c ↔ FloatCell pf exampleMissing (row.getD (hdr.idxOf c) []) := by
      unfold NumberColumn
      rw [cellsUnder_replicate]
      constructor
      · intro hx
        exact hx _ (List.mem_replicate.2 ⟨by have := rp.some_row; omega, rfl⟩)
      · intro hx v hv
        rw [(List.mem_replicate.1 hv).2]; exact hx
    have hk : (csvKind pf (exampleSpec m exclude) (cellsUnder hdr (List.replicate n row) c)).1 =
        if FloatCell pf exampleMissing (row.getD (hdr.idxOf c) []) then .float else .obj := by
      rw [csvKind_example]
      by_cases hx : NumberColumn pf hdr (List.replicate n row) c
      · rw [if_pos hx, if_pos (hnum.1 hx)]
      · rw [if_neg hx, if_neg (fun hy => hx (hnum.2 hy))]
    rw [hk]
    have e1 : hdr = header.map (fun kc => dropCRLF kc.2) := hh
    have e2 : row = header.map (fun kc => dropCRLF (text kc.1 kc.2)) := hr
    rw [← e1, ← e2]
    apply if_congr _ rfl rfl
    constructor
    · rintro ⟨a, b, c⟩; exact ⟨a, b, c.symm⟩
    · rintro ⟨a, b, c⟩; exact ⟨a, b, c.symm⟩

/-- The column, in any file that repeats a record. -/
def RereadKind (pf : GoStr → Option F) (W : Kind → GoStr → Prop) (text : Kind → GoStr → GoStr) (exclude : List GoStr) (k : Kind) (c : GoStr) : Prop :=
  ∃ k', W k' c ∧ (∀ k'', W k'' c → csvRank k' ≤ csvRank k'') ∧ c ∉ exclude ∧
    (k = .float ∧ FloatCell pf exampleMissing (dropCRLF (text k' c)) ∨ k = .obj ∧ ¬ FloatCell pf exampleMissing (dropCRLF (text k' c)))

open Classical in
theorem Repeats.kind (rp : Repeats W text comma header n s) (hcr : ∀ k c, W k c → 13 ∉ c) (exclude : List GoStr) (k : Kind) (c : GoStr) :
    (c ∈ header.map (fun kc => dropCRLF kc.2) ∧ c ∉ exclude ∧
      k = (if FloatCell pf exampleMissing ((header.map fun kc => dropCRLF (text kc.1 kc.2)).getD ((header.map fun kc => dropCRLF kc.2).idxOf c) [])
        then .float else .obj)) ↔ RereadKind pf W text exclude k c := by
  have hm : header.map (fun kc => dropCRLF kc.2) = header.map (·.2) := by
    apply List.map_congr_left
    intro x hx
    exact survives_plain (crlf := false) (hcr x.1 x.2 ((rp.cols _ _).1 hx))
  rw [hm]
  constructor
  · rintro ⟨hc, hx, hk⟩
    obtain ⟨k', m1, m2, m3⟩ := first_named (fun kc => dropCRLF (text kc.1 kc.2)) rp.order hc
    rw [m3] at hk
    refine ⟨k', (rp.cols _ _).1 m1, fun k'' hw => m2 k'' ((rp.cols _ _).2 hw), hx, ?_⟩
    split at hk
    · exact Or.inl ⟨hk, by assumption⟩
    · exact Or.inr ⟨hk, by assumption⟩
  · rintro ⟨k', w, hmin, hx, hk⟩
    have hc : c ∈ header.map (·.2) := List.mem_map.2 ⟨(k', c), (rp.cols _ _).2 w, rfl⟩
    obtain ⟨k1, m1, m2, m3⟩ := first_named (fun kc => dropCRLF (text kc.1 kc.2)) rp.order hc
    have : k1 = k' := csvRank_inj (Nat.le_antisymm (m2 k' ((rp.cols _ _).2 w)) (hmin k1 ((rp.cols _ _).1 m1)))
    subst this
    refine ⟨hc, hx, ?_⟩
    rw [m3]
    rcases hk with ⟨h1, h2⟩ | ⟨h1, h2⟩
    · rw [if_pos h2, h1]
    · rw [if_neg h2, h1]

theorem merged_length {h : Heap F} {K : Kind → GoStr → Prop} {rs : List Raw}
    (hr : ∀ r ∈ rs, ∃ n, ∀ k c, (K k c → ∃ vs, rawCol h r k c = some vs ∧ vs.length = n) ∧ (¬ K k c → rawCol h r k c = none))
    {k k' : Kind} {c c' : GoStr} (hk : K k c) (hk' : K k' c') :
    (rs.filterMap (rawCol h · k c)).flatten.length = (rs.filterMap (rawCol h · k' c')).flatten.length := by
  induction rs with
  | nil => rfl
  | cons r rs ih =>
    obtain ⟨n, hn⟩ := hr r (by simp)
    obtain ⟨vs, e1, l1⟩ := (hn k c).1 hk
    obtain ⟨vs', e2, l2⟩ := (hn k' c').1 hk'
    rw [List.filterMap_cons, e1, List.filterMap_cons, e2]
    simp only [List.flatten_cons, List.length_append]
    rw [ih (fun r hr' => hr r (by simp [hr'])), l1, l2]

/-- Files that repeat a record, the same in all of them, are read without an error, unless the reading hangs. -/
theorem exampleReread_ok (sch : ExampleSched F) {files : List (GoStr × GoStr)} (hnd : (files.map (·.1)).Nodup) (hne0 : [] ∉ files.map (·.1))
    (h1 : 1 ≤ files.length) (hf : ∀ f ∈ files, ∃ header n, Repeats W text comma header n f.2)
    (hv : validDelim (if comma ≠ 0 then comma else 44) = true)
    (h2 : ∃ k c k' c', W k c ∧ W k' c' ∧ (k, c) ≠ (k', c')) (hne : ∀ k, ¬ W k []) (maxCPU : Int) (exclude : List GoStr) (h : Heap F)
    (hw : files.length = 1 ∨ (∀ k c, W k c → 13 ∉ c) ∧ 0 < filePatternWorkers h.rt.numCPU maxCPU files.length) :
    ∃ d h', exampleReread pf sch maxCPU exclude comma files h = .ok (d, h') ∧ Heap.Ext h h' := by
  classical
  have hget : ∀ f ∈ files, AMap.get files f.1 = some f.2 := fun f hf => AMap.get_of_mem hnd hf
  have lists : Lists (files.map fun f => (f.1, some true)) (files.map (·.1)) := by
    constructor
    · intro x hx
      obtain ⟨f, _, rfl⟩ := List.mem_map.1 hx
      rfl
    · rw [List.filter_eq_self.2]
      · rw [List.map_map]; rfl
      · intro x hx
        obtain ⟨f, _, rfl⟩ := List.mem_map.1 hx
        rfl
  by_cases hl : files.length = 1
  · obtain ⟨f, rfl⟩ := List.length_eq_one_iff.1 hl
    obtain ⟨header, n, rp⟩ := hf f (by simp)
    obtain ⟨r, h', e, wf, ext, vals, hlen, col⟩ := rp.read (pf := pf) hv h2 hne (sch.again.jobs_perm f.1) (sch.again.who f.1) maxCPU exclude h
    have hL : ∀ k c vs, rawCol h' r k c = some vs → vs.length = n := by
      intro k c vs hx
      rw [col] at hx
      by_cases hy : vs = vals c
      · rw [hy]; exact hlen c
      · exfalso
        revert hx
        rw [ite_eq_iff]
        rintro (⟨_, hx⟩ | ⟨_, hx⟩)
        · exact hy (Option.some.inj hx).symm
        · cases hx
    obtain ⟨df, h3, e3, ext3⟩ := toDataFrame_any wf (fun k c k' c' vs vs' a b => (hL _ _ _ a).trans (hL _ _ _ b).symm)
    refine ⟨df, h3, ?_, ext.trans ext3⟩
    unfold exampleReread
    rw [C68_one_file pf sch.again (p := f.1) lists]
    unfold fromCSVFile
    dsimp only
    rw [hget f (by simp)]
    simp only [Option.map_some]
    rw [e]
    exact e3
  · obtain ⟨hcr, hwk⟩ := hw.resolve_left hl
    obtain ⟨order, rs, h1', hperm, hrs, ext, e⟩ := filePattern_any pf sch.again (files := fun p => (AMap.get files p).map (csvRead (exampleText comma)))
      (spec := exampleSpec maxCPU exclude) (h := h)
      (G := fun _ h r => r.WF h ∧ ∃ n, ∀ k c, (RereadKind pf W text exclude k c → ∃ vs, rawCol h r k c = some vs ∧ vs.length = n) ∧
        (¬ RereadKind pf W text exclude k c → rawCol h r k c = none)) lists (by rw [List.length_map]; omega) hne0
      (by
        rintro p h h' r ⟨wf, n, hn⟩ ex
        refine ⟨wf.ext ex, n, fun k c => ?_⟩
        rw [rawCol_ext wf ex]
        exact hn k c)
      (by
        intro m p hp h
        obtain ⟨f, hfm, rfl⟩ := List.mem_map.1 hp
        obtain ⟨header, n, rp⟩ := hf f hfm
        obtain ⟨r, h', e, wf, ext, vals, hlen, col⟩ := rp.read (pf := pf) hv h2 hne (sch.again.jobs_perm f.1) (sch.again.who f.1) m exclude h
        refine ⟨r, h', ?_, ext, wf, n, fun k c => ?_⟩
        · unfold fromCSVFile
          dsimp only
          rw [hget f hfm]
          exact e
        · rw [col k c]
          simp only [rp.kind (pf := pf) hcr exclude k c]
          constructor
          · intro hk; exact ⟨vals c, if_pos hk, hlen c⟩
          · intro hk; exact if_neg hk)
      (by rw [List.length_map]; exact hwk)
    have hall : ∀ r ∈ rs, r.WF h1' ∧ ∃ n, ∀ k c, (RereadKind pf W text exclude k c → ∃ vs, rawCol h1' r k c = some vs ∧ vs.length = n) ∧
        (¬ RereadKind pf W text exclude k c → rawCol h1' r k c = none) := by
      intro r hr
      obtain ⟨i, hi, rfl⟩ := List.mem_iff_getElem.1 hr
      have hlen := hrs.length_eq
      exact (List.forall₂_iff_get.1 hrs).2 i (by omega) hi
    obtain ⟨m1, m2, m3, _⟩ := C56_rows_partial (fun r hr => (hall r hr).1)
    have hK : ∀ k c vs, rawCol (mergeRawDataRows rs h1').2 (mergeRawDataRows rs h1').1 k c = some vs →
        RereadKind pf W text exclude k c ∧ vs = (rs.filterMap (rawCol h1' · k c)).flatten := by
      intro k c vs hx
      rw [m1] at hx
      split at hx
      · rename_i hd
        obtain ⟨d, hd1, hd2⟩ := hd
        refine ⟨?_, (Option.some.inj hx).symm⟩
        by_contra hk
        obtain ⟨_, n, hn⟩ := hall d hd1
        rw [(hn k c).2 hk] at hd2
        cases hd2
      · cases hx
    obtain ⟨df, h3, e3, ext3⟩ := toDataFrame_any m3 (by
      intro k c k' c' vs vs' a b
      obtain ⟨k1, rfl⟩ := hK _ _ _ a
      obtain ⟨k2, rfl⟩ := hK _ _ _ b
      exact merged_length (fun r hr => (hall r hr).2) k1 k2)
    refine ⟨df, h3, ?_, (ext.trans m2).trans ext3⟩
    unfold exampleReread
    rw [e]
    exact e3

end

end Verif
