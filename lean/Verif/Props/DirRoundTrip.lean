import Verif.Proofs.Disk

/-! C88: `ToCSVDir` and then `FromCSVFilePattern` on a disk. -/

namespace Verif
open scoped Demo
variable {F : Type}

theorem mapM_sinks (full : GoStr → Nat → Bool) (ps : List GoStr) :
    ps.mapM (fun p => some (newCsvSink none (full p))) = some (ps.map fun p => newCsvSink none (full p)) := by
  induction ps with
  | nil => rfl
  | cons p ps ih => rw [List.mapM_cons, ih]; rfl

/-- `ToCSVDir` on a disk, from what the writers of the files receive. -/
theorem toCSVDirOn_of [GoFloat F] {ff : F → GoStr} {df : DF} {h h' : Heap F} {opt : CSVWritingSpec}
    {ord : Nat → Kind → List GoStr → List GoStr} {pre : GoStr} {full : GoStr → Nat → Bool} {paths : List GoStr} {sinks : List CsvSink}
    (e : df.toCSVDir ff ord (fun p => some (newCsvSink none (full p))) opt pre h = .ok ((paths, true, some sinks), h'))
    {can : GoStr → Bool} (hc : ∀ p ∈ paths, can p = true) (crlf : Bool) (d : Disk) :
    df.toCSVDirOn ff ord can full opt crlf pre d h = .ok ((paths, true,
      (d.putAll (paths.map fun p => (p, []))).putAll (paths.zip (sinks.map fun w => csvText opt.comma crlf w.written))), h') := by
  unfold DF.toCSVDir at e
  unfold DF.toCSVDirOn
  split at e
  · cases e
  · rename_i ps hp
    split at e
    · cases e
    · rename_i r h1 hf
      cases e
      unfold DF.toCSVFiles at hf
      simp only [mapM_sinks] at hf
      simp only [hp]
      unfold DF.toCSVFilesOn
      rw [Disk.create_all hc]
      simp only [if_true]
      split at hf
      · cases hf
      · rename_i ok ws h2 hs
        cases hf
        rw [hs]

/-- **C88** (the disk). `ToCSVDir` on any disk on which the files can be created: it returns nil and the paths of C55; each of the files holds
the CSV text of its even share of the rows, whatever was in it before (a blank line when there are fewer shares than files); every
other file of the disk is as before. Partial: as `C55_toCSVDir_partial`. -/
theorem C88_write_partial [GoFloat F] {ff : F → GoStr} {df : DF} {h : Heap F} {opt : CSVWritingSpec}
    (wf : df.WF h) {ord : Nat → Kind → List GoStr → List GoStr} (ho : ∀ i k l, (ord i k l).Perm l) (hdel : opt.DelimOk)
    (hx : (abs h df).HasTexts ff opt.missingMarker) (hm : opt.maintainOrder = true ∨ df.indexViewed = false)
    (hcpu : 1 ≤ df.maxCPU) (pre : GoStr) (full : GoStr → Nat → Bool) (crlf : Bool) (d : Disk) :
    ∃ paths d' h' parts, (∀ can : GoStr → Bool, (∀ p ∈ paths, can p = true) →
        df.toCSVDirOn ff ord can full opt crlf pre d h = .ok ((paths, true, d'), h')) ∧
      (paths.length : Int) = min df.maxCPU (1 + (abs h df).nRows / (if opt.minRowsPerFile ≤ 0 then 512 else opt.minRowsPerFile)) ∧
      1 ≤ paths.length ∧ paths.Nodup ∧ (∀ p ∈ paths, CsvMatch pre p) ∧
      parts.flatten = List.range (abs h df).nRows ∧ parts.length ≤ paths.length ∧ EvenParts (abs h df).nRows paths.length parts ∧
      (∀ (i : Nat) (p : GoStr), paths[i]? = some p → ∃ out, d' p = some (csvText opt.comma crlf out) ∧
        GetsPart ff opt.missingMarker (abs h df) parts i out) ∧
      (∀ p, p ∉ paths → d' p = d p) ∧ NothingChanges h h' := by
  obtain ⟨paths, sinks, h', parts, e, c1, c2, c3, c4, c5, c6, c7, c8, c9, c10⟩ := C55_toCSVDir_partial wf ho hdel hx hm hcpu pre full
  have hzip : (paths.zip (sinks.map fun w => csvText opt.comma crlf w.written)).map (·.1) = paths := by
    rw [List.map_fst_zip (by simp; omega)]
  refine ⟨paths, _, h', parts, fun can hc => toCSVDirOn_of e hc crlf d, c1, c2, c3, ?_, c6, c7, c8, ?_, ?_, c10⟩
  · -- the paths are numbers between the prefix and the suffix
    intro p hp
    unfold DF.toCSVDir at e
    split at e
    · cases e
    · rename_i ps hps
      split at e
      · cases e
      · cases e
        unfold csvPaths at hps
        simp only at hps
        split at hps
        · cases hps
        · cases hps
          obtain ⟨i, -, rfl⟩ := List.mem_map.1 hp
          refine ⟨_, rfl, ?_⟩
          unfold padDec
          intro hm
          rcases List.mem_append.1 hm with hm | hm
          · have := List.eq_of_mem_replicate hm
            revert this; decide
          · have := natDec_digits _ _ hm
            revert this; decide
  · intro i p hp
    obtain ⟨hi, hpe⟩ := List.getElem?_eq_some_iff.1 hp
    have hs : sinks[i]? = some sinks[i] := List.getElem?_eq_getElem (by omega)
    refine ⟨sinks[i].written, ?_, c9 i _ hs⟩
    apply Disk.putAll_at _ (by rw [hzip]; exact c3)
    apply List.mem_iff_getElem?.2
    refine ⟨i, ?_⟩
    rw [List.getElem?_zip_eq_some]
    exact ⟨hp, by rw [List.getElem?_map, hs]; rfl⟩
  · intro p hp
    rw [Disk.putAll_other _ (by rw [hzip]; exact hp), Disk.putAll_other]
    rw [List.map_map]
    simpa using hp

/-- A table with these columns is what `CsvOf` writes: the text is read as the records, and the cells under a column are read as its
elements if the column is of a kind that reads back. -/
theorem share_reads [GoFloat F] {pf : GoStr → Option F} {ff : F → GoStr} {marker : GoStr} {a : ADF (Val F)} {header : List (Kind × GoStr)}
    {out : List (List GoStr)} (hc : CsvOf ff marker a header out) {comma : Nat} {t : CSVTextSpec} (ht : TextFits comma t) (ht0 : t.comment = 0)
    {crlf : Bool} {spec : CSVReadingSpec} (hh : spec.header = [])
    (hone : ∀ k k' c, a.Written k c → a.Written k' c → k = k') (hname : ∀ k, ¬ a.Written k []) (hsome : ∃ k c, a.Written k c)
    (hsafe : ∀ k c, a.Written k c → TextSafe crlf c ∧ ∀ r v x, a.cell k c r = some v → TextOf ff marker k v x → TextSafe crlf x)
    (hblank : (∃ k c k' c', a.Written k c ∧ a.Written k' c' ∧ c ≠ c') ∨
      ∀ k c, a.Written k c → ∀ r v, a.cell k c r = some v → ¬ TextOf ff marker k v []) :
    ∃ recs, csvRead t (csvText comma crlf out) = ⟨out, false⟩ ∧ Holds spec ⟨out, false⟩ (header.map (·.2)) recs ∧ recs.length = a.nRows ∧
      (∀ c, c ∈ header.map (·.2) ↔ ∃ k, a.Written k c) ∧
      ∀ k c, a.Written k c → ∀ vs, a.col k c = some (vs.map some) → vs.length = a.nRows → ReadsBack pf ff marker spec.missingValues k vs →
        Inferred pf spec.missingValues (cellsUnder (header.map (·.2)) recs c) k vs := by
  obtain ⟨recs, hout, hl, hrec⟩ := hc.records
  have hnd : (header.map (·.2)).Nodup := by
    have := hc.once
    rw [List.Nodup, List.pairwise_map]
    refine List.Pairwise.imp_of_mem ?_ this
    rintro ⟨k, c⟩ ⟨k', c'⟩ h1 h2 hne hcc
    dsimp only at hcc
    subst hcc
    have := hone k k' c ((hc.cols _ _).1 h1) ((hc.cols _ _).1 h2)
    subst this
    exact hne rfl
  refine ⟨recs, ?_, ⟨Or.inl ⟨hh, by rw [hout]⟩, ?_⟩, hl, ?_, ?_⟩
  · obtain ⟨k0, c0, hw0⟩ := hsome
    have hm0 := (hc.cols k0 c0).2 hw0
    have hne : header ≠ [] := by intro h; rw [h] at hm0; cases hm0
    apply C74_same ht crlf (fun h => absurd ht0 h)
    · intro rec hr
      rw [hout] at hr
      have hlen : rec.length = header.length := by
        rcases List.mem_cons.1 hr with rfl | hr
        · simp
        · obtain ⟨i, hi⟩ := List.mem_iff_getElem?.1 hr
          exact (hrec i rec hi).length_eq.symm
      refine ⟨?_, ?_⟩
      · rintro rfl
        exact hne (List.length_eq_zero_iff.1 hlen.symm)
      · rintro rfl
        obtain ⟨⟨k, c⟩, hk⟩ : ∃ kc, header = [kc] := List.length_eq_one_iff.1 hlen.symm
        have hw := (hc.cols k c).1 (by rw [hk]; simp)
        rcases List.mem_cons.1 hr with hr | hr
        · rw [hk] at hr
          simp at hr
          exact hname k (hr ▸ hw)
        · obtain ⟨i, hi⟩ := List.mem_iff_getElem?.1 hr
          have f := hrec i _ hi
          rw [hk] at f
          cases f with
          | cons f _ =>
            obtain ⟨v, hv, hx⟩ := f
            rcases hblank with ⟨k1, c1, k2, c2, hw1, hw2, hne2⟩ | hb
            · have m1 := (hc.cols k1 c1).2 hw1
              have m2 := (hc.cols k2 c2).2 hw2
              rw [hk] at m1 m2
              simp at m1 m2
              exact hne2 (m1.2.trans m2.2.symm)
            · exact hb k c hw i v hv hx
    · intro rec hr f hf
      rw [hout] at hr
      rcases List.mem_cons.1 hr with rfl | hr
      · obtain ⟨⟨k, c⟩, hk, rfl⟩ := List.mem_map.1 hf
        exact (hsafe k c ((hc.cols k c).1 hk)).1
      · obtain ⟨i, hi⟩ := List.mem_iff_getElem?.1 hr
        have fr := hrec i _ hi
        rw [List.forall₂_iff_get] at fr
        obtain ⟨j, hj, rfl⟩ := List.mem_iff_getElem.1 hf
        obtain ⟨v, hv, hx⟩ := fr.2 j (by omega) hj
        exact (hsafe _ _ ((hc.cols _ _).1 (List.getElem_mem (by omega)))).2 i v _ hv hx
  · intro rec hr
    obtain ⟨r, hr⟩ := List.mem_iff_getElem?.1 hr
    rw [List.length_map]
    exact (hrec r rec hr).length_eq.symm
  · intro c
    rw [List.mem_map]
    constructor
    · rintro ⟨⟨k, c'⟩, hm, rfl⟩
      exact ⟨k, (hc.cols _ _).1 hm⟩
    · rintro ⟨k, hw⟩
      exact ⟨(k, c), (hc.cols _ _).2 hw, rfl⟩
  · intro k c hw vs hv hvl hb
    apply C33_column _ hb
    obtain ⟨j, hj⟩ := List.mem_iff_getElem?.1 ((hc.cols k c).2 hw)
    rw [cellsUnder_at hnd (j := j) (by rw [List.getElem?_map, hj]; rfl)]
    rw [List.forall₂_iff_get]
    refine ⟨by simp; omega, ?_⟩
    intro i hi1 hi2
    rw [List.length_map] at hi2
    have hri : recs[i]? = some recs[i] := List.getElem?_eq_getElem hi2
    have f := hrec i _ hri
    rw [List.forall₂_iff_get] at f
    obtain ⟨fl, fg⟩ := f
    have hjl := (List.getElem?_eq_some_iff.1 hj).1
    obtain ⟨v, hv', ht⟩ := fg j hjl (by omega)
    have hkc : header.get ⟨j, hjl⟩ = (k, c) := (List.getElem?_eq_some_iff.1 hj).2
    rw [hkc] at hv' ht
    unfold ADF.cell at hv'
    rw [hv, Option.bind_some, List.getElem?_map, List.getElem?_eq_getElem hi1] at hv'
    simp only [Option.map_some, Option.join_some, Option.some.injEq] at hv'
    subst hv'
    simp only [List.get_eq_getElem, List.getElem_map]
    rw [List.getElem?_eq_getElem (by omega), Option.getD_some]
    exact ht

/-- The share of the rows, of `m` rows each, that has the number `j`. -/
def share {α : Type} (m j : Nat) (l : List α) : List α := (l.drop (j * m)).take m

/-- What must hold of a dataframe so that its CSV files can be read back: the written columns have the elements `vs` such that every
share reads back as the kind of the column (`ReadsBack`); no name is used for two written columns and none is empty; some column is
written; no name and no cell has a carriage return before a line feed (at all, with `UseCRLF`); and there are two
written columns or no cell is written as an empty text. -/
structure Rereads (pf : GoStr → Option F) (ff : F → GoStr) (marker : GoStr) (missing : List GoStr) (crlf : Bool) (m : Nat)
    (a : ADF (Val F)) : Prop where
  cols : ∀ k c, a.Written k c → ∃ vs, a.col k c = some (vs.map some) ∧ vs.length = a.nRows ∧
    ∀ j, j * m < a.nRows → ReadsBack pf ff marker missing k (share m j vs)
  one : ∀ k k' c, a.Written k c → a.Written k' c → k = k'
  named : ∀ k, ¬ a.Written k []
  any : ∃ k c, a.Written k c
  safe : ∀ k c, a.Written k c → TextSafe crlf c ∧ ∀ r v x, a.cell k c r = some v → TextOf ff marker k v x → TextSafe crlf x
  blank : (∃ k c k' c', a.Written k c ∧ a.Written k' c' ∧ c ≠ c') ∨
    ∀ k c, a.Written k c → ∀ r v, a.cell k c r = some v → ¬ TextOf ff marker k v []

theorem share_select {α : Type} {vs : List α} {m j : Nat} :
    (List.range' (j * m) (min m (vs.length - j * m))).map (fun i => ((vs.map some)[i]?).join) = (share m j vs).map some := by
  apply List.ext_getElem?
  intro i
  unfold share
  have hr : (List.range' (j * m) (min m (vs.length - j * m)))[i]? = if i < min m (vs.length - j * m) then some (j * m + i) else none := by
    split
    · rename_i hi
      rw [List.getElem?_eq_getElem (by simpa using hi), List.getElem_range', Nat.one_mul]
    · rename_i hi
      exact List.getElem?_eq_none (by rw [List.length_range']; omega)
  simp only [List.getElem?_map, hr, List.getElem?_take, List.getElem?_drop]
  split <;> split
  · simp only [Option.map_some]
    rw [List.getElem?_eq_getElem (by omega)]; rfl
  · omega
  · rw [List.getElem?_eq_none (by omega)]; rfl
  · rfl

theorem cell_of_select {a : ADF (Val F)} {is : List Nat} {k c r v} (h : (a.select is).cell k c r = some v) : ∃ r', a.cell k c r' = some v := by
  unfold ADF.cell ADF.select at h
  unfold ADF.cell
  simp only at h
  cases hc : a.col k c with
  | none => rw [hc] at h; cases h
  | some l =>
    rw [hc] at h
    simp only [Option.map_some, Option.bind_some, List.getElem?_map] at h
    cases hi : is[r]? with
    | none => rw [hi] at h; cases h
    | some i =>
      rw [hi] at h
      exact ⟨i, by simpa using h⟩

/-- A share of a dataframe that can be read back. -/
theorem Rereads.file [GoFloat F] {pf : GoStr → Option F} {ff : F → GoStr} {marker : GoStr} {spec : CSVReadingSpec} {crlf : Bool}
    {m : Nat} {a : ADF (Val F)} (hr : Rereads pf ff marker spec.missingValues crlf m a) {comma : Nat} {t : CSVTextSpec} (ht : TextFits comma t)
    (ht0 : t.comment = 0) (hh : spec.header = []) {j : Nat} (hj : j * m < a.nRows) {out : List (List GoStr)} {header : List (Kind × GoStr)}
    (hc : CsvOf ff marker (a.select (List.range' (j * m) (min m (a.nRows - j * m)))) header out) :
    ∃ hdr recs, csvRead t (csvText comma crlf out) = ⟨out, false⟩ ∧ Holds spec ⟨out, false⟩ hdr recs ∧ recs.length = min m (a.nRows - j * m) ∧
      (∀ c, c ∈ hdr ↔ ∃ k, a.Written k c) ∧
      ∀ k c, a.Written k c → ∀ vs, a.col k c = some (vs.map some) → Inferred pf spec.missingValues (cellsUnder hdr recs c) k (share m j vs) := by
  have hw : ∀ k c, (a.select (List.range' (j * m) (min m (a.nRows - j * m)))).Written k c ↔ a.Written k c := by
    intro k c
    unfold ADF.Written ADF.select
    simp
  obtain ⟨recs, e1, e2, e3, e4, e5⟩ := share_reads (pf := pf) hc ht ht0 (crlf := crlf) (spec := spec) hh
    (fun k k' c h1 h2 => hr.one k k' c ((hw _ _).1 h1) ((hw _ _).1 h2)) (fun k h => hr.named k ((hw _ _).1 h))
    (by obtain ⟨k, c, h⟩ := hr.any; exact ⟨k, c, (hw _ _).2 h⟩)
    (fun k c h => ⟨(hr.safe k c ((hw _ _).1 h)).1, fun r v x hv hx => by
      obtain ⟨r', hv'⟩ := cell_of_select hv
      exact (hr.safe k c ((hw _ _).1 h)).2 r' v x hv' hx⟩)
    (by
      rcases hr.blank with ⟨k, c, k', c', h1, h2, hne⟩ | hb
      · exact Or.inl ⟨k, c, k', c', (hw _ _).2 h1, (hw _ _).2 h2, hne⟩
      · refine Or.inr fun k c h r v hv => ?_
        obtain ⟨r', hv'⟩ := cell_of_select hv
        exact hb k c ((hw _ _).1 h) r' v hv')
  refine ⟨_, recs, e1, e2, ?_, ?_, ?_⟩
  · rw [e3]; simp [ADF.select]
  · intro c
    rw [e4 c]
    exact exists_congr fun k => hw k c
  · intro k c h vs hv
    obtain ⟨vs', hv', hl, hb⟩ := hr.cols k c h
    rw [hv] at hv'
    have hvv : vs = vs' := by
      have := Option.some.inj hv'
      exact List.map_injective_iff.2 (fun a b h => Option.some.inj h) this
    subst hvv
    apply e5 k c ((hw _ _).2 h) _ _ _ (hb j hj)
    · show (a.col k c).map _ = _
      rw [hv, Option.map_some, ← share_select (vs := vs), hl]
    · simp only [share, ADF.select, List.length_take, List.length_drop, List.length_range', hl]

theorem Rereads.hasTexts [GoFloat F] {pf : GoStr → Option F} {ff : F → GoStr} {marker : GoStr} {missing : List GoStr} {crlf : Bool}
    {m : Nat} (hm : 0 < m) {a : ADF (Val F)} (hr : Rereads pf ff marker missing crlf m a) : a.HasTexts ff marker := by
  intro k c hw r hlt
  obtain ⟨vs, hv, hl, hb⟩ := hr.cols k c hw
  have h1 := Nat.div_add_mod r m
  rw [Nat.mul_comm] at h1
  have h2 := Nat.mod_lt r hm
  have hin : vs[r] ∈ share m (r / m) vs := by
    unfold share
    apply List.mem_iff_getElem?.2
    refine ⟨r % m, ?_⟩
    rw [List.getElem?_take, if_pos h2, List.getElem?_drop, h1]
    exact List.getElem?_eq_getElem (by omega)
  obtain ⟨t, ht⟩ := (hb (r / m) (by omega)).texts _ hin
  refine ⟨vs[r], t, ?_, ht⟩
  unfold ADF.cell
  rw [hv, Option.bind_some, List.getElem?_map, List.getElem?_eq_getElem (by omega)]
  rfl

theorem TextFits.delimOk {opt : CSVWritingSpec} {t : CSVTextSpec} (ht : TextFits opt.comma t) : opt.DelimOk := by
  by_cases h0 : opt.comma = 0
  · exact Or.inl h0
  · have := ht.valid
    rw [if_pos h0] at this
    exact Or.inr this

/-- What `filepath.Glob` answers after the write, when the pattern matches no other file of the disk. -/
theorem globs_paths {d d' : Disk} {pre : GoStr} {paths : List GoStr} (nd : paths.Nodup) (hmatch : ∀ p ∈ paths, CsvMatch pre p)
    (hin : ∀ p ∈ paths, (d' p).isSome) (hout : ∀ p, p ∉ paths → d' p = d p) (hfresh : ∀ p, CsvMatch pre p → (d p).isSome → p ∈ paths)
    {found : List (GoStr × Option Bool)} (hg : d'.Globs pre found) : ∃ listed, Lists found listed ∧ listed.Perm paths := by
  obtain ⟨h1, h2, h3⟩ := hg
  refine ⟨_, ⟨h1, rfl⟩, ?_⟩
  have hnd : ((found.filter fun x => x.2 == some true).map (·.1)).Nodup := (List.filter_sublist.map _).nodup h2
  refine (List.perm_ext_iff_of_nodup hnd nd).2 fun p => ?_
  have hmem : p ∈ (found.filter fun x => x.2 == some true).map (·.1) ↔ (p, some true) ∈ found := by
    rw [List.mem_map]
    constructor
    · rintro ⟨⟨q, b⟩, hq, rfl⟩
      obtain ⟨hq1, hq2⟩ := List.mem_filter.1 hq
      simp only [beq_iff_eq] at hq2
      rw [hq2] at hq1
      exact hq1
    · intro hp
      exact ⟨_, List.mem_filter.2 ⟨hp, by simp⟩, rfl⟩
  rw [hmem, h3]
  constructor
  · rintro ⟨hs, hm⟩
    by_cases hp : p ∈ paths
    · exact hp
    · rw [hout p hp] at hs
      exact hfresh p hm hs
  · intro hp
    exact ⟨hin p hp, hmatch p hp⟩

/-- The written files: what each of them is read as. -/
theorem dir_files [GoFloat F] {pf : GoStr → Option F} {ff : F → GoStr} {a : ADF (Val F)} {opt : CSVWritingSpec} {crlf : Bool}
    {paths : List GoStr} {d' : Disk} {parts : List (List Nat)} {m : Nat} (hm : m = (a.nRows + paths.length - 1) / paths.length)
    (hpf : parts.flatten = List.range a.nRows) (hev : EvenParts a.nRows paths.length parts)
    (hd : ∀ (i : Nat) (p : GoStr), paths[i]? = some p → ∃ out, d' p = some (csvText opt.comma crlf out) ∧
      GetsPart ff opt.missingMarker a parts i out)
    {spec : CSVReadingSpec} (hh : spec.header = []) {t : CSVTextSpec} (ht : TextFits opt.comma t) (ht0 : t.comment = 0)
    (hr : Rereads pf ff opt.missingMarker spec.missingValues crlf m a) {i : Nat} {p : GoStr} (hp : paths[i]? = some p)
    (hil : i < parts.length) (h0 : 0 < a.nRows) :
    parts[i]? = some (List.range' (i * m) (min m (a.nRows - i * m))) ∧
    ∃ hdr recs, FileHolds spec (d'.files t) p hdr recs ∧ recs.length = min m (a.nRows - i * m) ∧ (∀ c, c ∈ hdr ↔ ∃ k, a.Written k c) ∧
      ∀ k c, a.Written k c → ∀ vs, a.col k c = some (vs.map some) → Inferred pf spec.missingValues (cellsUnder hdr recs c) k (share m i vs) := by
  have hpart : parts[i]? = some (List.range' (i * m) (min m (a.nRows - i * m))) := by
    rw [List.getElem?_eq_getElem hil]
    congr 1
    have := parts_at (m := m) parts 0 a.nRows (by rw [hpf, List.range_eq_range']) (by rw [hm]; exact hev.le) (by rw [hm]; exact hev.full)
      (List.getElem?_eq_getElem hil)
    rw [Nat.zero_add] at this
    exact this
  refine ⟨hpart, ?_⟩
  obtain ⟨out, hdp, hget⟩ := hd i p hp
  unfold GetsPart at hget
  rw [hpart] at hget
  obtain ⟨header, hc⟩ := hget
  have him : i * m < a.nRows := by
    have := hev.rest h0 _ (List.mem_of_getElem? hpart)
    refine Classical.byContradiction fun hn => this ?_
    rw [Nat.sub_eq_zero_of_le (by omega), Nat.min_zero]
    rfl
  obtain ⟨hdr, recs, e1, e2, e3, e4, e5⟩ := hr.file ht ht0 hh him hc
  refine ⟨hdr, recs, ⟨⟨out, false⟩, ?_, e2⟩, e3, e4, e5⟩
  unfold Disk.files
  rw [hdp, Option.map_some, e1]

/-- **C88** (several files). A dataframe is written by `ToCSVDir` into `N ≥ 2` files on a disk on which no other file matches the pattern `pre*.csv`, and
`FromCSVFilePattern` then reads the pattern, in the same process or another one, with fitting options: the result has the same rows in
some order, the same for all the columns; exactly the written columns, of the same kinds; and no string marks. For every order in which the columns are
written, goroutines take the files and their results arrive, and whatever was in the files before. Partial: there must be a row for each of the
files (`C88_blank_file`), the even shares must each read back as the kinds of the columns (`Rereads`), `FromCSVFilePattern` must have a worker
(`C68_hangs`), and `C55_toCSVDir_partial` and `C74_same` have conditions. -/
theorem C88_roundtrip_partial [GoFloat F] {pf : GoStr → Option F} {ff : F → GoStr} {df : DF} {h : Heap F} {opt : CSVWritingSpec}
    (wf : df.WF h) {ord : Nat → Kind → List GoStr → List GoStr} (ho : ∀ i k l, (ord i k l).Perm l)
    (hm : opt.maintainOrder = true ∨ df.indexViewed = false) (hcpu : 1 ≤ df.maxCPU) (pre : GoStr) (full : GoStr → Nat → Bool)
    {crlf : Bool} (d : Disk) {N m : Nat}
    (hN : (N : Int) = min df.maxCPU (1 + (abs h df).nRows / (if opt.minRowsPerFile ≤ 0 then 512 else opt.minRowsPerFile)))
    (hm' : m = ((abs h df).nRows + N - 1) / N) (h2 : 2 ≤ N) (hfill : (N - 1) * m < (abs h df).nRows)
    {spec : CSVReadingSpec} (hd : spec.Default) (hh : spec.header = []) (he : spec.exclude = [])
    {t : CSVTextSpec} (ht : TextFits opt.comma t) (ht0 : t.comment = 0)
    (hr : Rereads pf ff opt.missingMarker spec.missingValues crlf m (abs h df)) :
    ∃ paths d' h', (∀ can : GoStr → Bool, (∀ p ∈ paths, can p = true) →
        df.toCSVDirOn ff ord can full opt crlf pre d h = .ok ((paths, true, d'), h')) ∧ paths.length = N ∧
      ∀ found, d'.Globs pre found → (∀ p, CsvMatch pre p → (d p).isSome → p ∈ paths) →
      ∀ (sch : FilesSched) (g : Heap F), 0 < filePatternWorkers g.rt.numCPU spec.maxCPU N →
      ∃ order r g1 df2 g2, fromCSVFilePattern pf sch (some found) (d'.files t) spec g = .ok (some (some r), g1) ∧
        r.toDataFrame g1 = .ok (df2, g2) ∧ df2.WF g2 ∧
        order.Perm (List.range (abs h df).nRows) ∧ (abs g2 df2).nRows = (abs h df).nRows ∧
        (∀ k c, (abs h df).Written k c → (abs g2 df2).col k c = ((abs h df).select order).col k c) ∧
        (∀ k c, ¬ (abs h df).Written k c → (abs g2 df2).col k c = none) ∧
        (∀ c, (abs g2 df2).isStr c = false) := by
  have hmpos : 0 < m := by
    rw [hm']
    exact (Nat.le_div_iff_mul_le (by omega)).2 (by omega)
  obtain ⟨paths, d', h', parts, e, c1, c2, c3, c4, c5, c6, c7, c8, c9, c10⟩ :=
    C88_write_partial wf ho ht.delimOk (hr.hasTexts hmpos) hm hcpu pre full crlf d
  rw [← hN] at c1
  have hpl : paths.length = N := by omega
  refine ⟨paths, d', h', e, hpl, ?_⟩
  intro found hg hfresh sch g hw
  have hplen : parts.length = paths.length := by
    rw [hpl]
    exact (shares_count (by omega) (by omega) hm' c5 (by omega) (by rw [← hpl]; exact c7)).2 hfill
  have hfile : ∀ i p, paths[i]? = some p → _ := fun i p hp =>
    dir_files (pf := pf) (by rw [hpl]; exact hm') c5 c7 c8 hh ht ht0 hr hp
      (by have := (List.getElem?_eq_some_iff.1 hp).1; omega) (by omega)
  obtain ⟨listed, hl, hperm⟩ := globs_paths c3 c4 (by
    intro p hp
    obtain ⟨i, hi⟩ := List.mem_iff_getElem?.1 hp
    obtain ⟨out, ho, -⟩ := c8 i p hi
    rw [ho]; rfl) c9 hfresh hg
  have hidx : ∀ p ∈ paths, paths[paths.idxOf p]? = some p := by
    intro p hp
    rw [List.getElem?_eq_getElem (List.idxOf_lt_length_iff.2 hp)]
    simp
  have hch : ∀ p, ∃ (hdr : List GoStr) (recs : List (List GoStr)), p ∈ paths → FileHolds spec (d'.files t) p hdr recs ∧
      recs.length = min m ((abs h df).nRows - paths.idxOf p * m) ∧ (∀ c, c ∈ hdr ↔ ∃ k, (abs h df).Written k c) ∧
      ∀ k c, (abs h df).Written k c → ∀ vs, (abs h df).col k c = some (vs.map some) →
        Inferred pf spec.missingValues (cellsUnder hdr recs c) k (share m (paths.idxOf p) vs) := by
    intro p
    by_cases hp : p ∈ paths
    · obtain ⟨-, hdr, recs, x⟩ := hfile _ _ (hidx p hp)
      exact ⟨hdr, recs, fun _ => x⟩
    · exact ⟨[], [], fun h => absurd h hp⟩
  choose hdr rec hrec using hch
  -- the names, their kinds and their elements
  obtain ⟨k0, c0, hw0⟩ := hr.any
  have hp0 : ∃ p0, p0 ∈ paths := by
    cases paths with
    | nil => simp at c2
    | cons p ps => exact ⟨p, by simp⟩
  obtain ⟨p0, hp0⟩ := hp0
  have hkv : ∀ c, ∃ (k : Kind) (vs : List (Val F)), (∃ k', (abs h df).Written k' c) → (abs h df).Written k c ∧
      (abs h df).col k c = some (vs.map some) ∧ vs.length = (abs h df).nRows := by
    intro c
    by_cases hc : ∃ k', (abs h df).Written k' c
    · obtain ⟨k, hk⟩ := hc
      obtain ⟨vs, a, b, -⟩ := hr.cols k c hk
      exact ⟨k, vs, fun _ => ⟨hk, a, b⟩⟩
    · exact ⟨k0, [], fun h => absurd h hc⟩
  choose kind vals hkind using hkv
  have hmem : ∀ p ∈ listed, p ∈ paths := fun p hp => hperm.mem_iff.1 hp
  have hnames : ∀ c, c ∈ hdr p0 ↔ ∃ k, (abs h df).Written k c := (hrec p0 hp0).2.2.1
  obtain ⟨order, r, g1, df2, g2, r1, r2, r3, r4, r5, r6, r7, r8, r9, r10⟩ := C68_dataframe_partial pf sch hl (by rw [hperm.length_eq]; omega)
    (by intro hx
        obtain ⟨mid, hx, -⟩ := c4 _ (hmem _ hx)
        have := congrArg List.length hx
        simp at this) hd (names := hdr p0) (kinds := kind) (vals := fun p c => share m (paths.idxOf p) (vals c)) (rec := rec) (hdr := hdr)
    (by intro p hp
        obtain ⟨x1, -, x3, -⟩ := hrec p (hmem p hp)
        exact ⟨x1, fun hx => by obtain ⟨k, hk⟩ := (x3 _).1 hx; exact absurd hk (hr.named k)⟩)
    (by intro p hp c
        rw [(hrec p (hmem p hp)).2.2.1, hnames])
    (by intro p hp c hc _
        obtain ⟨y1, y2, y3⟩ := hkind c ((hnames c).1 hc)
        exact (hrec p (hmem p hp)).2.2.2 _ c y1 _ y2)
    ⟨c0, (hnames c0).2 ⟨k0, hw0⟩, by rw [he]; simp⟩ g (by rw [hperm.length_eq, hpl]; exact hw)
  have hordp : order.Perm paths := r5.trans hperm
  have hpart : ∀ p ∈ paths, parts[paths.idxOf p]? = some (List.range' (paths.idxOf p * m) (min m ((abs h df).nRows - paths.idxOf p * m))) :=
    fun p hp => (hfile _ _ (hidx p hp)).1
  have hparts : paths.map (fun p => List.range' (paths.idxOf p * m) (min m ((abs h df).nRows - paths.idxOf p * m))) = parts := by
    apply List.ext_getElem (by simp [hplen])
    intro i hi1 hi2
    rw [List.getElem_map]
    have hi : i < paths.length := by simpa using hi1
    have := hpart paths[i] (List.getElem_mem hi)
    rw [c3.idxOf_getElem i hi, List.getElem?_eq_getElem hi2] at this
    rw [c3.idxOf_getElem i hi]
    exact (Option.some.inj this).symm
  have hordperm : (order.flatMap fun p => List.range' (paths.idxOf p * m) (min m ((abs h df).nRows - paths.idxOf p * m))).Perm
      (List.range (abs h df).nRows) := by
    refine (hordp.flatMap_right _).trans ?_
    rw [List.flatMap_def, hparts, c5]
  refine ⟨_, r, g1, df2, g2, r1, r2, r3, hordperm, ?_, ?_, ?_, r9⟩
  · rw [r6, (hperm.map _).sum_eq]
    have h1 : (paths.map fun p => (rec p).length) = parts.map List.length := by
      rw [← hparts, List.map_map]
      apply List.map_congr_left
      intro p hp
      simp only [Function.comp, List.length_range']
      exact (hrec p hp).2.1
    rw [h1, ← List.length_flatten, c5, List.length_range]
  · intro k c hwr
    obtain ⟨y1, y2, y3⟩ := hkind c ⟨k, hwr⟩
    have hk : k = kind c := hr.one _ _ _ hwr y1
    rw [r7 c ((hnames c).2 ⟨k, hwr⟩) (by rw [he]; simp), if_pos hk]
    show _ = ((abs h df).col k c).map _
    rw [hk, y2, Option.map_some]
    congr 1
    rw [List.map_flatMap]
    apply List.flatMap_congr
    intro p _
    rw [← y3, share_select]
  · intro k c hwr
    by_cases hc : ∃ k', (abs h df).Written k' c
    · rw [r7 c ((hnames c).2 hc) (by rw [he]; simp), if_neg]
      intro hk
      exact hwr (hk ▸ (hkind c hc).1)
    · exact r8 c (fun hx => hc ((hnames c).1 hx.1)) k

/-- **C88** (a file too many). When the even shares of the rows are used up before the last file (5 rows for 4 files),
`ToCSVDir` returns nil, but the last file holds nothing but a blank line, and `FromCSVFilePattern` returns an error. -/
theorem C88_blank_file [GoFloat F] {pf : GoStr → Option F} {ff : F → GoStr} {df : DF} {h : Heap F} {opt : CSVWritingSpec}
    (wf : df.WF h) {ord : Nat → Kind → List GoStr → List GoStr} (ho : ∀ i k l, (ord i k l).Perm l)
    (hm : opt.maintainOrder = true ∨ df.indexViewed = false) (hcpu : 1 ≤ df.maxCPU) (pre : GoStr) (full : GoStr → Nat → Bool)
    {crlf : Bool} (d : Disk) {N m : Nat}
    (hN : (N : Int) = min df.maxCPU (1 + (abs h df).nRows / (if opt.minRowsPerFile ≤ 0 then 512 else opt.minRowsPerFile)))
    (hm' : m = ((abs h df).nRows + N - 1) / N) (h2 : 2 ≤ N) (h0 : 0 < (abs h df).nRows) (hfill : (abs h df).nRows ≤ (N - 1) * m)
    {spec : CSVReadingSpec} (hd : spec.Default) (hh : spec.header = [])
    {t : CSVTextSpec} (ht : TextFits opt.comma t) (ht0 : t.comment = 0)
    (hr : Rereads pf ff opt.missingMarker spec.missingValues crlf m (abs h df)) :
    ∃ paths d' h', (∀ can : GoStr → Bool, (∀ p ∈ paths, can p = true) →
        df.toCSVDirOn ff ord can full opt crlf pre d h = .ok ((paths, true, d'), h')) ∧ paths.length = N ∧
      (∀ p ∈ paths.getLast?, d' p = some (if crlf = true then [13, 10] else [10])) ∧
      ∀ found, d'.Globs pre found → (∀ p, CsvMatch pre p → (d p).isSome → p ∈ paths) →
      ∀ (sch : FilesSched) (g : Heap F), 0 < filePatternWorkers g.rt.numCPU spec.maxCPU N →
      ∃ g1, fromCSVFilePattern pf sch (some found) (d'.files t) spec g = .ok (none, g1) := by
  have hmpos : 0 < m := by
    rw [hm']
    exact (Nat.le_div_iff_mul_le (by omega)).2 (by omega)
  obtain ⟨paths, d', h', parts, e, c1, c2, c3, c4, c5, c6, c7, c8, c9, c10⟩ :=
    C88_write_partial wf ho ht.delimOk (hr.hasTexts hmpos) hm hcpu pre full crlf d
  rw [← hN] at c1
  have hpl : paths.length = N := by omega
  have hplen : parts.length < paths.length := by
    have := shares_count (by omega) h0 hm' c5 (by omega) (by rw [← hpl]; exact c7)
    omega
  have hlate : ∀ i p, paths[i]? = some p → parts.length ≤ i → d' p = some (csvText opt.comma crlf [[]]) := by
    intro i p hp hi
    obtain ⟨out, ho, hg⟩ := c8 i p hp
    unfold GetsPart at hg
    rw [List.getElem?_eq_none hi] at hg
    rw [ho, hg]
  refine ⟨paths, d', h', e, hpl, ?_, ?_⟩
  · intro p hp
    rw [List.getLast?_eq_getElem?] at hp
    rw [hlate _ p hp (by omega)]
    cases crlf <;> rfl
  · intro found hg hfresh sch g hw
    obtain ⟨listed, hl, hperm⟩ := globs_paths c3 c4 (by
      intro p hp
      obtain ⟨i, hi⟩ := List.mem_iff_getElem?.1 hp
      obtain ⟨out, ho, -⟩ := c8 i p hi
      rw [ho]; rfl) c9 hfresh hg
    have hbad : ∀ i p, paths[i]? = some p → parts.length ≤ i → FileBad spec (d'.files t) p := by
      intro i p hp hi
      refine Or.inr ⟨⟨[], false⟩, ?_, Or.inr (Or.inr ⟨hh, rfl⟩)⟩
      unfold Disk.files
      rw [hlate i p hp hi, Option.map_some, C74_text ht crlf _ (fun h => absurd ht0 h)]
      rfl
    have hch : ∀ p, ∃ (hdr : List GoStr) (recs : List (List GoStr)), p ∈ paths → ¬ FileBad spec (d'.files t) p →
        FileGood spec (d'.files t) p hdr recs := by
      intro p
      by_cases hp : p ∈ paths
      · obtain ⟨i, hi⟩ := List.mem_iff_getElem?.1 hp
        by_cases hil : i < parts.length
        · obtain ⟨-, hdr, recs, x1, -, x3, -⟩ := dir_files (pf := pf) (by rw [hpl]; exact hm') c5 c7 c8 hh ht ht0 hr hi hil h0
          exact ⟨hdr, recs, fun _ _ => ⟨x1, fun hx => by obtain ⟨k, hk⟩ := (x3 _).1 hx; exact absurd hk (hr.named k)⟩⟩
        · exact ⟨[], [], fun _ hb => absurd (hbad i p hi (by omega)) hb⟩
      · exact ⟨[], [], fun h => absurd h hp⟩
    choose hdr rec hrec using hch
    have hlast : paths[N - 1]? = some (paths[N - 1]'(by omega)) := List.getElem?_eq_getElem _
    obtain ⟨g1, e1, -⟩ := C68_file_error pf sch hl (by rw [hperm.length_eq]; omega)
      (by intro hx
          obtain ⟨mid, hx, -⟩ := c4 _ (hperm.mem_iff.1 hx)
          have := congrArg List.length hx
          simp at this) hd (hdr := hdr) (rec := rec)
      ⟨_, hperm.mem_iff.2 (List.mem_of_getElem? hlast), hbad _ _ hlast (by omega)⟩
      (fun p hp hb => hrec p (hperm.mem_iff.1 hp) hb) g (by rw [hperm.length_eq, hpl]; exact hw)
    exact ⟨g1, e1⟩

/-- **C88** (one file). As `C88_roundtrip_partial` when `ToCSVDir` writes one file: the rows are read in the same order and the string marks are those
of the dataframe. -/
theorem C88_single_partial [GoFloat F] {pf : GoStr → Option F} {ff : F → GoStr} {df : DF} {h : Heap F} {opt : CSVWritingSpec}
    (wf : df.WF h) {ord : Nat → Kind → List GoStr → List GoStr} (ho : ∀ i k l, (ord i k l).Perm l)
    (hm : opt.maintainOrder = true ∨ df.indexViewed = false) (hcpu : 1 ≤ df.maxCPU) (pre : GoStr) (full : GoStr → Nat → Bool)
    {crlf : Bool} (d : Disk)
    (hN : min df.maxCPU (1 + (abs h df).nRows / (if opt.minRowsPerFile ≤ 0 then 512 else opt.minRowsPerFile)) = 1)
    (h0 : 0 < (abs h df).nRows)
    {spec : CSVReadingSpec} (hd : spec.Default) (hh : spec.header = []) (he : spec.exclude = [])
    {t : CSVTextSpec} (ht : TextFits opt.comma t) (ht0 : t.comment = 0)
    (hr : Rereads pf ff opt.missingMarker spec.missingValues crlf (abs h df).nRows (abs h df)) :
    ∃ p d' h', (∀ can : GoStr → Bool, can p = true →
        df.toCSVDirOn ff ord can full opt crlf pre d h = .ok (([p], true, d'), h')) ∧
      ∀ found, d'.Globs pre found → (∀ q, CsvMatch pre q → (d q).isSome → q = p) →
      ∀ (sch : FilesSched) (g : Heap F),
      ∃ r g1 df2 g2, fromCSVFilePattern pf sch (some found) (d'.files t) spec g = .ok (some (some r), g1) ∧
        r.toDataFrame g1 = .ok (df2, g2) ∧ df2.WF g2 ∧ (abs g2 df2).nRows = (abs h df).nRows ∧
        (∀ k c, (abs h df).Written k c → (abs g2 df2).col k c = (abs h df).col k c) ∧
        (∀ k c, ¬ (abs h df).Written k c → (abs g2 df2).col k c = none) ∧
        (∀ c, (abs g2 df2).isStr c = (abs h df).isStr c) := by
  obtain ⟨paths, d', h', parts, e, c1, c2, c3, c4, c5, c6, c7, c8, c9, c10⟩ :=
    C88_write_partial wf ho ht.delimOk (hr.hasTexts h0) hm hcpu pre full crlf d
  rw [hN] at c1
  obtain ⟨p, rfl⟩ : ∃ p, paths = [p] := List.length_eq_one_iff.1 (by omega)
  refine ⟨p, d', h', fun can hc => e can (by simpa using hc), ?_⟩
  intro found hg hfresh sch g
  obtain ⟨listed, hl, hperm⟩ := globs_paths c3 c4 (by
    intro q hq
    obtain ⟨i, hi⟩ := List.mem_iff_getElem?.1 hq
    obtain ⟨out, ho, -⟩ := c8 i q hi
    rw [ho]; rfl) c9 (fun q h1 h2 => by simpa using hfresh q h1 h2) hg
  have : listed = [p] := List.perm_singleton.1 hperm
  subst this
  have hplen : parts.length = 1 :=
    (shares_count (m := (abs h df).nRows) (Nat.le_refl 1) h0 (by simp) c5 c6 c7).2 (by simpa using h0)
  obtain ⟨-, hdr, recs, ⟨inp, x0, x1⟩, x2, x3, x4⟩ := dir_files (pf := pf) (i := 0) (p := p) (by simp) c5 c7 c8 hh ht ht0 hr rfl (by omega) h0
  have hsh : ∀ vs : List (Val F), vs.length = (abs h df).nRows → share (abs h df).nRows 0 vs = vs := by
    intro vs hv
    unfold share
    simp [← hv]
  obtain ⟨k0, c0, hw0⟩ := hr.any
  obtain ⟨r, g1, df2, g2, r1, r2, r3, r4, -, r6, r7, r8⟩ := C30_dataframe pf (sch.jobs_perm p) (sch.who p) hd x1
    (fun hx => by obtain ⟨k, hk⟩ := (x3 _).1 hx; exact absurd hk (hr.named k)) ⟨c0, (x3 c0).2 ⟨k0, hw0⟩, by rw [he]; simp⟩ g
  have hread : ∀ k c, (abs h df).Written k c → (abs g2 df2).col k c = (abs h df).col k c := by
    intro k c hw
    obtain ⟨vs, hv, hvl, -⟩ := hr.cols k c hw
    rw [hv, r6 c ((x3 c).2 ⟨k, hw⟩) (by rw [he]; simp)]
    have := x4 k c hw vs hv
    rwa [hsh vs hvl] at this
  have hnot : ∀ k c, ¬ (abs h df).Written k c → (abs g2 df2).col k c = none := by
    intro k c hw
    by_cases hc' : ∃ k', (abs h df).Written k' c
    · obtain ⟨k', hw'⟩ := hc'
      have hne : k' ≠ k := fun e => hw (e ▸ hw')
      obtain ⟨vs', hv', -⟩ := hr.cols k' c hw'
      have h1' := hread k' c hw'
      rw [hv'] at h1'
      have hmem := (x3 c).2 ⟨k', hw'⟩
      have i1 := (r6 c hmem (by rw [he]; simp) k' vs').1 h1'
      cases hcc : (abs g2 df2).col k c with
      | none => rfl
      | some l =>
        obtain ⟨-, hnn⟩ := r3.cells hcc
        have hl : ∃ vs : List (Val F), l = vs.map some := by
          refine ⟨l.map fun o => o.getD .nil, ?_⟩
          rw [List.map_map]
          conv_lhs => rw [← List.map_id l]
          apply List.map_congr_left
          intro o ho
          cases o with
          | none => exact absurd ho hnn
          | some v => rfl
        obtain ⟨vs, rfl⟩ := hl
        have i2 := (r6 c hmem (by rw [he]; simp) k vs).1 hcc
        obtain ⟨k0, vs0, -, -, hu⟩ := Inferred.unique pf spec.missingValues (cellsUnder hdr recs c)
        exact absurd ((hu _ _ i1).1.trans (hu _ _ i2).1.symm) hne
    · exact r7 c (fun hm => hc' ((x3 c).1 hm.1)) k
  refine ⟨r, g1, df2, g2, ?_, r2, r3, by rw [r4, x2]; simp, hread, hnot, ?_⟩
  · rw [C68_one_file pf sch hl]
    unfold fromCSVFile
    rw [x0]
    simp only [r1]
    rfl
  · intro c
    rw [Bool.eq_iff_iff, r8]
    constructor
    · intro hs
      by_cases hw : (abs h df).Written .obj c
      · simpa [ADF.Written] using hw
      · rw [hnot _ _ hw] at hs; cases hs
    · intro hs
      have hw : (abs h df).Written .obj c := by simpa [ADF.Written] using hs
      rw [hread _ _ hw]
      obtain ⟨vs, hv, -⟩ := hr.cols .obj c hw
      rw [hv]; rfl

/-- **C88** (what is in the way). A file that matches the pattern and is not among the paths that `ToCSVDir` returns, such as a file of an earlier
write with more files, stays as it was, and is among the files that `FromCSVFilePattern` then reads. -/
theorem C88_stale [GoFloat F] {ff : F → GoStr} {df : DF} {h h' : Heap F} {opt : CSVWritingSpec} {ord : Nat → Kind → List GoStr → List GoStr}
    {can : GoStr → Bool} {full : GoStr → Nat → Bool} {crlf ok : Bool} {pre : GoStr} {d d' : Disk} {paths : List GoStr}
    (e : df.toCSVDirOn ff ord can full opt crlf pre d h = .ok ((paths, ok, d'), h')) {p s : GoStr} (hp : d p = some s) (hn : p ∉ paths)
    (hmatch : CsvMatch pre p) :
    d' p = some s ∧ ∀ found, d'.Globs pre found → (p, some true) ∈ found := by
  have hcr : ∀ (ps : List GoStr) (d : Disk), p ∉ ps → (d.create can ps).2 p = d p := by
    intro ps
    induction ps with
    | nil => intro d _; rfl
    | cons q ps ih =>
      intro d hx
      simp only [List.mem_cons, not_or] at hx
      rw [Disk.create]
      split
      · rw [ih _ hx.2, Disk.put, if_neg hx.1]
      · rfl
  have hd' : d' p = some s := by
    unfold DF.toCSVDirOn at e
    split at e
    · cases e
    · split at e
      · cases e
      · rename_i ps hps r h1 hf
        cases e
        unfold DF.toCSVFilesOn at hf
        split at hf
        · split at hf
          · cases hf
          · cases hf
            rw [Disk.putAll_other, hcr _ _ hn, hp]
            intro hx
            obtain ⟨⟨q, x⟩, hq, rfl⟩ := List.mem_map.1 hx
            exact hn (List.of_mem_zip hq).1
        · cases hf
          rw [hcr _ _ hn, hp]
  refine ⟨hd', fun found hg => ?_⟩
  rw [hg.2.2, hd']
  exact ⟨rfl, hmatch⟩

/-- **C88** (a file that cannot be created). When one of the files cannot be created, `ToCSVDir` returns the paths and an error without writing anything; but the files
before it are emptied (or created), whatever was in them, and the others are as before. -/
theorem C88_create_fails [GoFloat F] {ff : F → GoStr} {df : DF} {h : Heap F} {opt : CSVWritingSpec} {ord : Nat → Kind → List GoStr → List GoStr}
    {can : GoStr → Bool} {full : GoStr → Nat → Bool} {crlf : Bool} {pre : GoStr} {d : Disk} {before after : List GoStr} {q : GoStr}
    (hp : csvPaths pre (csvNumFiles df.numRows opt.minRowsPerFile df.actualMaxCPU) = .ok (before ++ q :: after))
    (h1 : ∀ p ∈ before, can p = true) (h2 : can q = false) :
    ∃ d', df.toCSVDirOn ff ord can full opt crlf pre d h = .ok ((before ++ q :: after, false, d'), h) ∧
      (∀ p ∈ before, d' p = some []) ∧ ∀ p, p ∉ before → d' p = d p := by
  have key : ∀ (ps : List GoStr) (d : Disk), (∀ p ∈ ps, can p = true) → (d.create can (ps ++ q :: after)).1 = false ∧
      (∀ p ∈ ps, (d.create can (ps ++ q :: after)).2 p = some []) ∧ ∀ p, p ∉ ps → (d.create can (ps ++ q :: after)).2 p = d p := by
    intro ps
    induction ps with
    | nil =>
      intro d _
      have e : d.create can ([] ++ q :: after) = (false, d) := by
        show (if can q = true then _ else _) = _
        rw [if_neg (by rw [h2]; decide)]
      rw [e]
      exact ⟨rfl, by simp, fun _ _ => rfl⟩
    | cons x ps ih =>
      intro d hx
      have e : d.create can (x :: ps ++ q :: after) = (d.put x []).create can (ps ++ q :: after) := by
        show (if can x = true then _ else _) = _
        rw [if_pos (hx x (by simp))]
        rfl
      obtain ⟨a, b, c⟩ := ih (d.put x []) (fun p hp => hx p (by simp [hp]))
      rw [e]
      refine ⟨a, ?_, ?_⟩
      · intro p hpm
        by_cases hps : p ∈ ps
        · exact b p hps
        · rw [c p hps]
          have : p = x := by simpa [hps] using hpm
          rw [this, Disk.put, if_pos rfl]
      · intro p hpm
        simp only [List.mem_cons, not_or] at hpm
        rw [c p hpm.2, Disk.put, if_neg hpm.1]
  obtain ⟨a, b, c⟩ := key before d h1
  refine ⟨_, ?_, b, c⟩
  unfold DF.toCSVDirOn
  rw [hp]
  simp only
  unfold DF.toCSVFilesOn
  rw [if_neg (by rw [a]; decide)]

namespace Demo

theorem fmtInt_noCR (n : Int) : 13 ∉ fmtInt n := by
  have hdig : ∀ n, ∀ b ∈ natDec n, b ≠ 13 := by
    intro n b hb e
    have := natDec_digits n b hb
    subst e
    revert this; decide
  intro hm
  unfold fmtInt at hm
  split at hm
  · rcases List.mem_cons.1 hm with h | h
    · revert h; decide
    · exact hdig _ _ h rfl
  · exact hdig _ _ hm rfl

/-- The demo dataframe can be read back from files of two rows, and of four. -/
theorem dir_rereads {m : Nat} (hm : m = 2 ∨ m = 4) : Rereads rtP rtF b!"NA" [b!"NA"] true m (abs h df) := by
  have hn : (abs h df).nRows = 4 := by decide +kernel
  have hj : ∀ j, j * m < 4 → (m = 2 ∧ j = 0) ∨ (m = 2 ∧ j = 1) ∨ (m = 4 ∧ j = 0) := by
    intro j hj
    rcases hm with rfl | rfl <;> omega
  refine ⟨?_, ?_, ?_, ⟨.int, b!"a", show ((abs h df).col .int b!"a").isSome = true by decide +kernel⟩, ?_,
    Or.inl ⟨.int, b!"a", .obj, b!"s", show ((abs h df).col .int b!"a").isSome = true by decide +kernel,
      show (abs h df).isStr b!"s" = true by decide +kernel, by decide⟩⟩
  · intro k c hw
    rw [hn]
    rcases written_cases k c hw with ⟨rfl, rfl⟩ | ⟨rfl, rfl⟩ | ⟨rfl, rfl⟩ | ⟨rfl, rfl⟩
    · refine ⟨[.int 10, .int 20, .int 30, .int 40], by decide +kernel, rfl, ?_⟩
      have hall : ∀ n : Int, n ∈ [10, 20, 30, 40] → -2 ^ 63 ≤ n ∧ n < 2 ^ 63 ∧ ¬ fmtInt n = b!"NA" := by decide +kernel
      intro j hjm
      rcases hj j hjm with ⟨rfl, rfl⟩ | ⟨rfl, rfl⟩ | ⟨rfl, rfl⟩
      · refine ⟨?_, 10, by decide, by decide, by decide⟩
        simp only [share, List.drop, List.take, List.mem_cons, List.not_mem_nil, or_false, forall_eq_or_imp, forall_eq]
        exact ⟨⟨10, rfl, hall 10 (by decide)⟩, ⟨20, rfl, hall 20 (by decide)⟩⟩
      · refine ⟨?_, 30, by decide, by decide, by decide⟩
        simp only [share, List.drop, List.take, List.mem_cons, List.not_mem_nil, or_false, forall_eq_or_imp, forall_eq]
        exact ⟨⟨30, rfl, hall 30 (by decide)⟩, ⟨40, rfl, hall 40 (by decide)⟩⟩
      · refine ⟨?_, 10, by decide, by decide, by decide⟩
        simp only [share, List.drop, List.take, List.mem_cons, List.not_mem_nil, or_false, forall_eq_or_imp, forall_eq]
        exact ⟨⟨10, rfl, hall 10 (by decide)⟩, ⟨20, rfl, hall 20 (by decide)⟩, ⟨30, rfl, hall 30 (by decide)⟩, ⟨40, rfl, hall 40 (by decide)⟩⟩
    · refine ⟨[.float 5, .float 3, .float 9, .float 1], by decide +kernel, rfl, ?_⟩
      have hall : ∀ n : Int, n ∈ [5, 3, 9, 1] → rtP (rtF n) = some n ∧ ¬ rtF n = b!"NA" := by decide +kernel
      intro j hjm
      rcases hj j hjm with ⟨rfl, rfl⟩ | ⟨rfl, rfl⟩ | ⟨rfl, rfl⟩
      · refine ⟨?_, 5, by decide, no_boolLit (by decide +kernel), no_intLit (by decide +kernel)⟩
        simp only [share, List.drop, List.take, List.mem_cons, List.not_mem_nil, or_false, forall_eq_or_imp, forall_eq]
        exact ⟨⟨5, rfl, hall 5 (by decide)⟩, ⟨3, rfl, hall 3 (by decide)⟩⟩
      · refine ⟨?_, 9, by decide, no_boolLit (by decide +kernel), no_intLit (by decide +kernel)⟩
        simp only [share, List.drop, List.take, List.mem_cons, List.not_mem_nil, or_false, forall_eq_or_imp, forall_eq]
        exact ⟨⟨9, rfl, hall 9 (by decide)⟩, ⟨1, rfl, hall 1 (by decide)⟩⟩
      · refine ⟨?_, 5, by decide, no_boolLit (by decide +kernel), no_intLit (by decide +kernel)⟩
        simp only [share, List.drop, List.take, List.mem_cons, List.not_mem_nil, or_false, forall_eq_or_imp, forall_eq]
        exact ⟨⟨5, rfl, hall 5 (by decide)⟩, ⟨3, rfl, hall 3 (by decide)⟩, ⟨9, rfl, hall 9 (by decide)⟩, ⟨1, rfl, hall 1 (by decide)⟩⟩
    · refine ⟨[.str b!"u", .str b!"v", .str b!"u", .nil], by decide +kernel, rfl, ?_⟩
      intro j hjm
      rcases hj j hjm with ⟨rfl, rfl⟩ | ⟨rfl, rfl⟩ | ⟨rfl, rfl⟩ <;>
        exact ⟨by simp [share], b!"u", by decide, no_boolLit (by decide), no_intLit (by decide), by decide⟩
    · refine ⟨[.bool true, .bool false, .bool true, .bool false], by decide +kernel, rfl, ?_⟩
      intro j _ v hv
      have hv := List.mem_of_mem_drop (List.mem_of_mem_take hv)
      simp at hv
      rcases hv with rfl | rfl | rfl | rfl <;> exact ⟨_, rfl⟩
  · intro k k' c h1 h2
    rcases written_cases k c h1 with ⟨rfl, rfl⟩ | ⟨rfl, rfl⟩ | ⟨rfl, rfl⟩ | ⟨rfl, rfl⟩ <;>
      rcases written_cases k' _ h2 with ⟨rfl, e⟩ | ⟨rfl, e⟩ | ⟨rfl, e⟩ | ⟨rfl, e⟩ <;> first | rfl | (revert e; decide)
  · intro k hk
    rcases written_cases k _ hk with ⟨_, e⟩ | ⟨_, e⟩ | ⟨_, e⟩ | ⟨_, e⟩ <;> (revert e; decide)
  · intro k c hw
    refine ⟨?_, ?_⟩
    · rcases written_cases k c hw with ⟨rfl, rfl⟩ | ⟨rfl, rfl⟩ | ⟨rfl, rfl⟩ | ⟨rfl, rfl⟩ <;>
        (simp only [TextSafe, if_true]; decide)
    · intro r v x hv hx
      simp only [TextSafe, if_true]
      cases hx with
      | tt => decide
      | ff => decide
      | nat n => rw [textOf_int (F := Int) (ff := rtF) (marker := b!"NA") (.nat n)] ; exact fmtInt_noCR _
      | neg n => rw [textOf_int (F := Int) (ff := rtF) (marker := b!"NA") (.neg n)] ; exact fmtInt_noCR _
      | float x =>
        intro hm
        rcases List.mem_append.1 hm with h | h
        · exact fmtInt_noCR _ h
        · revert h; decide
      | nil => decide
      | str s =>
        rcases written_cases _ c hw with ⟨hk, -⟩ | ⟨hk, -⟩ | ⟨-, rfl⟩ | ⟨hk, -⟩
        · cases hk
        · cases hk
        · have hcol : (abs h df).col .obj b!"s" = some [some (.str b!"u"), some (.str b!"v"), some (.str b!"u"), some .nil] := by
            decide +kernel
          unfold ADF.cell at hv
          rw [hcol, Option.bind_some] at hv
          have hmem : some (Val.str x) ∈ [some (Val.str b!"u" : Val Int), some (.str b!"v"), some (.str b!"u"), some .nil] := by
            cases hi : ([some (Val.str b!"u" : Val Int), some (.str b!"v"), some (.str b!"u"), some .nil])[r]? with
            | none => rw [hi] at hv; cases hv
            | some o => rw [hi] at hv; simp at hv; subst hv; exact List.mem_of_getElem? hi
          simp at hmem
          rcases hmem with rfl | rfl | rfl <;> decide
        · cases hk

/-- The demo dataframe is written into two files and read back. -/
example := C88_roundtrip_partial (pf := rtP) (ff := rtF) (opt := { csvOpt with minRowsPerFile := 3 }) df_wf (ord := fun _ => csvOrd) (fun _ => csvOrd_perm) (Or.inl rfl)
  (by decide) b!"/tmp/r" (fun _ _ => false) (fun _ => none) (N := 2) (m := 2) (by decide +kernel) (by decide +kernel) (by decide) (by decide +kernel)
  (spec := rtSpec) ⟨rfl, rfl, rfl⟩ rfl rfl (t := plainText) plainText_fits rfl (dir_rereads (Or.inl rfl))

/-- Into one file. -/
example := C88_single_partial (pf := rtP) (ff := rtF) (opt := csvOpt) df_wf (ord := fun _ => csvOrd) (fun _ => csvOrd_perm) (Or.inl rfl)
  (by decide) b!"/tmp/r" (fun _ _ => false) (fun _ => none) (by decide +kernel) (by decide +kernel)
  (spec := rtSpec) ⟨rfl, rfl, rfl⟩ rfl rfl (t := plainText) plainText_fits rfl (dir_rereads (m := (abs h df).nRows) (Or.inr (by decide +kernel)))

/-- Into three files, the last of which stays blank. -/
example := C88_blank_file (pf := rtP) (ff := rtF) (opt := { csvOpt with minRowsPerFile := 2 }) df_wf (ord := fun _ => csvOrd) (fun _ => csvOrd_perm) (Or.inl rfl)
  (by decide) b!"/tmp/r" (fun _ _ => false) (fun _ => none) (N := 3) (m := 2) (by decide +kernel) (by decide +kernel) (by decide) (by decide +kernel)
  (by decide +kernel) (spec := rtSpec) ⟨rfl, rfl, rfl⟩ rfl (t := plainText) plainText_fits rfl (dir_rereads (Or.inl rfl))

/-- The second of the files cannot be created. -/
example := C88_create_fails (F := Int) (ff := rtF) (df := df) (h := h) (opt := { csvOpt with minRowsPerFile := 3 }) (ord := fun _ => csvOrd) (pre := b!"r")
  (can := fun p => p = b!"r0.csv") (full := fun _ _ => false) (crlf := false) (d := fun _ => some b!"old") (before := [b!"r0.csv"]) (after := []) (q := b!"r1.csv")
  (by decide +kernel) (by decide) (by decide)

/-- A file of an earlier write. -/
def staleDisk : Disk := fun p => if p = b!"r7.csv" then some b!"b,a,x,s\ntrue,7,1.,z\n" else none

def staleFound : List (GoStr × Option Bool) := [(b!"r0.csv", some true), (b!"r1.csv", some true), (b!"r7.csv", some true)]

/-- Writing the demo dataframe into two files, then reading the pattern `r*.csv`. -/
def staleRun : Except Abort (List GoStr × Bool × Nat) :=
  match df.toCSVDirOn rtF (fun _ => csvOrd) (fun _ => true) (fun _ _ => false) { csvOpt with minRowsPerFile := 3 } false b!"r" staleDisk h with
  | .error e => .error e
  | .ok ((paths, ok, d'), _) =>
    match fromCSVFilePattern rtP filesSched (some staleFound) (d'.files plainText) rtSpec h with
    | .ok (some (some r), g1) =>
      match r.toDataFrame g1 with
      | .ok (df2, g2) => .ok (paths, ok, (abs g2 df2).nRows)
      | .error e => .error e
    | _ => .error .panic

theorem staleRun_eq : staleRun = .ok ([b!"r0.csv", b!"r1.csv"], true, 5) := by decide +kernel

end Demo

/-- C88 is false when another file matches the pattern: the demo dataframe, of 4 rows, is read back with 5. -/
theorem C88_stale_refuted : ∃ paths d' h' r g1 df2 g2,
    Demo.df.toCSVDirOn Demo.rtF (fun _ => Demo.csvOrd) (fun _ => true) (fun _ _ => false) { Demo.csvOpt with minRowsPerFile := 3 } false b!"r" Demo.staleDisk
      Demo.h = .ok ((paths, true, d'), h') ∧ b!"r7.csv" ∉ paths ∧ d'.Globs b!"r" Demo.staleFound ∧
    fromCSVFilePattern Demo.rtP Demo.filesSched (some Demo.staleFound) (d'.files Demo.plainText) Demo.rtSpec Demo.h = .ok (some (some r), g1) ∧
    r.toDataFrame g1 = .ok (df2, g2) ∧ (abs Demo.h Demo.df).nRows = 4 ∧ (abs g2 df2).nRows = 5 := by
  have hrun := Demo.staleRun_eq
  unfold Demo.staleRun at hrun
  split at hrun
  · cases hrun
  · rename_i paths ok d' h' e
    split at hrun
    · rename_i r g1 er
      split at hrun
      · rename_i df2 g2 ed
        have hrun := Except.ok.inj hrun
        have hpa : paths = [b!"r0.csv", b!"r1.csv"] := congrArg (·.1) hrun
        have hok : ok = true := congrArg (·.2.1) hrun
        have hnr : (abs g2 df2).nRows = 5 := congrArg (·.2.2) hrun
        subst hpa hok
        refine ⟨_, d', h', r, g1, df2, g2, e, by decide, ?_, er, ed, by decide +kernel, hnr⟩
        have hx : ∀ p, (d' p).isSome ↔ p ∈ [b!"r0.csv", b!"r1.csv", b!"r7.csv"] := by
          obtain ⟨paths, d2, h2, parts, e', -, -, -, -, -, -, -, c8, c9, -⟩ := C88_write_partial (ff := Demo.rtF) Demo.df_wf
            (opt := { Demo.csvOpt with minRowsPerFile := 3 }) (ord := fun _ => Demo.csvOrd) (fun _ => Demo.csvOrd_perm) (Or.inl rfl)
            ((Demo.dir_rereads (Or.inl rfl)).hasTexts (by decide)) (Or.inl rfl) (by decide) b!"r" (fun _ _ => false) false Demo.staleDisk
          have e2 := e' (fun _ => true) (fun _ _ => rfl)
          rw [e] at e2
          cases e2
          intro p
          by_cases h0 : p = b!"r0.csv"
          · obtain ⟨out, ho, -⟩ := c8 0 _ rfl
            subst h0
            rw [ho]; simp
          · by_cases h1 : p = b!"r1.csv"
            · obtain ⟨out, ho, -⟩ := c8 1 _ rfl
              subst h1
              rw [ho]; simp
            · rw [c9 p (by simp [h0, h1])]
              unfold Demo.staleDisk
              split
              · rename_i h7
                simp [h7]
              · rename_i h7
                simp [h0, h1, h7]
        refine ⟨by decide, by decide, fun p => ?_⟩
        rw [hx p]
        constructor
        · intro hm
          simp only [Demo.staleFound, List.mem_cons, Prod.mk.injEq, List.not_mem_nil, or_false, and_true] at hm
          rcases hm with rfl | rfl | rfl
          · exact ⟨by simp, b!"0", rfl, by decide⟩
          · exact ⟨by simp, b!"1", rfl, by decide⟩
          · exact ⟨by simp, b!"7", rfl, by decide⟩
        · rintro ⟨hm, -⟩
          simp only [List.mem_cons, List.not_mem_nil, or_false] at hm
          rcases hm with rfl | rfl | rfl <;> simp [Demo.staleFound]
      · cases hrun
    · cases hrun

example : ∃ d' : Disk, d' b!"r7.csv" = some b!"b,a,x,s\ntrue,7,1.,z\n" ∧ ∀ found, d'.Globs b!"r" found → (b!"r7.csv", some true) ∈ found := by
  obtain ⟨paths, d', h', r, g1, df2, g2, e, hn, -⟩ := C88_stale_refuted
  exact ⟨d', C88_stale e rfl hn ⟨b!"7", rfl, by decide⟩⟩

end Verif
