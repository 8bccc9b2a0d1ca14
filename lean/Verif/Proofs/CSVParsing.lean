import Verif.Spec.CSVParsing
import Verif.Props.Merge
import Verif.Proofs.Fit

/-! Lemmas about `FromCSV`. -/

namespace Verif
variable {F : Type}

theorem indexOfString_eq (e : GoStr) (l : List GoStr) (k : Nat) :
    indexOfString e l k = if e ∈ l then ((k + l.idxOf e : Nat) : Int) else -1 := by
  induction l generalizing k with
  | nil => rfl
  | cons v vs ih =>
    unfold indexOfString
    by_cases h : e = v
    · subst h; simp
    · rw [if_neg h, ih, List.idxOf_cons_ne _ (Ne.symm h)]
      simp only [List.mem_cons, h, false_or]
      split
      · congr 1; omega
      · rfl

theorem colCells_ok {records : List (List GoStr)} {j : Nat} (hj : ∀ r ∈ records, j < r.length) :
    colCells records (j : Int) = .ok (records.map fun r => (r[j]?).getD []) := by
  induction records with
  | nil => rfl
  | cons r rs ih =>
    unfold colCells
    have h0 : j < r.length := hj r (by simp)
    simp only [Int.natCast_nonneg, if_true, Int.toNat_natCast, List.getElem?_eq_getElem h0]
    rw [ih (fun r hr => hj r (by simp [hr]))]
    simp [List.getElem?_eq_getElem h0]

/-- What the missing-value flags of a column should be. -/
def missOf (spec : CSVReadingSpec) (cells : List GoStr) : List Bool :=
  cells.map fun v => decide (v ∈ spec.missingValues)

/-- A column as `FromCSV` stores it. -/
def csvKind [GoFloat F] (pf : GoStr → Option F) (spec : CSVReadingSpec) (cells : List GoStr) : Kind × List (Val F) :=
  if (!spec.binaryAsFloat && isBinary cells) || (!spec.boolAsFloat && !spec.binaryAsFloat && isBool cells) then
    (.bool, toBool cells)
  else if !spec.intAsFloat && isInt cells (missOf spec cells) then (.int, toInt cells (missOf spec cells))
  else if isFloat pf cells (missOf spec cells) then (.float, toFloat pf cells (missOf spec cells))
  else (.obj, toStrings cells (missOf spec cells))

/-- Store a column in a frame. -/
def csvStore (w : CsvWorker) (p : Kind × List (Val F)) (c : GoStr) (h : Heap F) : CsvWorker × Heap F :=
  let (w, h) := w.put p.1 c p.2 h
  if p.1 = .obj then
    let (d, h) := w.data.markAsString c h
    ({ w with data := d }, h)
  else (w, h)

/-- The worker's `missing` slice has the right length, and is blank when no literal means missing. -/
structure MissOK (spec : CSVReadingSpec) (n : Nat) (m : List Bool) : Prop where
  len : m.length = n
  blank : spec.missingValues = [] → m = List.replicate n false

theorem missOf_ok (spec : CSVReadingSpec) (cells : List GoStr) : MissOK spec cells.length (missOf spec cells) := by
  refine ⟨by simp [missOf], fun h => ?_⟩
  apply List.ext_getElem <;> simp [missOf, h]

theorem csvColumn_eq [GoFloat F] (pf : GoStr → Option F) (spec : CSVReadingSpec) {records : List (List GoStr)}
    {header cells : List GoStr} {c : GoStr} {w : CsvWorker} (hc : colCells records (indexOfString c header 0) = .ok cells)
    (hm : MissOK spec cells.length w.missing) (h : Heap F) :
    ∃ m, MissOK spec cells.length m ∧
      csvColumn pf spec records header c w h = .ok (csvStore ⟨m, w.data⟩ (csvKind pf spec cells) c h) := by
  have hmiss : (if spec.missingValues.length > 0 then cells.map (fun v => decide (v ∈ spec.missingValues)) else w.missing) =
      missOf spec cells := by
    split
    · rfl
    · rename_i h0
      have h0 : spec.missingValues = [] := List.length_eq_zero_iff.1 (by omega)
      rw [hm.blank h0, (missOf_ok spec cells).blank h0]
  unfold csvColumn
  rw [hc]
  simp only [hmiss]
  unfold csvKind
  cases hB : (!spec.binaryAsFloat && isBinary cells) with
  | true => exact ⟨w.missing, hm, by simp [csvStore]⟩
  | false =>
    cases hB2 : (!spec.boolAsFloat && !spec.binaryAsFloat && isBool cells) with
    | true => exact ⟨w.missing, hm, by simp [csvStore]⟩
    | false =>
      refine ⟨missOf spec cells, missOf_ok spec cells, ?_⟩
      simp only [Bool.false_eq_true, if_false, Bool.or_false]
      split
      · simp [csvStore]
      · split
        · simp [csvStore]
        · simp [csvStore]

/-- What storing a column does to a frame and to the rest of the heap. -/
theorem csvStore_spec {w : CsvWorker} {h : Heap F} (wf : w.data.WF h) (p : Kind × List (Val F)) (c : GoStr)
    {w' : CsvWorker} {h' : Heap F} (e : csvStore w p c h = (w', h')) :
    Heap.Frame Nope (· = w.data.tab) (fun i => w.data.strHdr = some i) Nope h h' ∧ w'.missing = w.missing ∧
    w'.data.tab = w.data.tab ∧ w'.data.WF h' ∧
    (∀ i, w'.data.strHdr = some i → w.data.strHdr = some i ∨ h.next ≤ i) ∧
    (∀ k x, rawCol h' w'.data k x = if k = p.1 ∧ x = c then some p.2 else rawCol h w.data k x) ∧
    (∀ x, rawStr h' w'.data x = (rawStr h w.data x || decide (p.1 = .obj ∧ x = c))) := by
  obtain ⟨k0, vals⟩ := p
  -- the heap after the store itself
  have fr0 := (Heap.newArr_ext h vals).toFrame (A := Nope) (T := (· = w.data.tab)) (H := fun i => w.data.strHdr = some i) (M := Nope)
  obtain ⟨s, hs⟩ : ∃ s, s = (h.newArr vals).1 := ⟨_, rfl⟩
  obtain ⟨h1, hh1⟩ : ∃ h1, h1 = (h.newArr vals).2 := ⟨_, rfl⟩
  have vs : s.Valid h1 := by rw [hs, hh1]; exact Slice.valid_newArr h vals
  have rs : h1.read s = vals := by rw [hs, hh1]; exact read_newArr h vals
  have ext1 : Heap.Ext h h1 := by rw [hh1]; exact Heap.newArr_ext h vals
  obtain ⟨h2, hh2⟩ : ∃ h2, h2 = h1.setTab w.data.tab (AMap.set (h1.tab w.data.tab) (k0, c) s) := ⟨_, rfl⟩
  have hput : w.put k0 c vals h = (w, h2) := by
    unfold CsvWorker.put Raw.setCol
    rw [hh2, hs, hh1]
  have fr2 : Heap.Frame Nope (· = w.data.tab) (fun i => w.data.strHdr = some i) Nope h h2 := by
    rw [hh2]
    exact (ext1.toFrame (A := Nope) (T := Nope) (H := Nope) (M := Nope)).mono (fun _ _ => id) (fun _ _ x => x.elim)
      (fun _ _ x => x.elim) (fun _ _ => id) |>.trans (Heap.setTab_frame (A := Nope) (H := Nope) (M := Nope) h1 w.data.tab _)
      (fun _ _ => id) (fun _ _ => id) (fun _ _ x => x.elim) (fun _ _ => id)
  have tab2 : h2.tab w.data.tab = AMap.set (h.tab w.data.tab) (k0, c) s := by
    rw [hh2]; simp [ext1.tab _ wf.tab_lt]
  have wf2 : w.data.WF h2 := by
    refine ⟨Nat.lt_of_lt_of_le wf.tab_lt fr2.next_le, fun i hi => Nat.lt_of_lt_of_le (wf.shared_lt i hi) fr2.next_le,
      fun i hi => Nat.lt_of_lt_of_le (wf.str_lt i hi) fr2.next_le, ?_, ?_⟩
    · rw [tab2]; exact AMap.nodup_set wf.keys _ _
    · intro q s' hq
      rw [tab2, AMap.get_set] at hq
      have v1 : s'.Valid h1 := by
        split at hq
        · cases hq; exact vs
        · exact (wf.slices _ _ hq).ext ext1
      rw [hh2]; exact v1
  have col2 : ∀ k x, rawCol h2 w.data k x = if k = k0 ∧ x = c then some vals else rawCol h w.data k x := by
    intro k x
    unfold rawCol
    rw [tab2, AMap.get_set]
    by_cases hq : (k0, c) = (k, x)
    · cases hq
      simp only [if_true, Option.map_some, and_self]
      rw [← rs, hh2]; rfl
    · rw [if_neg hq, if_neg (by rintro ⟨rfl, rfl⟩; exact hq rfl)]
      cases hg : AMap.get (h.tab w.data.tab) (k, x) with
      | none => rfl
      | some s' =>
        simp only [Option.map_some, Option.some.injEq]
        have : h2.read s' = h1.read s' := by rw [hh2]; rfl
        rw [this, Heap.read_congr ((wf.slices _ _ hg).arr_eq ext1)]
  have hdr2 : h2.hdr = h.hdr := by rw [hh2, hh1]; rfl
  have str2 : ∀ x, rawStr h2 w.data x = rawStr h w.data x := by
    intro x; unfold rawStr hdrList; rw [hdr2]
  unfold csvStore at e
  simp only [hput] at e
  by_cases ho : k0 = .obj
  · rw [if_pos ho] at e
    unfold Raw.markAsString at e
    have fr3 := hdrAdd_frame (A := Nope) (T := Nope) (M := Nope) h2 w.data.strHdr [c]
    have hf := hdrAdd_fst h2 w.data.strHdr [c]
    have hm := hdrAdd_mem h2 w.data.strHdr [c]
    have ht := hdrAdd_tab h2 w.data.strHdr [c]
    have ha := hdrAdd_arr h2 w.data.strHdr [c]
    have hl := hdrAdd_lt wf2.str_lt [c]
    generalize hdrAdd h2 w.data.strHdr [c] = q at e fr3 hf hm ht ha hl
    obtain ⟨st, h3⟩ := q
    simp only [Prod.mk.injEq] at e
    obtain ⟨rfl, rfl⟩ := e
    dsimp only at fr3 hf hm ht ha hl
    refine ⟨fr2.trans fr3 (fun _ _ => id) (fun _ _ x => x.elim) (fun _ _ => id) (fun _ _ => id), rfl, rfl, ?_, ?_, ?_, ?_⟩
    · refine ⟨Nat.lt_of_lt_of_le wf2.tab_lt fr3.next_le, fun i hi => Nat.lt_of_lt_of_le (wf2.shared_lt i hi) fr3.next_le, hl, ?_, ?_⟩
      · simp only [ht]; exact wf2.keys
      · intro q s' hq
        simp only [ht] at hq
        exact (wf2.slices _ _ hq).frame fr3 (Or.inr id)
    · intro i hi
      rw [hf] at hi
      cases hst : w.data.strHdr with
      | none =>
        rw [hst] at hi
        right
        have := fr2.next_le
        simp at hi; omega
      | some j => rw [hst] at hi; left; exact hi
    · intro k x
      rw [← col2]
      unfold rawCol
      simp only [ht]
      congr 1
      funext s'
      unfold Heap.read
      rw [ha]
    · intro x
      rw [← str2]
      unfold rawStr
      rw [Bool.eq_iff_iff]
      simp only [Bool.or_eq_true, decide_eq_true_eq, hm, ho, true_and, List.mem_singleton]
  · rw [if_neg ho] at e
    cases e
    refine ⟨fr2, rfl, rfl, wf2, fun i hi => Or.inl hi, col2, ?_⟩
    intro x
    rw [str2]
    simp [ho]

/-- The state of the goroutines once the columns `done` are parsed. -/
structure CsvInv [GoFloat F] (pf : GoStr → Option F) (spec : CSVReadingSpec) (cellsOf : GoStr → List GoStr) (n W : Nat)
    (who : GoStr → Nat) (h0 : Heap F) (done : List GoStr) (ws : List CsvWorker) (h : Heap F) : Prop where
  ext : Heap.Ext h0 h
  num : ws.length = W
  miss : ∀ (i : Nat) (w : CsvWorker), ws[i]? = some w → MissOK spec n w.missing
  wf : ∀ (i : Nat) (w : CsvWorker), ws[i]? = some w → w.data.WF h
  newTab : ∀ (i : Nat) (w : CsvWorker), ws[i]? = some w → h0.next ≤ w.data.tab
  newStr : ∀ (i : Nat) (w : CsvWorker), ws[i]? = some w → ∀ j, w.data.strHdr = some j → h0.next ≤ j
  sepTab : ∀ (i j : Nat) (w w' : CsvWorker), ws[i]? = some w → ws[j]? = some w' → i ≠ j → w.data.tab ≠ w'.data.tab
  sepStr : ∀ (i j : Nat) (w w' : CsvWorker), ws[i]? = some w → ws[j]? = some w' → i ≠ j → ∀ a, w.data.strHdr = some a → w'.data.strHdr ≠ some a
  col : ∀ (i : Nat) (w : CsvWorker), ws[i]? = some w → ∀ k c, rawCol h w.data k c =
    if c ∈ done ∧ who c % W = i ∧ (csvKind pf spec (cellsOf c)).1 = k then some (csvKind pf spec (cellsOf c)).2 else none
  str : ∀ (i : Nat) (w : CsvWorker), ws[i]? = some w → ∀ c, rawStr h w.data c =
    decide (c ∈ done ∧ who c % W = i ∧ (csvKind pf spec (cellsOf c)).1 = .obj)

theorem CsvInv.step [GoFloat F] {pf : GoStr → Option F} {spec : CSVReadingSpec} {records : List (List GoStr)}
    {header : List GoStr} {cellsOf : GoStr → List GoStr} {W : Nat} {who : GoStr → Nat} {h0 h : Heap F} {done : List GoStr}
    {ws : List CsvWorker} (inv : CsvInv pf spec cellsOf records.length W who h0 done ws h) (hW : 0 < W) {c : GoStr}
    (hnew : c ∉ done) (hcell : colCells records (indexOfString c header 0) = .ok (cellsOf c))
    (hlen : (cellsOf c).length = records.length) :
    ∃ ws' h', csvJob pf spec records header who c (ws, h) = .ok (ws', h') ∧
      CsvInv pf spec cellsOf records.length W who h0 (done ++ [c]) ws' h' := by
  obtain ⟨i, hi⟩ : ∃ i, i = who c % W := ⟨_, rfl⟩
  have hiW : i < ws.length := by rw [inv.num, hi]; exact Nat.mod_lt _ hW
  obtain ⟨w, hw⟩ : ∃ w, ws[i]? = some w := ⟨_, List.getElem?_eq_getElem hiW⟩
  obtain ⟨m, hm, he⟩ := csvColumn_eq pf spec hcell (by rw [hlen]; exact inv.miss i w hw) h
  generalize hst : csvStore ⟨m, w.data⟩ (csvKind pf spec (cellsOf c)) c h = p at he
  obtain ⟨w', h'⟩ := p
  obtain ⟨fr, e1, e2, e3, e4, e5, e6⟩ := csvStore_spec (w := ⟨m, w.data⟩) (inv.wf i w hw) _ c hst
  dsimp only at fr e1 e2 e3 e4 e5 e6
  refine ⟨ws.set i w', h', ?_, ?_⟩
  · unfold csvJob
    simp only [inv.num, ← hi, hw, he]
  · -- a worker of the new state is the new one or an old one
    have get : ∀ {j : Nat} {u : CsvWorker}, (ws.set i w')[j]? = some u → (j = i ∧ u = w') ∨ (j ≠ i ∧ ws[j]? = some u) := by
      intro j u hu
      rw [List.getElem?_set] at hu
      split at hu
      · rename_i hij
        cases hu
        exact Or.inl ⟨hij.symm, rfl⟩
      · rename_i hij
        exact Or.inr ⟨Ne.symm hij, hu⟩
    have other : ∀ {j : Nat} {u : CsvWorker}, j ≠ i → ws[j]? = some u → u.data.WF h' ∧ (∀ k x, rawCol h' u.data k x = rawCol h u.data k x) ∧
        (∀ x, rawStr h' u.data x = rawStr h u.data x) := by
      intro j u hj hu
      have wu := inv.wf j u hu
      have ht : u.data.tab ≠ w.data.tab := inv.sepTab j i u w hu hw hj
      have hs : ∀ a, u.data.strHdr = some a → w.data.strHdr ≠ some a := inv.sepStr j i u w hu hw hj
      have etab : h'.tab u.data.tab = h.tab u.data.tab := fr.tab _ wu.tab_lt ht
      refine ⟨⟨Nat.lt_of_lt_of_le wu.tab_lt fr.next_le, fun a ha => Nat.lt_of_lt_of_le (wu.shared_lt a ha) fr.next_le,
        fun a ha => Nat.lt_of_lt_of_le (wu.str_lt a ha) fr.next_le, by rw [etab]; exact wu.keys, ?_⟩, ?_, ?_⟩
      · intro q s hq
        rw [etab] at hq
        exact (wu.slices q s hq).frame fr (Or.inr id)
      · intro k x
        unfold rawCol
        rw [etab]
        cases hg : AMap.get (h.tab u.data.tab) (k, x) with
        | none => rfl
        | some s =>
          simp only [Option.map_some, Option.some.injEq]
          exact Heap.read_congr ((wu.slices _ _ hg).arr_eq_frame fr (Or.inr id))
      · intro x
        have e : hdrList h' u.data.strHdr = hdrList h u.data.strHdr := by
          unfold hdrList
          cases hst : u.data.strHdr with
          | none => rfl
          | some a => exact fr.hdr a (wu.str_lt a hst) (hs a hst)
        unfold rawStr
        rw [e]
    refine ⟨?_, by rw [List.length_set]; exact inv.num, ?_, ?_, ?_, ?_, ?_, ?_, ?_, ?_⟩
    · apply Heap.Frame.toExt
      refine (inv.ext.toFrame (A := Nope) (T := Nope) (H := Nope) (M := Nope)).trans fr (fun _ _ => id) ?_ ?_ (fun _ _ => id)
      · rintro a ha rfl
        have := inv.newTab i w hw
        exact absurd ha (by omega)
      · intro a ha hx
        have := inv.newStr i w hw a hx
        exact absurd ha (by omega)
    · intro j u hu
      rcases get hu with ⟨rfl, rfl⟩ | ⟨hj, hu⟩
      · rw [e1, ← hlen]; exact hm
      · exact inv.miss j u hu
    · intro j u hu
      rcases get hu with ⟨rfl, rfl⟩ | ⟨hj, hu⟩
      · exact e3
      · exact (other hj hu).1
    · intro j u hu
      rcases get hu with ⟨rfl, rfl⟩ | ⟨hj, hu⟩
      · rw [e2]; exact inv.newTab _ w hw
      · exact inv.newTab j u hu
    · intro j u hu a ha
      rcases get hu with ⟨rfl, rfl⟩ | ⟨hj, hu⟩
      · rcases e4 a ha with h1 | h1
        · exact inv.newStr _ w hw a h1
        · exact Nat.le_trans inv.ext.next_le h1
      · exact inv.newStr j u hu a ha
    · intro j j' u u' hu hu' hne
      rcases get hu with ⟨rfl, rfl⟩ | ⟨hj, hv⟩ <;> rcases get hu' with ⟨rfl, rfl⟩ | ⟨hj', hv'⟩
      · exact absurd rfl hne
      · rw [e2]; exact inv.sepTab _ j' w u' hw hv' hne
      · rw [e2]; exact inv.sepTab j _ u w hv hw hne
      · exact inv.sepTab j j' u u' hv hv' hne
    · intro j j' u u' hu hu' hne a ha hb
      rcases get hu with ⟨rfl, rfl⟩ | ⟨hj, hv⟩ <;> rcases get hu' with ⟨rfl, rfl⟩ | ⟨hj', hv'⟩
      · exact hne rfl
      · rcases e4 a ha with h1 | h1
        · exact inv.sepStr _ j' w u' hw hv' hne a h1 hb
        · have := (inv.wf j' u' hv').str_lt a hb; omega
      · rcases e4 a hb with h1 | h1
        · exact inv.sepStr j _ u w hv hw hne a ha h1
        · have := (inv.wf j u hv).str_lt a ha; omega
      · exact inv.sepStr j j' u u' hv hv' hne a ha hb
    · intro j u hu k x
      rcases get hu with ⟨rfl, rfl⟩ | ⟨hj, hu⟩
      · rw [e5, inv.col j w hw]
        by_cases hx : x = c
        · subst hx
          by_cases hk : k = (csvKind pf spec (cellsOf x)).1
          · rw [if_pos ⟨hk, rfl⟩, if_pos ⟨by simp, hi.symm, hk.symm⟩]
          · rw [if_neg (fun h => hk h.1), if_neg (fun h => hnew h.1), if_neg (fun h => hk h.2.2.symm)]
        · rw [if_neg (fun h => hx h.2)]
          simp [hx]
      · rw [(other hj hu).2.1, inv.col j u hu]
        by_cases hx : x = c
        · subst hx
          rw [if_neg (fun h => hnew h.1), if_neg (fun h => hj (by rw [hi]; exact h.2.1.symm))]
        · simp [hx]
    · intro j u hu x
      rcases get hu with ⟨rfl, rfl⟩ | ⟨hj, hu⟩
      · rw [e6, inv.str j w hw, Bool.eq_iff_iff]
        simp only [Bool.or_eq_true, decide_eq_true_eq, List.mem_append, List.mem_singleton]
        by_cases hx : x = c
        · subst hx; simp [hnew, hi]
        · simp [hx]
      · rw [(other hj hu).2.2, inv.str j u hu, Bool.eq_iff_iff]
        simp only [decide_eq_true_eq, List.mem_append, List.mem_singleton]
        by_cases hx : x = c
        · subst hx
          simp only [hnew, false_and, or_true, true_and, false_iff, not_and]
          intro h
          exact absurd (by rw [hi]; exact h.symm) hj
        · simp [hx]

theorem csvWorkers_inv [GoFloat F] (pf : GoStr → Option F) (spec : CSVReadingSpec) (cellsOf : GoStr → List GoStr)
    (n W : Nat) (who : GoStr → Nat) (h : Heap F) :
    CsvInv pf spec cellsOf n W who h [] (csvWorkers n W h).1 (csvWorkers n W h).2 := by
  induction W generalizing h with
  | zero =>
    constructor <;> first | exact Heap.Ext.refl h | simp [csvWorkers]
  | succ W ih =>
    have ih := ih (newRawData h).2
    have hn : (newRawData h).2.next = h.next + 1 := rfl
    have ht : (newRawData h).1.tab = h.next := rfl
    have hst : (newRawData h).1.strHdr = none := rfl
    have hsh : (newRawData h).1.shared = none := rfl
    have htab : (newRawData h).2.tab h.next = [] := by simp [newRawData, Heap.newTab]
    have hext : Heap.Ext h (newRawData h).2 := by
      simp only [newRawData]; exact Heap.newTab_ext h []
    have e : csvWorkers n (W + 1) h = (⟨List.replicate n false, (newRawData h).1⟩ ::
        (csvWorkers n W (newRawData h).2).1, (csvWorkers n W (newRawData h).2).2) := rfl
    rw [e]
    generalize csvWorkers n W (newRawData h).2 = q at ih ⊢
    obtain ⟨ws, h1⟩ := q
    generalize newRawData h = p at *
    obtain ⟨r, h2⟩ := p
    dsimp only at *
    have tab1 : h1.tab h.next = [] := by rw [ih.ext.tab _ (by omega), htab]
    have get : ∀ {j : Nat} {u : CsvWorker}, ((⟨List.replicate n false, r⟩ : CsvWorker) :: ws)[j]? = some u →
        (j = 0 ∧ u = ⟨List.replicate n false, r⟩) ∨ (∃ j', j = j' + 1 ∧ ws[j']? = some u) := by
      intro j u hu
      cases j with
      | zero => left; simpa using hu.symm
      | succ j => right; exact ⟨j, rfl, by simpa using hu⟩
    refine ⟨hext.trans ih.ext, by simp [ih.num], ?_, ?_, ?_, ?_, ?_, ?_, ?_, ?_⟩
    · intro j u hu
      rcases get hu with ⟨rfl, rfl⟩ | ⟨j, rfl, hu⟩
      · exact ⟨by simp, fun _ => rfl⟩
      · exact ih.miss j u hu
    · intro j u hu
      rcases get hu with ⟨rfl, rfl⟩ | ⟨j, rfl, hu⟩
      · have := ih.ext.next_le
        refine ⟨by simp only [ht]; omega, by simp [hsh], by simp [hst], ?_, ?_⟩
        · simp [ht, tab1, AMap.keys]
        · simp [ht, tab1, AMap.get]
      · exact ih.wf j u hu
    · intro j u hu
      rcases get hu with ⟨rfl, rfl⟩ | ⟨j, rfl, hu⟩
      · simp [ht]
      · have := ih.newTab j u hu; omega
    · intro j u hu a ha
      rcases get hu with ⟨rfl, rfl⟩ | ⟨j, rfl, hu⟩
      · simp [hst] at ha
      · have := ih.newStr j u hu a ha; omega
    · intro j j' u u' hu hu' hne
      rcases get hu with ⟨rfl, rfl⟩ | ⟨j, rfl, hu⟩ <;> rcases get hu' with ⟨rfl, rfl⟩ | ⟨j', rfl, hu'⟩
      · exact absurd rfl hne
      · have := ih.newTab j' u' hu'; simp only [ht]; omega
      · have := ih.newTab j u hu; simp only [ht]; omega
      · exact ih.sepTab j j' u u' hu hu' (by omega)
    · intro j j' u u' hu hu' hne a ha hb
      rcases get hu with ⟨rfl, rfl⟩ | ⟨j, rfl, hu⟩ <;> rcases get hu' with ⟨rfl, rfl⟩ | ⟨j', rfl, hu'⟩
      · exact absurd rfl hne
      · simp [hst] at ha
      · simp [hst] at hb
      · exact ih.sepStr j j' u u' hu hu' (by omega) a ha hb
    · intro j u hu k x
      rcases get hu with ⟨rfl, rfl⟩ | ⟨j, rfl, hu⟩
      · simp [rawCol, ht, tab1, AMap.get]
      · rw [ih.col j u hu]; simp
    · intro j u hu x
      rcases get hu with ⟨rfl, rfl⟩ | ⟨j, rfl, hu⟩
      · simp [rawStr, hst, hdrList]
      · rw [ih.str j u hu]; simp

/-- Parsing all the columns, one after the other. -/
theorem csv_loop [GoFloat F] {pf : GoStr → Option F} {spec : CSVReadingSpec} {records : List (List GoStr)}
    {header : List GoStr} {cellsOf : GoStr → List GoStr} {W : Nat} {who : GoStr → Nat} {h0 : Heap F} (hW : 0 < W)
    (order : List GoStr) : ∀ {h : Heap F} {done : List GoStr} {ws : List CsvWorker},
    CsvInv pf spec cellsOf records.length W who h0 done ws h → (done ++ order).Nodup →
    (∀ c ∈ order, colCells records (indexOfString c header 0) = .ok (cellsOf c)) →
    (∀ c ∈ order, (cellsOf c).length = records.length) →
    ∃ ws' h', order.foldlM (fun s c => csvJob pf spec records header who c s) (ws, h) = .ok (ws', h') ∧
      CsvInv pf spec cellsOf records.length W who h0 (done ++ order) ws' h' := by
  induction order with
  | nil => intro h done ws inv _ _ _; exact ⟨ws, h, rfl, by simpa using inv⟩
  | cons c cs ih =>
    intro h done ws inv nd hc hl
    have hnew : c ∉ done := by
      intro hx
      rw [List.nodup_append] at nd
      exact nd.2.2 c hx c (by simp) rfl
    obtain ⟨ws1, h1, e1, inv1⟩ := inv.step hW hnew (hc c (by simp)) (hl c (by simp))
    obtain ⟨ws2, h2, e2, inv2⟩ := ih inv1 (by simpa using nd) (fun x hx => hc x (by simp [hx])) (fun x hx => hl x (by simp [hx]))
    refine ⟨ws2, h2, ?_, by simpa using inv2⟩
    rw [List.foldlM_cons, e1]
    exact e2

theorem findSome?_unique {α β : Type} {l : List α} {f : α → Option β} {v : β} (h1 : ∃ a ∈ l, f a = some v)
    (h2 : ∀ a ∈ l, f a = some v ∨ f a = none) : l.findSome? f = some v := by
  cases hf : l.findSome? f with
  | none =>
    obtain ⟨a, ha, he⟩ := h1
    rw [List.findSome?_eq_none_iff] at hf
    rw [hf a ha] at he; cases he
  | some w =>
    obtain ⟨a, ha, he⟩ := List.exists_of_findSome?_eq_some hf
    rcases h2 a ha with h | h
    · rw [h] at he; exact he.symm
    · rw [h] at he; cases he

theorem nodup_sinsertAll {s : List GoStr} (hs : s.Nodup) (cs : List GoStr) : (sinsertAll s cs).Nodup := by
  unfold sinsertAll
  induction cs generalizing s with
  | nil => exact hs
  | cons c cs ih =>
    apply ih
    unfold sinsert
    split
    · exact hs
    · rename_i hc
      rw [List.nodup_append]
      refine ⟨hs, by simp, ?_⟩
      intro a ha b hb e
      simp at hb
      subst hb; subst e
      exact hc ha

theorem nodup_csvColumns (header exclude : List GoStr) : (csvColumns header exclude).Nodup :=
  (nodup_sinsertAll List.nodup_nil header).filter _

theorem mem_csvColumns {header exclude : List GoStr} {c : GoStr} :
    c ∈ csvColumns header exclude ↔ c ∈ header ∧ c ∉ exclude := by
  simp [csvColumns, mem_sremove, mem_sinsertAll]

theorem csvQueueWorkers_pos {keys : List GoStr} {m : Int} (hm : 0 < m) : 0 < (queueWorkers keys m).toNat := by
  unfold queueWorkers
  split
  · decide
  · split <;> omega

theorem clampCPU_pos {n : Nat} (hn : 0 < n) (m : Int) : 0 < clampCPU n m := by
  unfold clampCPU
  split <;> omega

theorem readTable_ok {spec : CSVReadingSpec} {inp : CsvInput} {header : List GoStr} {records : List (List GoStr)}
    (hh : Holds spec inp header records) : readTable spec inp = some (header, records) := by
  unfold readTable
  rcases hh.text with ⟨h0, rfl⟩ | ⟨h0, rfl, rfl⟩
  · rw [if_pos (by simp [h0])]
    simp only [readAll]
    rw [if_pos ⟨trivial, by simpa using hh.fields⟩]
  · rw [if_neg (by simpa using h0)]
    unfold readAll
    cases records with
    | nil => simp
    | cons r rs =>
      have ha : rs.all (fun x => decide (x.length = r.length)) = true := by
        simp only [List.all_eq_true, decide_eq_true_eq]
        intro x hx
        rw [hh.fields x (by simp [hx]), hh.fields r (by simp)]
      simp [ha]

/-- The result of `FromCSV` on a table. -/
theorem fromCSV_spec [GoFloat F] (pf : GoStr → Option F) {jobs : List GoStr → List GoStr} (hj : ∀ l, (jobs l).Perm l)
    (who : GoStr → Nat) {inp : CsvInput} {spec : CSVReadingSpec} {header : List GoStr} {records : List (List GoStr)}
    (hh : Holds spec inp header records) (hemp : [] ∈ header → [] ∈ spec.exclude) (h : Heap F) :
    ∃ r h', fromCSV pf jobs who inp spec h = .ok (some r, h') ∧ r.WF h' ∧ Heap.Ext h h' ∧
      r.enc = spec.encoding ∧ r.maxCPU = clampCPU h'.rt.numCPU spec.maxCPU ∧
      (∀ k c, rawCol h' r k c = if c ∈ header ∧ c ∉ spec.exclude ∧ (csvKind pf spec (cellsUnder header records c)).1 = k
        then some (csvKind pf spec (cellsUnder header records c)).2 else none) ∧
      (∀ c, rawStr h' r c = decide (c ∈ header ∧ c ∉ spec.exclude ∧
        (csvKind pf spec (cellsUnder header records c)).1 = .obj)) := by
  unfold fromCSV
  rw [readTable_ok hh]
  simp only
  have hcpu : 0 < clampCPU h.rt.numCPU spec.maxCPU := clampCPU_pos h.rt.numCPU_pos _
  obtain ⟨cols, hcols⟩ : ∃ cols, cols = csvColumns header spec.exclude := ⟨_, rfl⟩
  obtain ⟨W, hWdef⟩ : ∃ W, W = (queueWorkers cols (clampCPU h.rt.numCPU spec.maxCPU)).toNat := ⟨_, rfl⟩
  have hW : 0 < W := by rw [hWdef]; exact csvQueueWorkers_pos hcpu
  rw [← hcols, ← hWdef]
  have inv0 := csvWorkers_inv pf spec (cellsUnder header records) records.length W who h
  generalize csvWorkers records.length W h = p at inv0 ⊢
  obtain ⟨ws0, h1⟩ := p
  dsimp only at inv0 ⊢
  have nd : (jobs cols).Nodup := by rw [(hj cols).nodup_iff, hcols]; exact nodup_csvColumns _ _
  have hcell : ∀ c ∈ jobs cols, colCells records (indexOfString c header 0) = .ok (cellsUnder header records c) := by
    intro c hc
    have hc : c ∈ header := (mem_csvColumns.1 (by rw [← hcols]; exact (hj cols).mem_iff.1 hc)).1
    rw [indexOfString_eq, if_pos hc]
    simp only [Nat.zero_add]
    exact colCells_ok (fun r hr => by rw [hh.fields r hr]; exact List.idxOf_lt_length_of_mem hc)
  obtain ⟨ws, h2, e2, inv⟩ := csv_loop hW (jobs cols) inv0 (by simpa using nd) hcell (fun c _ => by simp [cellsUnder])
  have hq : runQueue cols (jobs cols) (clampCPU h.rt.numCPU spec.maxCPU) (csvJob pf spec records header who) (ws0, h1) =
      .ok (ws, h2) := by
    unfold runQueue
    split
    · rename_i hk
      have : jobs cols = [] := (hk ▸ hj cols : (jobs cols).Perm []).eq_nil
      rw [this] at e2
      exact e2
    · rw [if_neg]
      · exact e2
      · rintro (hx | hx)
        · omega
        · rw [hcols, mem_csvColumns] at hx
          exact hx.2 (hemp hx.1)
  rw [hq]
  dsimp only
  simp only [List.nil_append] at inv
  have hwf : ∀ d ∈ ws.map (·.data), d.WF h2 := by
    intro d hd
    obtain ⟨w, hw, rfl⟩ := List.mem_map.1 hd
    obtain ⟨i, hi⟩ := List.getElem?_of_mem hw
    exact inv.wf i w hi
  obtain ⟨m1, _, m3, _, m5, m6⟩ := C56_columns hwf
  generalize mergeRawDataColumns (ws.map (·.data)) h2 = q at m1 m3 m5 m6 ⊢
  obtain ⟨r, h3⟩ := q
  dsimp only at m1 m3 m5 m6 ⊢
  have hmem : ∀ c, c ∈ jobs cols ↔ c ∈ header ∧ c ∉ spec.exclude := by
    intro c; rw [(hj cols).mem_iff, hcols, mem_csvColumns]
  refine ⟨({ r with enc := spec.encoding } : Raw).setMaxCPU h3 spec.maxCPU, h3, rfl, ⟨m6.tab_lt, m6.shared_lt, m6.str_lt, m6.keys, m6.slices⟩, inv.ext.trans m5, rfl, rfl, ?_, ?_⟩
  · intro k c
    show rawCol h3 r k c = _
    rw [m1 k c]
    split
    · rename_i hc
      apply findSome?_unique
      · have hi : who c % W < ws.length := by rw [inv.num]; exact Nat.mod_lt _ hW
        refine ⟨ws[who c % W].data, List.mem_reverse.2 (List.mem_map.2 ⟨_, List.getElem_mem hi, rfl⟩), ?_⟩
        rw [inv.col _ _ (List.getElem?_eq_getElem hi), if_pos ⟨(hmem c).2 ⟨hc.1, hc.2.1⟩, rfl, hc.2.2⟩]
      · intro d hd
        rw [List.mem_reverse] at hd
        obtain ⟨w, hw, rfl⟩ := List.mem_map.1 hd
        obtain ⟨i, hi⟩ := List.getElem?_of_mem hw
        rw [inv.col i w hi]
        split
        · exact Or.inl rfl
        · exact Or.inr rfl
    · rename_i hc
      rw [List.findSome?_eq_none_iff]
      intro d hd
      rw [List.mem_reverse] at hd
      obtain ⟨w, hw, rfl⟩ := List.mem_map.1 hd
      obtain ⟨i, hi⟩ := List.getElem?_of_mem hw
      rw [inv.col i w hi, if_neg]
      rintro ⟨h1, _, h3⟩
      exact hc ⟨((hmem c).1 h1).1, ((hmem c).1 h1).2, h3⟩
  · intro c
    show rawStr h3 r c = _
    rw [m3 c, Bool.eq_iff_iff]
    simp only [List.any_eq_true, decide_eq_true_eq]
    constructor
    · rintro ⟨d, hd, hs⟩
      obtain ⟨w, hw, rfl⟩ := List.mem_map.1 hd
      obtain ⟨i, hi⟩ := List.getElem?_of_mem hw
      rw [inv.str i w hi] at hs
      simp only [decide_eq_true_eq] at hs
      exact ⟨((hmem c).1 hs.1).1, ((hmem c).1 hs.1).2, hs.2.2⟩
    · rintro ⟨h1, h2', h3'⟩
      have hi : who c % W < ws.length := by rw [inv.num]; exact Nat.mod_lt _ hW
      refine ⟨ws[who c % W].data, List.mem_map.2 ⟨_, List.getElem_mem hi, rfl⟩, ?_⟩
      rw [inv.str _ _ (List.getElem?_eq_getElem hi)]
      simp only [decide_eq_true_eq]
      exact ⟨(hmem c).2 ⟨h1, h2'⟩, trivial, h3'⟩

end Verif
