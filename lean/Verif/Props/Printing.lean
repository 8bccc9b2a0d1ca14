import Verif.Proofs.Printing
import Verif.Props.Demo

/-! C71–C73: what `PrintHead`, `PrintRecords` and `PrintSummary` print. -/

namespace Verif
open scoped Demo
variable {F : Type}

theorem printCount_eq (n : Int) (rows : Nat) : printCount n rows = headCount n rows := by
  unfold printCount headCount
  by_cases h : n < 0 ∨ (rows : Int) < n
  · rw [if_pos h, if_neg (by omega)]
  · rw [if_neg h, if_pos (by omega)]

theorem headCount_le (n : Int) (rows : Nat) : headCount n rows ≤ rows := by
  unfold headCount; split <;> omega

theorem floatFormat_eq (f : GoStr) : floatFormat f = headFormat f := by
  unfold floatFormat headFormat
  cases f with
  | nil => rfl
  | cons x xs => simp

theorem listing_names {ord : List GoStr → List GoStr} (ho : ∀ l, (ord l).Perm l) {df : DF} {h : Heap F} (wf : df.WF h) (k : Kind) :
    IsListing (fun c => ((abs h df).col k c).isSome) (sortStrs (ord (namesOf (h.tab df.tab) k))) := by
  refine (sortStrs_listing ((ho _).nodup_iff.2 (nodup_namesOf_kind wf.keys k))).congr (fun c => ?_)
  rw [(ho _).mem_iff, mem_namesOf_int]

/-- C71. `PrintHead(n, format)` on a consistent dataframe, for every iteration order of the maps: it prints a line per
typed column with its name and its first `n` visible values (all of them when `n` is negative or too large), unless one of
these values is not a string although its column is marked as strings, in which case it panics. (`Shown` says how a
value is to be printed. The heap is not touched.) -/
theorem C71_printHead [GoFloat F] (fm : Fmt F) (ord : List GoStr → List GoStr) (ho : ∀ l, (ord l).Perm l) (df : DF) (h : Heap F)
    (wf : df.WF h) (ty : (abs h df).TypeOk) (n : Int) (format : GoStr) :
    (∀ out, df.printHead fm ord n format h = .ok out →
      (abs h df).HeadText fm (headFormat format) (headCount n (abs h df).nRows) out) ∧
    ((∃ out, df.printHead fm ord n format h = .ok out) ↔ ¬ (abs h df).Unprintable (headCount n (abs h df).nRows)) ∧
    (∀ e, df.printHead fm ord n format h = .error e → e = .panic) := by
  obtain ⟨m, hm⟩ : ∃ m, m = headCount n (abs h df).nRows := ⟨_, rfl⟩
  have hmr : m ≤ df.rows.length := by rw [hm]; exact headCount_le _ _
  have hcols : (let names (k : Kind) := (sortStrs (ord (namesOf (h.tab df.tab) k))).map fun c => (k, c)
      names .float ++ names .int ++ names .bool ++ names .obj) =
      [Kind.float, .int, .bool, .obj].flatMap fun k => (sortStrs (ord (namesOf (h.tab df.tab) k))).map fun c => (k, c) := by
    simp
  have hrun : df.printHead fm ord n format h = printCols fm (headFormat format) df h (df.rows.take m)
      ([Kind.float, .int, .bool, .obj].flatMap fun k => (sortStrs (ord (namesOf (h.tab df.tab) k))).map fun c => (k, c)) := by
    rw [← hcols, hm, ← floatFormat_eq]
    unfold DF.printHead
    rw [printCount_eq]
    rfl
  have hmem : ∀ k c, (k, c) ∈ ([Kind.float, .int, .bool, .obj].flatMap fun k =>
      (sortStrs (ord (namesOf (h.tab df.tab) k))).map fun c => (k, c)) ↔ ((abs h df).col k c).isSome := by
    intro k c
    rw [List.mem_flatMap]
    constructor
    · rintro ⟨k', _, h2⟩
      obtain ⟨c', h3, h4⟩ := List.mem_map.1 h2
      cases h4
      exact ((listing_names ho wf k).2 c).1 h3
    · intro hx
      exact ⟨k, by cases k <;> simp, List.mem_map.2 ⟨c, ((listing_names ho wf k).2 c).2 hx, rfl⟩⟩
  have hs := printCols_spec fm (headFormat format) wf ty hmr _ (fun kc hkc => (hmem kc.1 kc.2).1 hkc)
  rw [hrun, ← hm]
  have hun : (abs h df).Unprintable m ↔ ∃ kc ∈ ([Kind.float, .int, .bool, .obj].flatMap fun k =>
      (sortStrs (ord (namesOf (h.tab df.tab) k))).map fun c => (k, c)), ∃ i, i < m ∧ (abs h df).Bad kc.1 kc.2 i := by
    constructor
    · rintro ⟨c, i, v, h1, h2, h3, h4, h5, h6⟩
      refine ⟨(.obj, c), (hmem .obj c).2 ?_, i, h1, v, h2, rfl, h3, h4, h5, h6⟩
      cases hcol : (abs h df).col .obj c with
      | none => simp [ADF.cell, hcol] at h2
      | some l => rfl
    · rintro ⟨⟨k, c⟩, _, i, h1, v, h2, h3, h4⟩
      simp only at h2 h3 h4
      subst h3
      exact ⟨c, i, v, h1, h2, h4⟩
  rw [hun]
  rcases hs with ⟨⟨lines, h1, h2⟩, h3⟩ | ⟨h1, h2⟩
  · rw [h1]
    refine ⟨fun out e => ?_, ?_, fun e he => by cases he⟩
    · cases e
      exact ⟨_, lines, fun k => listing_names ho wf k, h2, rfl⟩
    · refine ⟨fun _ => ?_, fun _ => ⟨_, rfl⟩⟩
      rintro ⟨kc, a, i, b, c⟩
      exact h3 kc a i b c
  · rw [h1]
    refine ⟨fun out e => (by cases e), ⟨fun ⟨out, e⟩ => (by cases e), fun hn => absurd h2 hn⟩, fun e he => ?_⟩
    cases he; rfl

/-- C72, for any names: names and shorthands go through `fmt.Printf`. -/
theorem C72_printRecords_format [GoFloat F] (fm : Fmt F) (ord : List GoStr → List GoStr) (ho : ∀ l, (ord l).Perm l) (df : DF)
    (h : Heap F) (wf : df.WF h) (ty : (abs h df).TypeOk) (n : Int) (format : GoStr) (short : AMap GoStr GoStr) :
    (∀ out, df.printRecords fm ord n format short h = .ok out →
      (abs h df).RecordText fm (headFormat format) (fun c => fm.plain ((AMap.get short c).getD c)) df.rows
        (headCount n (abs h df).nRows) out) ∧
    ((∃ out, df.printRecords fm ord n format short h = .ok out) ↔
      ¬ (abs h df).UnprintableRecord (headCount n (abs h df).nRows)) ∧
    (∀ e, df.printRecords fm ord n format short h = .error e → e = .panic) := by
  obtain ⟨m, hm⟩ : ∃ m, m = headCount n (abs h df).nRows := ⟨_, rfl⟩
  have hmr : m ≤ df.rows.length := by rw [hm]; exact headCount_le _ _
  have hl : IsListing (fun c => ∃ k, ((abs h df).col k c).isSome) (sortStrs (ord (allNames (h.tab df.tab)))) := by
    refine (sortStrs_listing ((ho _).nodup_iff.2 (nodup_allNames _))).congr (fun c => ?_)
    rw [(ho _).mem_iff, mem_allNames]
  have hrun : df.printRecords fm ord n format short h =
      recordRows fm (headFormat format) short df h m (sortStrs (ord (allNames (h.tab df.tab)))) df.rows 0 := by
    rw [hm, ← floatFormat_eq]
    unfold DF.printRecords
    rw [printCount_eq]
    rfl
  have hs := recordRows_spec fm (headFormat format) short wf ty (fun c hc => (hl.2 c).1 hc) hmr df.rows 0 (by simp)
  rw [hrun, ← hm]
  have hun : (abs h df).UnprintableRecord m ↔ ∃ c ∈ sortStrs (ord (allNames (h.tab df.tab))), ∃ x, 0 ≤ x ∧ x < m ∧ (abs h df).BadRecord c x := by
    constructor
    · rintro ⟨c, i, v, h1, h2, h3, h4, h5, h6⟩
      exact ⟨c, (hl.2 c).2 ⟨_, h2.1⟩, i, Nat.zero_le _, h1, h2, v, h3, rfl, h4, h5, h6⟩
    · rintro ⟨c, _, i, _, h1, h2, v, h3, _, h4⟩
      exact ⟨c, i, v, h1, h2, h3, h4⟩
  rw [hun]
  rcases hs with ⟨⟨lines, h0, h1, h2⟩, h3⟩ | ⟨h1, h2⟩
  · rw [h1]
    refine ⟨fun out e => ?_, ?_, fun e he => by cases he⟩
    · cases e
      refine ⟨_, lines, hl, by omega, fun i j line e1 e2 => ?_, rfl⟩
      have hi : i < m := by
        have := (List.getElem?_eq_some_iff.1 e2).1
        omega
      have := h2 i j line (by rw [Nat.zero_add]; exact e1) e2
      rw [Nat.zero_add] at this
      obtain ⟨ts, t1, t2⟩ := this
      refine ⟨ts, t1, ?_⟩
      rw [t2, intWidth_spec hi]
      rfl
    · refine ⟨fun _ => ?_, fun _ => ⟨_, rfl⟩⟩
      rintro ⟨c, a, i, _, b, d⟩
      exact h3 c a i (Nat.zero_le _) b d
  · rw [h1]
    refine ⟨fun out e => (by cases e), ⟨fun ⟨out, e⟩ => (by cases e), fun hn => absurd h2 hn⟩, fun e he => ?_⟩
    cases he; rfl

theorem RecordLine.congr {a : ADF (Val F)} {fm : Fmt F} {ff : GoStr} {name name' : GoStr → GoStr} {cols : List GoStr} {w i j : Nat}
    {line : GoStr} (h : a.RecordLine fm ff name cols w i j line) (e : ∀ c ∈ cols, name c = name' c) :
    a.RecordLine fm ff name' cols w i j line := by
  obtain ⟨ts, t1, t2⟩ := h
  refine ⟨ts, t1, ?_⟩
  rw [t2]
  congr 6
  clear t2
  congr 1
  induction t1 with
  | nil => rfl
  | @cons c t cs ts _ _ ih =>
    simp only [List.zipWith_cons_cons, List.flatten_cons]
    rw [e c (List.mem_cons_self ..), ih (fun c hc => e c (List.mem_cons_of_mem _ hc))]

/-- C72 (partial: names and shorthands without the character `%`). `PrintRecords(n, format, shorthands)` prints a line per
row: its position, the position of the backing row, and every column, in alphabetical order, under its shorthand or else
its name, with the row's value. -/
theorem C72_printRecords_partial [GoFloat F] (fm : Fmt F) (ord : List GoStr → List GoStr) (ho : ∀ l, (ord l).Perm l) (df : DF)
    (h : Heap F) (wf : df.WF h) (ty : (abs h df).TypeOk) (n : Int) (format : GoStr) (short : AMap GoStr GoStr)
    (hp : ∀ k c, ((abs h df).col k c).isSome → (37 : UInt8) ∉ (AMap.get short c).getD c) (out : GoStr)
    (he : df.printRecords fm ord n format short h = .ok out) :
    (abs h df).RecordText fm (headFormat format) (fun c => (AMap.get short c).getD c) df.rows
      (headCount n (abs h df).nRows) out := by
  obtain ⟨cols, lines, h1, h2, h3, h4⟩ := (C72_printRecords_format fm ord ho df h wf ty n format short).1 out he
  refine ⟨cols, lines, h1, h2, fun i j line e1 e2 => ?_, h4⟩
  refine RecordLine.congr (h3 i j line e1 e2) (fun c hc => ?_)
  obtain ⟨k, hk⟩ := (h1.2 c).1 hc
  exact fm.plain_text _ (hp k c hk)

/-- The listing of a set of names. -/
theorem listing_set {ord : List GoStr → List GoStr} (ho : ∀ l, (ord l).Perm l) (l : List GoStr) (hn : l.Nodup) :
    IsListing (fun c => c ∈ l) (sortStrs (ord l)) :=
  (sortStrs_listing ((ho _).nodup_iff.2 hn)).congr (fun c => (ho _).mem_iff)

theorem listing_nil {P : GoStr → Prop} {l : List GoStr} (h : IsListing P l) : l = [] ↔ ∀ c, ¬ P c := by
  constructor
  · rintro rfl c hc
    exact absurd ((h.2 c).2 hc) (by simp)
  · intro hn
    cases l with
    | nil => rfl
    | cons x xs => exact absurd ((h.2 x).1 (List.mem_cons_self ..)) (hn x)

/-- C73. `PrintSummary`, for every iteration order of the maps: a line per kind of column, with the names in alphabetical
order (no line for a kind without column), object columns marked as strings being listed with the strings; then whether
columns or maps are shared, the number of rows, the number of CPUs, and whether rows are selected. -/
theorem C73_printSummary (ord : List GoStr → List GoStr) (ho : ∀ l, (ord l).Perm l) (df : DF) (h : Heap F) (wf : df.WF h)
    (uid : Nat) : ∃ (f i b o s v : List GoStr) (objects : GoStr),
    IsListing (fun c => ((abs h df).col .float c).isSome) f ∧ IsListing (fun c => ((abs h df).col .int c).isSome) i ∧
    IsListing (fun c => ((abs h df).col .bool c).isSome) b ∧
    IsListing (fun c => ((abs h df).col .obj c).isSome ∧ (abs h df).isStr c = false) o ∧
    IsListing (fun c => (abs h df).isStr c = true) s ∧ IsListing (fun c => c ∈ hdrList h df.shared) v ∧
    ((∃ c, ((abs h df).col .obj c).isSome) → objects = b!"object  " ++ (nameList o ++ b!"\n")) ∧
    ((∀ c, ((abs h df).col .obj c).isSome = false) → objects = []) ∧
    df.printSummary ord uid h =
      summaryLine b!"float   " f ++ (summaryLine b!"int     " i ++ (summaryLine b!"bool    " b ++
      (objects ++
      (summaryLine b!"string  " s ++ (summaryLine b!"viewed  " v ++
      ((if df.sharedMaps then b!"shared  YES (structure ID: " ++ (natDec uid ++ b!")\n") else []) ++
      (b!"rows    " ++ (natDec (abs h df).nRows ++ (b!"\nmax CPU " ++ (fmtInt df.maxCPU ++ (b!"\n" ++
      (if df.indexViewed then b!"row-wise view: " ++ (natDec (abs h df).nRows ++ (b!" / " ++ (natDec df.mask.len ++ b!" rows\n")))
        else [])))))))))))) := by
  have hk := fun k => nodup_namesOf_kind wf.keys k
  have hs : ∀ l : List GoStr, (sinsertAll [] l).Nodup := fun l => nodup_sinsertAll .nil l
  have hm : ∀ k c, c ∈ namesOf (h.tab df.tab) k ↔ ((abs h df).col k c).isSome = true := fun k c => mem_namesOf_int
  have hlen : ∀ l : List GoStr, (sortStrs (ord l) = []) ↔ ¬ l.length > 0 := by
    intro l
    rw [← List.length_eq_zero_iff, ((sortStrs_perm _).trans (ho l)).length_eq]
    omega
  have hline : ∀ (label : GoStr) (l : List GoStr), (if l.length > 0 then label ++ printList (sortStrs (ord l)) ++ b!"\n" else []) =
      summaryLine label (sortStrs (ord l)) := by
    intro label l
    unfold summaryLine
    by_cases hl : l.length > 0
    · rw [if_pos hl, if_neg (fun e => (hlen l).1 e hl), printList_eq, List.append_assoc]
    · rw [if_neg hl, if_pos ((hlen l).2 hl)]
  have hno : (∀ c, ((abs h df).col .obj c).isSome = false) ↔ namesOf (h.tab df.tab) .obj = [] := by
    rw [List.eq_nil_iff_forall_not_mem]
    exact forall_congr' (fun c => by rw [hm]; simp)
  refine ⟨_, _, _, _, _, _, (if (namesOf (h.tab df.tab) .obj).length > 0 then b!"object  " ++
        printList (sortStrs (ord (sremove (namesOf (h.tab df.tab) .obj) (sinsertAll [] (hdrList h df.strHdr))))) ++ b!"\n" else []),
    listing_names ho wf .float, listing_names ho wf .int, listing_names ho wf .bool,
    (listing_set ho (sremove (namesOf (h.tab df.tab) .obj) (sinsertAll [] (hdrList h df.strHdr))) ((hk .obj).filter _)).congr (fun c => ?_),
    (listing_set ho (sinsertAll [] (hdrList h df.strHdr)) (hs _)).congr (fun c => ?_),
    (listing_set ho (sinsertAll [] (hdrList h df.shared)) (hs _)).congr (fun c => ?_), ?_, ?_, ?_⟩
  · simp only [sremove, List.mem_filter, decide_eq_true_eq, hm, mem_sinsertAll, List.not_mem_nil, false_or, abs]
    simp
  · simp [mem_sinsertAll, abs]
  · simp [mem_sinsertAll]
  · rintro ⟨c, hc⟩
    rw [if_pos (List.length_pos_iff.2 (fun e => by rw [hno.2 e c] at hc; cases hc)), printList_eq, List.append_assoc]
  · intro hc
    rw [if_neg (by simp [hno.1 hc])]
  · simp only [← hline]
    simp only [DF.printSummary, Raw.actualMaxCPU, List.append_assoc, List.cons_append, List.nil_append]
    rfl

/-- A column named `%%`. -/
def Demo.pctRes : Except Abort (DF × Heap Int) :=
  (build [.add .bool b!"%%" [.bool true]] Demo.heap0).1.toDataFrame (build [.add .bool b!"%%" [.bool true]] Demo.heap0).2
def Demo.pctdf : DF := match Demo.pctRes with | .ok p => p.1 | .error _ => Demo.df
def Demo.pcth : Heap Int := match Demo.pctRes with | .ok p => p.2 | .error _ => Demo.heap0
theorem Demo.pctdf_wf : Demo.pctdf.WF Demo.pcth := DF.wf_of_check 1 (by decide +kernel)

/-- C72 refuted: a column named `%%` is shown as `%`. -/
theorem C72_percent_refuted (fm : Fmt Int) : ∃ (df : DF) (h : Heap Int), df.WF h ∧
    (abs h df).col .bool b!"%%" = some [some (.bool true)] ∧
    df.printRecords fm id (-1) [] [] h = .ok b!"[0:0] %: 1\n" := by
  refine ⟨Demo.pctdf, Demo.pcth, Demo.pctdf_wf, ?_, ?_⟩
  · decide +kernel
  · have : Demo.pctdf.printRecords fm id (-1) [] [] Demo.pcth = .ok (b!"[0:0] " ++ (fm.plain b!"%%" ++ b!": 1\n")) :=
      (show _ = _ from Eq.trans (b := recordRows fm (floatFormat []) [] Demo.pctdf Demo.pcth 1 [b!"%%"] [0] 0) (by
        unfold DF.printRecords
        have h1 : Demo.pctdf.rows = [0] := by decide +kernel
        have h2 : sortStrs (id (allNames (Demo.pcth.tab Demo.pctdf.tab))) = [b!"%%"] := by decide +kernel
        rw [h1, h2]; rfl) (by
        have h1 : recordKind (Demo.pcth.tab Demo.pctdf.tab) b!"%%" = some .bool := by decide +kernel
        have h2 : Demo.pcth.cell (tabCol (Demo.pcth.tab Demo.pctdf.tab) (.bool, b!"%%")) 0 = some (.bool true) := by decide +kernel
        have h3 : padInt (intWidth (((1 : Nat) : Int) - 1)) 0 = [48] := by decide +kernel
        have h4 : natDec 0 = [48] := by decide +kernel
        simp only [recordRows, recordCols, recordVal, h1, h2, h3, h4]
        simp [printCell, printBool, displayName, AMap.get]))
    rw [this, fm.plain_percent]
    rfl

/-- Formatting for the concrete cases below: floats (here ints) in decimal. -/
def Demo.fmt : Fmt Int where
  float _ x := b!" " ++ fmtInt x
  plain s := if s = b!"%%" then b!"%" else s
  addr _ _ := b!"0xc0"
  plain_text s hs := by
    by_cases e : s = b!"%%"
    · subst e; exact absurd (by decide) hs
    · rw [if_neg e]
  plain_percent := rfl

/-- Whether the outcome is the given text. -/
def printed (r : Except Abort GoStr) (t : GoStr) : Bool := match r with | .ok s => decide (s = t) | .error _ => false

-- the demo dataframe: every kind of column, a missing string
theorem Demo.printHead_example : printed (Demo.df.printHead Demo.fmt id 2 [] Demo.h)
    b!"x: 5 3\na: 10 20\nb: 1 0\ns: 'u' 'v'\n" = true := by decide +kernel
theorem Demo.printHead_all : printed (Demo.df.printHead Demo.fmt List.reverse (-1) [] Demo.h)
    b!"x: 5 3 9 1\na: 10 20 30 40\nb: 1 0 1 0\ns: 'u' 'v' 'u' <missing>\n" = true := by decide +kernel
theorem Demo.printRecords_example : printed (Demo.df.printRecords Demo.fmt id 2 [] [(b!"a", b!"col")] Demo.h)
    b!"[0:0] col: 10 b: 1 s: 'u' x: 5\n[1:1] col: 20 b: 0 s: 'v' x: 3\n" = true := by decide +kernel
theorem Demo.printSummary_example : Demo.df.printSummary id 7 Demo.h =
    b!"float   [x]\nint     [a]\nbool    [b]\nobject  []\nstring  [s]\nrows    4\nmax CPU 4\n" := by decide +kernel
theorem Demo.df_typeOk : (abs Demo.h Demo.df).TypeOk := by
  have hx : ∀ k c, ((abs Demo.h Demo.df).col k c).isSome → (k, c) ∈ AMap.keys (Demo.h.tab Demo.df.tab) := by
    intro k c hk
    have : ((abs Demo.h Demo.df).col k c).isSome = (AMap.get (Demo.h.tab Demo.df.tab) (k, c)).isSome := by simp [abs]
    rw [this] at hk
    exact (AMap.get_isSome_iff _ _).1 hk
  have hall : ∀ kc ∈ AMap.keys (Demo.h.tab Demo.df.tab), ∀ v ∈ ((abs Demo.h Demo.df).col kc.1 kc.2).getD [], ∀ w ∈ v,
      (kc.1 = .bool → w = .bool true ∨ w = .bool false) ∧ (kc.1 = .int → w = .int (asInt w)) ∧ (kc.1 = .float → w = .float (asFloat w)) := by
    decide +kernel
  have key : ∀ k c r w, (abs Demo.h Demo.df).cell k c r = some w →
      (k = .bool → w = .bool true ∨ w = .bool false) ∧ (k = .int → w = .int (asInt w)) ∧ (k = .float → w = .float (asFloat w)) := by
    intro k c r w hw
    unfold ADF.cell at hw
    cases hcol : (abs Demo.h Demo.df).col k c with
    | none => simp [hcol] at hw
    | some l =>
      rw [hcol] at hw
      simp only [Option.bind_some, Option.join_eq_some_iff] at hw
      exact hall (k, c) (hx k c (by rw [hcol]; rfl)) (some w) (by
        show some w ∈ ((abs Demo.h Demo.df).col k c).getD []
        rw [hcol]; exact List.mem_of_getElem? hw) w rfl
  refine ⟨fun c r v hv => ?_, fun c r v hv => ?_, fun c r v hv => ?_⟩
  · rcases (key _ _ _ _ hv).1 rfl with e | e
    · exact ⟨_, e⟩
    · exact ⟨_, e⟩
  · exact ⟨_, (key _ _ _ _ hv).2.1 rfl⟩
  · exact ⟨_, (key _ _ _ _ hv).2.2 rfl⟩

/-- A column marked as strings that holds something else cannot be printed. -/
def Demo.badRes : Except Abort (DF × Heap Int) :=
  (build [.addStrings b!"s" [b!"u"], .add .obj b!"s" [.other 3]] Demo.heap0).1.toDataFrame
    (build [.addStrings b!"s" [b!"u"], .add .obj b!"s" [.other 3]] Demo.heap0).2
def Demo.baddf : DF := match Demo.badRes with | .ok p => p.1 | .error _ => Demo.df
def Demo.badh : Heap Int := match Demo.badRes with | .ok p => p.2 | .error _ => Demo.heap0
theorem Demo.printHead_bad : Demo.baddf.WF Demo.badh ∧ printed (Demo.baddf.printHead Demo.fmt id 1 [] Demo.badh) b!"s: 'u'\n" = true ∧
    (match Demo.baddf.printHead Demo.fmt id 2 [] Demo.badh with | .error .panic => true | _ => false) = true :=
  ⟨DF.wf_of_check 2 (by decide +kernel), by decide +kernel, by decide +kernel⟩

end Verif
