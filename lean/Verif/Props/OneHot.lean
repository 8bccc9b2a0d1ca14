import Verif.Proofs.OneHotRun
import Verif.Props.Demo
import Verif.Proofs.Check

/-! C38, C39, and C60 for the one-hot encoder. -/

namespace Verif
variable {F : Type}

/-! ### The options -/

/-- C38, options: `NewOneHotEncoder` settles the pair of policies. "Shared" for missing values only means: same
as for unknown values, and the other policy is then the one that counts; "if seen" makes no sense for unknown
values and becomes a separate category; other pairs stay. -/
theorem C38_options (m u : CategoryPolicy) (k : Bool) :
    ((newOneHotEncoder ⟨m, u, k⟩).options.missing, (newOneHotEncoder ⟨m, u, k⟩).options.unknown) =
      (match m, u with
       | .sharedSeparate, .sharedSeparate => (.separateIfSeen, .sharedSeparate)
       | .sharedSeparate, u => (u, .sharedSeparate)
       | m, .separateIfSeen => (m, .separate)
       | m, u => (m, u)) ∧ (newOneHotEncoder ⟨m, u, k⟩).options.keep = k := by
  cases m <;> cases u <;> exact ⟨rfl, rfl⟩

theorem options_never_shared (o : OneHotOptions) : (newOneHotEncoder o).options.missing ≠ .sharedSeparate ∧
    (newOneHotEncoder o).options.unknown ≠ .separateIfSeen := by
  obtain ⟨m, u, k⟩ := o
  cases k <;> cases m <;> cases u <;> decide

/-! ### From codes to names -/

/-- Every column a learnt code points to carries the name of the categorical column. -/
theorem Learnt.word {o : OneHotOptions} {col : GoStr} {vals : List Int} {T : Int → Option GoStr} (l : Learnt o col vals T)
    {v : Int} {n : GoStr} (e : T v = some n) : ∃ w : Word, n = w.name col := by
  have hseen : ∀ v ∈ vals, v ≠ -1 → ∀ n, T v = some n → ∃ w : Word, n = w.name col := by
    intro v hv h1 n e
    obtain ⟨i, hi⟩ := l.seen v hv h1
    rw [hi, Option.some.injEq, onehotName_eq] at e
    exact ⟨_, e.symm⟩
  have hfreq : ∀ x n, (∃ w, MostFrequent vals w ∧ T x = T w) → T x = some n → ∃ w : Word, n = w.name col := by
    rintro x n ⟨w, hw, e1⟩ e2
    exact hseen w hw.1 hw.2.1 n (by rw [← e1, e2])
  have hmiss : ∀ n, T (-1) = some n → ∃ w : Word, n = w.name col := by
    intro n e
    have := l.missing
    cases hm : o.missing with
    | returnError => rw [hm] at this; simp only at this; rw [this] at e; cases e
    | separate => rw [hm] at this; simp only at this; rw [this] at e; cases e; exact ⟨_, missingName_eq _⟩
    | imputeMostFrequent => rw [hm] at this; exact hfreq _ _ this e
    | separateIfSeen =>
      rw [hm] at this
      simp only at this
      split at this
      · rw [this] at e; cases e; exact ⟨_, missingName_eq _⟩
      · exact hfreq _ _ this e
    | sharedSeparate => rw [hm] at this; exact this.elim
  by_cases h1 : v = -1
  · subst h1; exact hmiss n e
  by_cases h2 : v ∈ vals
  · exact hseen v h2 h1 n e
  have := l.unknown v h1 h2
  cases hm : o.unknown with
  | returnError => rw [hm] at this; simp only at this; rw [this] at e; cases e
  | separate => rw [hm] at this; simp only at this; rw [this] at e; cases e; exact ⟨_, unkName_eq _⟩
  | imputeMostFrequent => rw [hm] at this; exact hfreq _ _ this e
  | sharedSeparate => rw [hm] at this; simp only at this; exact hmiss n (by rw [← this, e])
  | separateIfSeen => rw [hm] at this; exact this.elim

/-- Codes learnt for two columns never point to the same new column. -/
theorem Learnt.apart {o : OneHotOptions} {c c' : GoStr} {vals vals' : List Int} {T T' : Int → Option GoStr} (l : Learnt o c vals T)
    (l' : Learnt o c' vals' T') {v v' : Int} {n : GoStr} (e : T v = some n) (e' : T' v' = some n) : c = c' := by
  obtain ⟨w, rfl⟩ := l.word e
  obtain ⟨w', h⟩ := l'.word e'
  exact (Word.name_inj h).1

/-! ### TransformView, for any encoder -/

theorem exists_unknown (vals : List Int) : ∃ v : Int, v ≠ -1 ∧ v ∉ vals := by
  have key : ∀ vals : List Int, ∃ b : Int, 0 ≤ b ∧ ∀ v ∈ vals, v < b := by
    intro vals
    induction vals with
    | nil => exact ⟨0, by omega, by simp⟩
    | cons v vs ih =>
      obtain ⟨b, h0, h1⟩ := ih
      refine ⟨max b (v + 1), by omega, ?_⟩
      intro w hw
      simp only [List.mem_cons] at hw
      rcases hw with rfl | hw
      · omega
      · have := h1 w hw; omega
  obtain ⟨b, h0, h1⟩ := key vals
  exact ⟨b, by omega, fun hm => by have := h1 b hm; omega⟩

section
variable [GoFloat F] {df : DF} {h : Heap F} {enc : OneHotEncoder} {vals : GoStr → List Int}

omit [GoFloat F] in
theorem intAt_eq (wf : df.WF h) (hv : IntCols (abs h df) vals) {c : GoStr} (hc : ((abs h df).col .int c).isSome) (j : Nat) :
    (abs h df).intAt c j = (df.rows[j]?).map (rawInt h df c) := by
  obtain ⟨src, hs, _, hval⟩ := rawInt_spec wf hv hc
  simp only [ADF.intAt, ADF.cell, abs, hs, Option.map_some, Option.bind_some, List.getElem?_map]
  cases hr : df.rows[j]? with
  | none => rfl
  | some i => simp [hval i (List.mem_of_getElem? hr)]

omit [GoFloat F] in
theorem forbidden_iff (wf : df.WF h) (hv : IntCols (abs h df) vals) {cats : List GoStr} (hc : ∀ c ∈ cats, ((abs h df).col .int c).isSome)
    (T : Code) : Forbidden (abs h df) cats T ↔ cats.any (fun c => df.rows.any (fun i => (T c (rawInt h df c i)).isNone)) = true := by
  simp only [Forbidden, List.any_eq_true, Option.isNone_iff_eq_none]
  constructor
  · rintro ⟨c, h1, j, v, h2, h3⟩
    rw [intAt_eq wf hv (hc c h1), Option.map_eq_some_iff] at h2
    obtain ⟨i, h4, rfl⟩ := h2
    exact ⟨c, h1, i, List.mem_of_getElem? h4, h3⟩
  · rintro ⟨c, h1, i, h2, h3⟩
    obtain ⟨j, hj⟩ := List.getElem?_of_mem h2
    exact ⟨c, h1, j, _, by rw [intAt_eq wf hv (hc c h1), hj]; rfl, h3⟩

/-- C38 and C39 for any encoder (fitted, or read back from JSON) whose `NewColumns` list every column it may
have to set. -/
theorem oneHot_run (wf : df.WF h) (hv : IntCols (abs h df) vals) (ok : Runnable enc) (hnil : enc.catCols = [] → enc.newCols = [])
    (hint : ∀ c ∈ enc.catCols, ((abs h df).col .int c).isSome) (hemp : [] ∉ enc.catCols) (hcpu : 0 < df.maxCPU)
    (hdrop : enc.options.keep = true ∨ ∀ c ∈ enc.catCols, (abs h df).isStr c = false ∧ c ∉ enc.newCols)
    (hrow : enc.options.keep = true ∨ enc.newCols ≠ [] ∨ 0 < (abs h df).nRows ∨ enc.catCols = [])
    {order : List GoStr} (hp : order.Perm enc.catCols) :
    (Forbidden (abs h df) enc.catCols enc.target → ∃ h', enc.transformView order df h = .ok (none, h') ∧ Heap.Ext h h') ∧
    (¬ Forbidden (abs h df) enc.catCols enc.target → ∃ r h', enc.transformView order df h = .ok (some r, h') ∧
      abs h' r = (abs h df).oneHot enc.catCols enc.newCols enc.target enc.options.keep ∧ r.WF h' ∧ Heap.Ext h h') := by
  by_cases hcat : enc.catCols = []
  · -- nothing to encode
    have e : enc.transformView order df h = .ok (some df.view, h) := by unfold OneHotEncoder.transformView; rw [if_pos hcat]
    refine ⟨fun hf => ?_, fun _ => ⟨df.view, h, e, ?_, ?_, Heap.Ext.refl h⟩⟩
    · obtain ⟨c, hc, _⟩ := hf; rw [hcat] at hc; cases hc
    · rw [hcat, hnil hcat]
      refine ADF.ext' rfl ?_ ?_ rfl
      · intro k c; simp [ADF.oneHot]; rfl
      · intro c; simp [ADF.oneHot]; rfl
    · exact ⟨⟨wf.tab_lt, wf.shared_lt, wf.str_lt, wf.keys, wf.slices⟩, wf.idx_len, wf.rect⟩
  have hne : h.tab df.tab ≠ [] := by
    obtain ⟨c, hc⟩ := List.exists_mem_of_ne_nil _ hcat
    have := hint c hc
    intro e
    simp [abs, e] at this
  have sp := oneHot_prep wf hne enc.newCols
  have htv : enc.transformView order df h =
      match runQueue enc.catCols order df.maxCPU (oneHotJob enc { df.view with toRaw := (df.view.toRaw.alloc .bool enc.newCols h).1 })
        ((df.view.toRaw.alloc .bool enc.newCols h).2, false) with
      | .error e => .error e
      | .ok (g, true) => .ok (none, g)
      | .ok (g, false) =>
        if enc.options.keep then .ok (some { df.view with toRaw := (df.view.toRaw.alloc .bool enc.newCols h).1 }, g)
        else .ok (some { df.view with toRaw := (df.view.toRaw.alloc .bool enc.newCols h).1 },
          (df.view.toRaw.alloc .bool enc.newCols h).1.drop enc.catCols g) := by
    unfold OneHotEncoder.transformView
    rw [if_neg hcat]
    rfl
  generalize df.view.toRaw.alloc .bool enc.newCols h = p at sp htv
  obtain ⟨rr, h1⟩ := p
  simp only at sp htv
  obtain ⟨r, hr⟩ : ∃ r : DF, r = { df.view with toRaw := rr } := ⟨_, rfl⟩
  rw [← hr] at sp htv
  have hrr : rr = r.toRaw := by rw [hr]
  rw [hrr] at htv
  have hnr : r.numRows = df.numRows := by rw [hr]; rfl
  clear hr hrr
  obtain ⟨g, D, eg, m, hD, hDeq⟩ := oneHot_jobs (enc := enc) wf sp ok hv order (fun c hc => hp.mem_iff.1 hc)
    (fun c hc => hint c (hp.mem_iff.1 hc)) [] (by simp) h1 (Marked.refl h1) false
  have hany : order.any (fun c => df.rows.any (fun i => (enc.target c (rawInt h df c i)).isNone)) =
      enc.catCols.any (fun c => df.rows.any (fun i => (enc.target c (rawInt h df c i)).isNone)) := by
    rw [Bool.eq_iff_iff, List.any_eq_true, List.any_eq_true]
    simp only [hp.mem_iff]
  rw [hany] at eg hDeq
  have hrun : runQueue enc.catCols order df.maxCPU (oneHotJob enc r) (h1, false) =
      .ok (g, enc.catCols.any (fun c => df.rows.any (fun i => (enc.target c (rawInt h df c i)).isNone))) := by
    unfold runQueue
    rw [if_neg hcat, if_neg (by rintro (h | h); · omega
                                · exact hemp h)]
    simpa using eg
  rw [htv, hrun, forbidden_iff wf hv hint]
  have hext := m.ext sp hD
  cases hb : enc.catCols.any (fun c => df.rows.any (fun i => (enc.target c (rawInt h df c i)).isNone)) with
  | true => exact ⟨fun _ => ⟨g, rfl, hext⟩, fun hx => absurd rfl hx⟩
  | false =>
    refine ⟨fun hx => (by cases hx), fun _ => ?_⟩
    have hDe := hDeq hb
    simp only [List.nil_append] at hDe
    have wfg : r.WF g := m.quiet.wf sp.wf
    -- every value has a code
    have hcode : ∀ c ∈ enc.catCols, ∀ i ∈ df.rows, ∃ n, enc.target c (rawInt h df c i) = some n := by
      intro c hc i hi
      rw [List.any_eq_false] at hb
      have h2 := hb c hc
      rw [Bool.not_eq_true, List.any_eq_false] at h2
      have h3 := h2 i hi
      cases ht : enc.target c (rawInt h df c i) with
      | none => rw [ht] at h3; simp at h3
      | some n => exact ⟨n, rfl⟩
    -- what the new columns show
    have hnew : ∀ n ∈ enc.newCols, (abs g r).col .bool n = some ((List.range (abs h df).nRows).map fun j =>
        some (.bool (enc.catCols.any fun c => ((abs h df).intAt c j).any fun v => decide (enc.target c v = some n)))) := by
      intro n hn
      obtain ⟨s, g1, g2, g3⟩ := sp.new n hn
      have hlen : df.rows.length = (abs h df).nRows := rfl
      simp only [abs, m.quiet.tab, g1, Option.map_some, Option.some.injEq, sp.rows]
      apply List.ext_getElem?
      intro j
      simp only [List.getElem?_map]
      cases hj : df.rows[j]? with
      | none =>
        rw [List.getElem?_eq_none_iff] at hj
        have : ¬ j < df.numRows := by
          have : (abs h df).nRows = df.numRows := rfl
          omega
        simp [this]
      | some i =>
        have hi := List.mem_of_getElem? hj
        obtain ⟨hjl, _⟩ := List.getElem?_eq_some_iff.1 hj
        have hjn : j < df.numRows := by
          have : (abs h df).nRows = df.numRows := rfl
          omega
        have hcell := g3 i hi
        have hlt : i < s.len := by
          by_contra hx
          simp [Heap.cell, hx] at hcell
        have hloc : (s.arr, s.off + i) = newLoc h1 r n i := by simp [newLoc, tabCol, g1]
        have hgc : g.cell s i = if newLoc h1 r n i ∈ D then some (.bool true) else some (.bool false) := by
          rw [cell_at hlt, m.at_, hloc, ← hloc, ← cell_at hlt, hcell]
        have hmem : newLoc h1 r n i ∈ D ↔ ∃ c ∈ enc.catCols, enc.target c (rawInt h df c i) = some n := by
          rw [hDe]
          simp only [List.mem_flatMap, List.mem_map, hp.mem_iff]
          constructor
          · rintro ⟨c, hc, i', hi', e⟩
            obtain ⟨n', hn'⟩ := hcode c hc i' hi'
            rw [hn'] at e
            simp only [Option.getD_some] at e
            obtain ⟨e1, e2⟩ := sp.loc_inj (ok.target c hc _ _ hn') hn e
            subst e1; subst e2
            exact ⟨c, hc, hn'⟩
          · rintro ⟨c, hc, e⟩
            exact ⟨c, hc, i, hi, by rw [e]; rfl⟩
        have hrange : (List.range df.numRows)[j]? = some j := by simp [hjn]
        have hspec : (enc.catCols.any fun c => ((abs h df).intAt c j).any fun v => decide (enc.target c v = some n)) =
            decide (newLoc h1 r n i ∈ D) := by
          rw [Bool.eq_iff_iff]
          simp only [List.any_eq_true, decide_eq_true_eq, hmem]
          constructor
          · rintro ⟨c, hc, hx⟩
            rw [intAt_eq wf hv (hint c hc), hj] at hx
            exact ⟨c, hc, by simpa using hx⟩
          · rintro ⟨c, hc, hx⟩
            refine ⟨c, hc, ?_⟩
            rw [intAt_eq wf hv (hint c hc), hj]
            simpa using hx
        have hspec' := hspec
        simp only [abs] at hspec'
        simp only [Option.map_some, hrange, hgc, hspec']
        by_cases hx : newLoc h1 r n i ∈ D <;> simp [hx]
    have hold : ∀ k n, ¬ (k = .bool ∧ n ∈ enc.newCols) → (abs g r).col k n = (abs h df).col k n := by
      intro k n hkn
      simp only [abs, m.quiet.tab, sp.rows]
      rw [sp.old (k, n) hkn]
      cases hs : AMap.get (h.tab df.tab) (k, n) with
      | none => rfl
      | some s =>
        simp only [Option.map_some, Option.some.injEq]
        apply List.map_congr_left
        intro i _
        exact m.src sp hD (wf.slices _ _ hs) i
    have hstr : ∀ c, (abs g r).isStr c = (abs h df).isStr c := by
      intro c
      simp only [abs, sp.str]
      rw [hdrList_ext hext wf.str_lt]
    simp only
    by_cases hk : enc.options.keep = true
    · rw [if_pos hk]
      refine ⟨r, g, rfl, ?_, wfg, hext⟩
      refine ADF.ext' hnr ?_ ?_ sp.enc
      · intro k n
        simp only [ADF.oneHot, hk, Bool.true_eq_false, false_and, if_false]
        by_cases hkn : k = .bool ∧ n ∈ enc.newCols
        · rw [if_pos hkn, hkn.1, hnew n hkn.2]
        · rw [if_neg hkn, hold k n hkn]
      · intro c; rw [hstr]; simp [ADF.oneHot, hk]
    · have hk' : enc.options.keep = false := by simpa using hk
      have hdr := hdrop.resolve_left hk
      have hnn : enc.newCols ≠ [] := by
        rcases hrow with h0 | h0 | h0 | h0
        · exact absurd h0 hk
        · exact h0
        · intro hx
          obtain ⟨c, hc⟩ := List.exists_mem_of_ne_nil _ hcat
          have hl : 0 < df.rows.length := h0
          obtain ⟨n, hn⟩ := hcode c hc _ (List.getElem_mem hl)
          have := ok.target c hc _ _ hn
          rw [hx] at this; cases this
        · exact absurd h0 hcat
      obtain ⟨f1, f2⟩ := sp.fresh hnn
      have hsep : r.toRaw.Sep := by
        intro i hi hx
        have a := f2 i hi
        rw [sp.str] at hx
        have b := wf.str_lt i hx
        omega
      rw [if_neg hk]
      obtain ⟨da, dw, _, _⟩ := drop_abs wfg enc.catCols hsep
      refine ⟨r, _, rfl, ?_, dw, drop_ext enc.catCols hext f1 f2 hsep ?_⟩
      · rw [da]
        refine ADF.ext' hnr ?_ ?_ sp.enc
        · intro k n
          simp only [ADF.oneHot, ADF.dropCols, hk', true_and]
          by_cases hn : n ∈ enc.catCols
          · simp [hn]
          · simp only [hn, if_false]
            by_cases hkn : k = .bool ∧ n ∈ enc.newCols
            · rw [if_pos hkn, hkn.1, hnew n hkn.2]
            · rw [if_neg hkn, hold k n hkn]
        · intro c; simp only [ADF.oneHot, ADF.dropCols, hk', hstr, Bool.false_or]
      · intro c hc hx
        have := (hdr c hc).1
        have h2 := hstr c
        rw [this] at h2
        simp only [abs, decide_eq_false_iff_not] at h2
        exact h2 hx

end

/-! ### A fitted encoder -/

section
variable {o : OneHotOptions} {sch : OneHotSched} {cols : List GoStr} {vals : GoStr → List Int} {enc : OneHotEncoder}

/-- The new columns are those some value asks for. -/
theorem Fitted.news_iff (ft : Fitted o sch cols vals enc) (hf : ∀ c ∈ cols, CanFit o (vals c)) (n : GoStr) :
    n ∈ enc.newCols ↔ ∃ c ∈ cols, ∃ v, enc.target c v = some n := by
  rw [ft.news]
  constructor
  · rintro ⟨c, hc, h⟩
    refine ⟨c, hc, ?_⟩
    rw [ft.target hc]
    rcases h with ⟨v, hv⟩ | ⟨hn, hv | hv⟩
    · refine ⟨v, ?_⟩
      have h1 : v ≠ -1 := by
        intro e; rw [cats_get, if_neg (by simp [e])] at hv; cases hv
      simp only [codeOf, if_neg h1, hv]
    · refine ⟨-1, ?_⟩
      have : o.missing ≠ .returnError := by
        intro hm; apply hn; rw [hv]; simp [oneHotFitCol, hm]
      simp only [codeOf, if_true, if_neg this, hv]
    · obtain ⟨v, h1, h2⟩ := exists_unknown (vals c)
      refine ⟨v, ?_⟩
      have : o.unknown ≠ .returnError := by
        intro hm; apply hn; rw [hv]; simp [oneHotFitCol, hm]
      simp only [codeOf, if_neg h1, cats_get, h2, false_and, if_false, if_neg this, hv]
  · rintro ⟨c, hc, v, hv⟩
    refine ⟨c, hc, ?_⟩
    have hv' := hv
    rw [ft.target hc] at hv
    have hl : Learnt o c (vals c) (enc.target c) := by rw [ft.target hc]; exact learnt (hf c hc)
    have hn : n ≠ [] := by
      obtain ⟨w, rfl⟩ := hl.word hv'
      exact w.name_ne_nil c
    simp only [codeOf] at hv
    split at hv
    · split at hv
      · cases hv
      · cases hv; exact Or.inr ⟨hn, Or.inl rfl⟩
    · split at hv
      · rename_i x hx; cases hv; exact Or.inl ⟨v, hx⟩
      · split at hv
        · cases hv
        · cases hv; exact Or.inr ⟨hn, Or.inr rfl⟩

theorem Fitted.learnt (ft : Fitted o sch cols vals enc) {c : GoStr} (hc : c ∈ cols) (hf : CanFit o (vals c)) :
    Learnt o c (vals c) (enc.target c) := by rw [ft.target hc]; exact Verif.learnt hf

theorem Fitted.runnable (ft : Fitted o sch cols vals enc) (hf : ∀ c ∈ cols, CanFit o (vals c)) : Runnable enc := by
  refine ⟨?_, ?_⟩
  · intro c hc v n e
    rw [ft.catCols] at hc
    exact (ft.news_iff hf n).2 ⟨c, hc, v, e⟩
  · intro c hc
    rw [ft.catCols] at hc
    refine ⟨_, ft.fb c hc, ?_, ?_⟩
    · intro hm
      rw [ft.options] at hm
      refine (ft.news_iff hf _).2 ⟨c, hc, -1, ?_⟩
      rw [ft.target hc]
      simp only [codeOf, if_true, if_neg hm]
    · intro hm
      rw [ft.options] at hm
      obtain ⟨v, h1, h2⟩ := exists_unknown (vals c)
      refine (ft.news_iff hf _).2 ⟨c, hc, v, ?_⟩
      rw [ft.target hc]
      simp only [codeOf, if_neg h1, cats_get, h2, false_and, if_false, if_neg hm]

end

/-! ### C38 and C39, for users -/

/-- What a fitted encoder does to a dataframe: its code is `T`. -/
def Encodes [GoFloat F] (enc : OneHotEncoder) (T : Code) : Prop :=
  ∀ (h : Heap F) (df : DF) (vals : GoStr → List Int) (order : List GoStr), df.WF h → IntCols (abs h df) vals →
    (∀ c ∈ enc.catCols, ((abs h df).col .int c).isSome) → 0 < df.maxCPU →
    (enc.options.keep = true ∨ ∀ c ∈ enc.catCols, (abs h df).isStr c = false ∧ c ∉ enc.newCols) →
    (enc.options.keep = true ∨ enc.newCols ≠ [] ∨ 0 < (abs h df).nRows ∨ enc.catCols = []) →
    order.Perm enc.catCols →
    (Forbidden (abs h df) enc.catCols T → ∃ h', enc.transformView order df h = .ok (none, h') ∧ Heap.Ext h h') ∧
    (¬ Forbidden (abs h df) enc.catCols T → ∃ r h', enc.transformView order df h = .ok (some r, h') ∧
      abs h' r = (abs h df).oneHot enc.catCols enc.newCols T enc.options.keep ∧ r.WF h' ∧ Heap.Ext h h')

section
variable [GoFloat F] {train : DF} {h : Heap F} {enc : OneHotEncoder} {sch : OneHotSched} {vals : GoStr → List Int}

/-- C38: `Fit` handles the int columns of the training dataframe, learns a code that follows the policies and gives
every category its own column, and lists the columns of that code in `NewColumns`; `TransformView` of any dataframe
that has these int columns returns a view that shows exactly the coding, or an error if and only if a visible
value has no code. This holds for every map iteration order and every order in which the workers take the columns. -/
theorem C38_fit_transform (hv : IntCols (abs h train) vals) (wf : train.WF h) (hcpu : 0 < train.maxCPU)
    (hemp : (abs h train).col .int [] = none) (hf : ∀ c, ((abs h train).col .int c).isSome → CanFit enc.options (vals c)) :
    ∃ enc' T, enc.fit sch train h = .ok enc' ∧ enc'.options = enc.options ∧
      (enc'.transformedColumns.Nodup ∧ ∀ c, c ∈ enc'.transformedColumns ↔ ((abs h train).col .int c).isSome) ∧
      (∀ c ∈ enc'.transformedColumns, Learnt enc.options c (vals c) (T c)) ∧
      (enc'.newCols.Nodup ∧ ∀ n, n ∈ enc'.newCols ↔ ∃ c ∈ enc'.transformedColumns, ∃ v, T c v = some n) ∧
      Encodes (F := F) enc' T := by
  obtain ⟨enc', e, ft⟩ := oneHot_fit (enc := enc) (sch := sch) hv (Or.inr hcpu) hemp hf
  have hf' : ∀ c ∈ namesOf (h.tab train.tab) .int, CanFit enc.options (vals c) := fun c hc => hf c (mem_namesOf_int.1 hc)
  have hcats : enc'.transformedColumns = namesOf (h.tab train.tab) .int := ft.catCols
  have hnews := ft.news_iff hf'
  refine ⟨enc', enc'.target, e, ft.options, ⟨?_, ?_⟩, ?_, ⟨ft.nodup, ?_⟩, ?_⟩
  · rw [hcats]; exact nodup_namesOf_kind wf.keys _
  · intro c; rw [hcats]; exact mem_namesOf_int
  · intro c hc
    rw [hcats] at hc
    exact ft.learnt hc (hf' c hc)
  · intro n; rw [hnews n, hcats]
  · intro h2 df vals2 order wf2 hv2 hint hcpu2 hdrop hrow hp
    refine oneHot_run wf2 hv2 (ft.runnable hf') ?_ hint ?_ hcpu2 hdrop hrow hp
    · intro hnil
      apply List.eq_nil_iff_forall_not_mem.2
      intro n hn
      obtain ⟨c, hc, _⟩ := (hnews n).1 hn
      rw [← ft.catCols, hnil] at hc; cases hc
    · intro hx
      rw [ft.catCols, mem_namesOf_int, hemp] at hx; cases hx

omit [GoFloat F] in
/-- C38: `Fit` panics if the policies cannot be followed: a most frequent category is needed but no category was
seen, or unknown values must share a column that does not exist. -/
theorem C38_fit_panics (hv : IntCols (abs h train) vals) (hcpu : 0 < train.maxCPU)
    (hemp : (abs h train).col .int [] = none) (hf : ∃ c, ((abs h train).col .int c).isSome ∧ ¬ CanFit enc.options (vals c)) :
    enc.fit sch train h = .error .panic := oneHot_fit_panics hv hcpu hemp hf

end

/-- C38: with a learnt code, in every row exactly one of the new columns of a categorical column is true, and it is
the column of that row's value. -/
theorem C38_exactly_one {a : ADF (Val F)} {o : OneHotOptions} {cats news : List GoStr} {T : Code} {vals : GoStr → List Int} {keep : Bool}
    (hl : ∀ c ∈ cats, Learnt o c (vals c) (T c)) (hnews : ∀ n, n ∈ news ↔ ∃ c ∈ cats, ∃ v, T c v = some n)
    (hkeep : keep = true ∨ ∀ n ∈ news, n ∉ cats) (hok : ¬ Forbidden a cats T)
    {c : GoStr} (hc : c ∈ cats) {j : Nat} (hj : j < a.nRows) {v : Int} (hv : a.intAt c j = some v) :
    ∃ n, T c v = some n ∧ ∀ n', (∃ w, T c w = some n') →
      (a.oneHot cats news T keep).cell .bool n' j = some (.bool (decide (n' = n))) := by
  cases hT : T c v with
  | none => exact absurd ⟨c, hc, j, v, hv, hT⟩ hok
  | some n =>
    refine ⟨n, rfl, ?_⟩
    rintro n' ⟨w, hw⟩
    have hn' : n' ∈ news := (hnews n').2 ⟨c, hc, w, hw⟩
    have hg : ¬ (keep = false ∧ n' ∈ cats) := by
      rintro ⟨h1, h2⟩
      rcases hkeep with h0 | h0
      · rw [h0] at h1; cases h1
      · exact h0 n' hn' h2
    simp only [ADF.cell, ADF.oneHot, if_neg hg, hn', and_self, if_true, Option.bind_some, List.getElem?_map,
      List.getElem?_range hj, Option.map_some, Option.join_some, Option.some.injEq, Val.bool.injEq]
    rw [Bool.eq_iff_iff, List.any_eq_true, decide_eq_true_eq]
    constructor
    · rintro ⟨c', hc', hx⟩
      cases hi : a.intAt c' j with
      | none => rw [hi] at hx; cases hx
      | some v' =>
        rw [hi] at hx
        simp only [Option.any_some, decide_eq_true_eq] at hx
        have := (hl c hc).apart (hl c' hc') hw hx
        subst this
        rw [hv] at hi; cases hi
        rw [hT] at hx; cases hx; rfl
    · rintro rfl
      exact ⟨c, hc, by rw [hv]; simp [hT]⟩

/-- C38: the categorical columns are gone unless `KeepUsedColumns`; other columns and the rows are as before. -/
theorem C38_other_columns (a : ADF (Val F)) (cats news : List GoStr) (T : Code) (keep : Bool) :
    (a.oneHot cats news T keep).nRows = a.nRows ∧
    (∀ k c, c ∈ cats → keep = false → (a.oneHot cats news T keep).col k c = none) ∧
    (∀ k c, (c ∉ cats ∨ keep = true) → (k ≠ .bool ∨ c ∉ news) → (a.oneHot cats news T keep).col k c = a.col k c) := by
  refine ⟨rfl, ?_, ?_⟩
  · intro k c hc hk; simp [ADF.oneHot, hc, hk]
  · intro k c h1 h2
    simp only [ADF.oneHot]
    rw [if_neg (by rintro ⟨h3, h4⟩; rcases h1 with h1 | h1; exact h1 h4; rw [h1] at h3; cases h3),
      if_neg (by rintro ⟨h3, h4⟩; rcases h2 with h2 | h2; exact h2 h3; exact h2 h4)]

/-- C39: `TransformView` of a fitted encoder returns an error exactly if a visible value is missing although
`MissingPolicy` forbids it, or was not seen in training although `UnknownPolicy` forbids it. -/
theorem C39_forbidden {a : ADF (Val F)} {o : OneHotOptions} {cats : List GoStr} {T : Code} {vals : GoStr → List Int}
    (hl : ∀ c ∈ cats, Learnt o c (vals c) (T c)) (hsh : o.unknown = .sharedSeparate → o.missing ≠ .returnError) :
    Forbidden a cats T ↔ ∃ c ∈ cats, ∃ j v, a.intAt c j = some v ∧
      ((v = -1 ∧ o.missing = .returnError) ∨ (v ≠ -1 ∧ v ∉ vals c ∧ o.unknown = .returnError)) := by
  unfold Forbidden
  have hfreq : ∀ c ∈ cats, ∀ x, (∃ w, MostFrequent (vals c) w ∧ T c x = T c w) → T c x ≠ none := by
    rintro c hc x ⟨w, hw, e1⟩ e2
    obtain ⟨i, hi⟩ := (hl c hc).seen w hw.1 hw.2.1
    rw [← e1, e2] at hi; cases hi
  have hmiss : ∀ c ∈ cats, o.missing ≠ .returnError → T c (-1) ≠ none := by
    intro c hc hm
    have := (hl c hc).missing
    cases hq : o.missing with
    | returnError => exact absurd hq hm
    | separate => rw [hq] at this; simp only at this; rw [this]; simp
    | imputeMostFrequent => rw [hq] at this; exact hfreq c hc _ this
    | separateIfSeen =>
      rw [hq] at this
      simp only at this
      split at this
      · rw [this]; simp
      · exact hfreq c hc _ this
    | sharedSeparate => rw [hq] at this; exact this.elim
  have key : ∀ c ∈ cats, ∀ v, T c v = none ↔
      ((v = -1 ∧ o.missing = .returnError) ∨ (v ≠ -1 ∧ v ∉ vals c ∧ o.unknown = .returnError)) := by
    intro c hc v
    constructor
    · intro e
      by_cases h1 : v = -1
      · refine Or.inl ⟨h1, ?_⟩
        by_contra hm
        subst h1
        exact hmiss c hc hm e
      · have h2 : v ∉ vals c := by
          intro h2
          obtain ⟨i, hi⟩ := (hl c hc).seen v h2 h1
          rw [hi] at e; cases e
        refine Or.inr ⟨h1, h2, ?_⟩
        have := (hl c hc).unknown v h1 h2
        cases hq : o.unknown with
        | returnError => rfl
        | separate => rw [hq] at this; simp only at this; rw [this] at e; cases e
        | imputeMostFrequent => rw [hq] at this; exact absurd e (hfreq c hc _ this)
        | sharedSeparate => rw [hq] at this; simp only at this; rw [this] at e; exact absurd e (hmiss c hc (hsh hq))
        | separateIfSeen => rw [hq] at this; exact this.elim
    · rintro (⟨rfl, hm⟩ | ⟨h1, h2, hm⟩)
      · have := (hl c hc).missing; rw [hm] at this; exact this
      · have := (hl c hc).unknown v h1 h2; rw [hm] at this; exact this
  constructor
  · rintro ⟨c, hc, j, v, h1, h2⟩; exact ⟨c, hc, j, v, h1, (key c hc v).1 h2⟩
  · rintro ⟨c, hc, j, v, h1, h2⟩; exact ⟨c, hc, j, v, h1, (key c hc v).2 h2⟩

/-- C39: whether `TransformView` succeeds or not, no dataframe that existed before the call changes. -/
theorem C39_inputs_unchanged [GoFloat F] {enc : OneHotEncoder} {T : Code} (en : Encodes (F := F) enc T)
    {h : Heap F} {df : DF} {vals : GoStr → List Int} {order : List GoStr} (wf : df.WF h) (hv : IntCols (abs h df) vals)
    (hint : ∀ c ∈ enc.catCols, ((abs h df).col .int c).isSome) (hcpu : 0 < df.maxCPU)
    (hdrop : enc.options.keep = true ∨ ∀ c ∈ enc.catCols, (abs h df).isStr c = false ∧ c ∉ enc.newCols)
    (hrow : enc.options.keep = true ∨ enc.newCols ≠ [] ∨ 0 < (abs h df).nRows ∨ enc.catCols = [])
    (hp : order.Perm enc.catCols) :
    ∃ r h', enc.transformView order df h = .ok (r, h') ∧ (r = none ↔ Forbidden (abs h df) enc.catCols T) ∧
      ∀ d : DF, d.WF h → abs h' d = abs h d ∧ locs h' d = locs h d ∧ d.WF h' := by
  obtain ⟨a, b⟩ := en h df vals order wf hv hint hcpu hdrop hrow hp
  by_cases hf : Forbidden (abs h df) enc.catCols T
  · obtain ⟨h', e, x⟩ := a hf
    exact ⟨none, h', e, by simp [hf], fun d wd => ⟨abs_ext x wd.toWF, locs_ext x wd.toWF, wd.ext x⟩⟩
  · obtain ⟨r, h', e, _, _, x⟩ := b hf
    exact ⟨some r, h', e, by simp [hf], fun d wd => ⟨abs_ext x wd.toWF, locs_ext x wd.toWF, wd.ext x⟩⟩

/-! ### C60 -/

/-- C60 for the one-hot encoder: two dataframes, in whatever memory, that show the same int columns teach the encoder
the same categories and fallbacks. The Go runtime iterates over its maps in random order; the iteration orders
over the categories are taken to be the same in both calls (else see `onehot_numbering_is_random`), the order of
the columns may differ. -/
theorem C60_onehot {df df₂ : DF} {h h₂ : Heap F} {enc : OneHotEncoder} {sch sch₂ : OneHotSched} {vals : GoStr → List Int}
    (hsame : ∀ c, (abs h df).col .int c = (abs h₂ df₂).col .int c) (hv : IntCols (abs h df) vals)
    (hcommon : sch.common = sch₂.common) (hnumber : sch.number = sch₂.number)
    (hcpu : 0 < df.maxCPU) (hcpu₂ : 0 < df₂.maxCPU) (hemp : (abs h df).col .int [] = none)
    (hf : ∀ c, ((abs h df).col .int c).isSome → CanFit enc.options (vals c)) :
    ∃ a b, enc.fit sch df h = .ok a ∧ enc.fit sch₂ df₂ h₂ = .ok b ∧ (∀ c, c ∈ a.catCols ↔ c ∈ b.catCols) ∧
      (∀ n, n ∈ a.newCols ↔ n ∈ b.newCols) ∧ ∀ c ∈ a.catCols, AMap.get a.categories c = AMap.get b.categories c ∧
        AMap.get a.fallback c = AMap.get b.fallback c := by
  obtain ⟨a, ea, fa⟩ := oneHot_fit (enc := enc) (sch := sch) hv (Or.inr hcpu) hemp hf
  obtain ⟨b, eb, fb⟩ := oneHot_fit (enc := enc) (sch := sch₂) (vals := vals) (df := df₂) (h := h₂)
    (fun c hc => by rw [← hsame] at hc ⊢; exact hv c hc) (Or.inr hcpu₂) (by rw [← hsame]; exact hemp)
    (fun c hc => hf c (by rw [hsame]; exact hc))
  have hcol : ∀ c, oneHotFitCol enc.options sch c (vals c) = oneHotFitCol enc.options sch₂ c (vals c) := by
    intro c; simp only [oneHotFitCol, hcommon, hnumber]
  have hmem : ∀ c, c ∈ namesOf (h.tab df.tab) .int ↔ c ∈ namesOf (h₂.tab df₂.tab) .int := by
    intro c; rw [mem_namesOf_int, mem_namesOf_int, hsame]
  refine ⟨a, b, ea, eb, ?_, ?_, ?_⟩
  · intro c; rw [fa.catCols, fb.catCols]; exact hmem c
  · intro n; rw [fa.news, fb.news]; simp only [hmem, hcol]
  · intro c hc
    rw [fa.catCols] at hc
    rw [fa.cats c hc, fb.cats c ((hmem c).1 hc), fa.fb c hc, fb.fb c ((hmem c).1 hc), hcol]
    exact ⟨rfl, rfl⟩

/-! ### Demo and refutations -/

namespace Demo

/-- Maps are iterated in insertion order. -/
def sched0 : OneHotSched := ⟨fun _ l => l, fun _ l => l, id, id, fun _ _ => .refl _, fun _ _ => .refl _, fun _ => .refl _, fun _ => .refl _⟩

/-- Categories are numbered backwards. -/
def schedRev : OneHotSched := { sched0 with number := fun _ l => l.reverse, number_perm := fun _ l => List.reverse_perm l }

def ohops : List (BOp Int) :=
  [.add .int b!"a" [.int 1, .int 2, .int 1, .int (-1)], .add .int b!"b" [.int 3, .int 3, .int 4, .int 5],
   .add .float b!"x" [.float 5, .float 3, .float 9, .float 1]]

def ohres : Except Abort (DF × Heap Int) := (build ohops heap0).1.toDataFrame (build ohops heap0).2

/-- A dataframe with two int columns. -/
def ohdf : DF := match ohres with | .ok p => p.1 | .error _ => ⟨⟨0, none, false, none, 0, none⟩, ⟨[], 0⟩, ⟨0,0,0,0⟩, false, false⟩

def ohh : Heap Int := match ohres with | .ok p => p.2 | .error _ => heap0

theorem ohdf_wf : ohdf.WF ohh := DF.wf_of_check 4 (by decide +kernel)

def ohvals (c : GoStr) : List Int := if c = b!"a" then [1, 2, 1, -1] else if c = b!"b" then [3, 3, 4, 5] else []

theorem ohdf_names : namesOf (ohh.tab ohdf.tab) .int = [b!"a", b!"b"] := by decide +kernel

theorem ohdf_cols : IntCols (abs ohh ohdf) ohvals := by
  intro c hc
  have := mem_namesOf_int.2 hc
  rw [ohdf_names] at this
  simp at this
  rcases this with rfl | rfl <;> decide +kernel

/-- The encoder of the demo: missing values get the most frequent category, unknown values their own column. -/
def ohenc : OneHotEncoder := newOneHotEncoder ⟨.imputeMostFrequent, .separate, false⟩

theorem ohenc_can : ∀ c, ((abs ohh ohdf).col .int c).isSome → CanFit ohenc.options (ohvals c) := by
  intro c hc
  have := mem_namesOf_int.2 hc
  rw [ohdf_names] at this
  simp at this
  refine ⟨by decide, by decide, fun _ => ?_, fun h => ?_, fun h => ?_⟩
  · rcases this with rfl | rfl
    · exact ⟨1, by decide, by decide⟩
    · exact ⟨3, by decide, by decide⟩
  · exact absurd h (by decide)
  · exact absurd h (by decide)

/-- The hypotheses of `C38_fit_transform`, `C38_exactly_one` and `C39_inputs_unchanged` are met by `ohdf`; the demo
encodes the dataframe it was trained on. -/
example : ∃ enc' T r h', ohenc.fit sched0 ohdf ohh = .ok enc' ∧ enc'.transformView [b!"b", b!"a"] ohdf ohh = .ok (some r, h') ∧
    abs h' r = (abs ohh ohdf).oneHot enc'.catCols enc'.newCols T false ∧ (abs h' ohdf) = abs ohh ohdf ∧
    (∀ c ∈ enc'.catCols, Learnt ohenc.options c (ohvals c) (T c)) := by
  obtain ⟨enc', T, e, eo, ⟨_, hcats⟩, hl, ⟨_, hnews⟩, en⟩ := C38_fit_transform (enc := ohenc) (sch := sched0) ohdf_cols ohdf_wf
    (by decide +kernel) (by decide +kernel) ohenc_can
  have e2 : enc'.catCols = [b!"a", b!"b"] := by
    have : ohenc.fit sched0 ohdf ohh = .ok enc' := e
    have h2 : okAnd (ohenc.fit sched0 ohdf ohh) (fun x => decide (x.catCols = [b!"a", b!"b"])) = true := by decide +kernel
    rw [this] at h2
    exact of_decide_eq_true h2
  have e3 : b!"a" ∉ enc'.newCols ∧ b!"b" ∉ enc'.newCols ∧ enc'.newCols ≠ [] := by
    have : ohenc.fit sched0 ohdf ohh = .ok enc' := e
    have h2 : okAnd (ohenc.fit sched0 ohdf ohh) (fun x => decide (b!"a" ∉ x.newCols ∧ b!"b" ∉ x.newCols ∧ x.newCols ≠ [])) = true := by
      decide +kernel
    rw [this] at h2
    exact of_decide_eq_true h2
  obtain ⟨_, ok⟩ := en ohh ohdf ohvals [b!"b", b!"a"] ohdf_wf ohdf_cols (fun c hc => (hcats c).1 hc) (by decide +kernel)
    (Or.inr (by rw [e2]; intro c hc; simp at hc; rcases hc with rfl | rfl
                · exact ⟨by decide +kernel, e3.1⟩
                · exact ⟨by decide +kernel, e3.2.1⟩)) (Or.inr (Or.inl e3.2.2)) (by rw [e2]; exact List.Perm.swap _ _ _)
  obtain ⟨r, h', er, hr, _, hx⟩ := ok (by
    rw [show enc'.catCols = enc'.transformedColumns from rfl, C39_forbidden hl (by decide)]
    rintro ⟨c, _, j, v, _, ⟨_, h⟩ | ⟨_, _, h⟩⟩ <;> exact absurd h (by decide))
  refine ⟨enc', T, r, h', e, er, ?_, abs_ext hx ohdf_wf.toWF, hl⟩
  rw [hr, eo]; rfl

/-- The category columns are numbered in the random order of a Go map iteration: training twice on the same dataframe
may give category 1 the column `a_onehot0` or the column `a_onehot1`. Only a saved encoder can be reused. -/
theorem onehot_numbering_is_random :
    okAnd (ohenc.fit sched0 ohdf ohh) (fun e => decide (e.target b!"a" 1 = some b!"a_onehot1")) = true ∧
    okAnd (ohenc.fit schedRev ohdf ohh) (fun e => decide (e.target b!"a" 1 = some b!"a_onehot0")) = true := by
  decide +kernel

/-- A dataframe with an int column that has the name of a new column. -/
def ohops2 : List (BOp Int) :=
  [.add .int b!"a" [.int 1, .int 1], .add .int b!"a_onehot0" [.int 3, .int 4]]

def ohres2 : Except Abort (DF × Heap Int) := (build ohops2 heap0).1.toDataFrame (build ohops2 heap0).2

/-- Without the condition on names C38 fails: the new column of `a` is dropped together with the int column of the same name, and no
column is left for `a`. -/
theorem C38_needs_other_names :
    okAnd ohres2 (fun p => okAnd ((newOneHotEncoder ⟨.separate, .returnError, false⟩).fit sched0 p.1 p.2) (fun e =>
      okAnd (e.transformView [b!"a", b!"a_onehot0"] p.1 p.2) (fun q =>
        decide (e.target b!"a" 1 = some b!"a_onehot0") &&
        q.1.any (fun r => (AMap.get (q.2.tab r.tab) (.bool, b!"a_onehot0")).isNone)))) = true := by
  decide +kernel

/-- C39 fails for an encoder without new columns on a dataframe without rows: the view still shares its columns with
the dataframe, which loses column `a`. -/
theorem C39_needs_new_columns :
    okAnd (ohdf.sliceView 0 0 ohh) (fun e0 =>
      okAnd ((newOneHotEncoder ⟨.returnError, .returnError, false⟩).fit sched0 e0.1 e0.2) (fun e =>
        decide (e.newCols = []) && okAnd (e.transformView [b!"b", b!"a"] e0.1 e0.2) (fun q =>
          (AMap.get (ohh.tab ohdf.tab) (.int, b!"a")).isSome && (AMap.get (q.2.tab ohdf.tab) (.int, b!"a")).isNone))) = true := by
  decide +kernel

/-- A dataframe whose int column `a` has the name of a string column. -/
def ohops3 : List (BOp Int) :=
  [.add .int b!"a" [.int 1, .int 1], .addStrings b!"a" [b!"u", b!"v"]]

def ohres3 : Except Abort (DF × Heap Int) := (build ohops3 heap0).1.toDataFrame (build ohops3 heap0).2

/-- C39 fails if a categorical column has the name of a string column: the input dataframe loses its mark, so its
string column is no longer taken for one. -/
theorem C39_needs_unmarked_names :
    okAnd ohres3 (fun p => okAnd ((newOneHotEncoder ⟨.separate, .returnError, false⟩).fit sched0 p.1 p.2) (fun e =>
      okAnd (e.transformView [b!"a"] p.1 p.2) (fun q =>
        (abs p.2 p.1).isStr b!"a" && !(abs q.2 p.1).isStr b!"a"))) = true := by
  decide +kernel

end Demo

end Verif
