import Verif.Proofs.Threads
import Verif.Props.CSVWriting

/-! Goroutines with a wait group, and the goroutines of `ToCSVs`. -/

namespace Verif
variable {σ α F : Type}

/-! ### The wait group -/

/-- What is known of goroutine number `i`. -/
def ThreadOK (P : Nat → List (α → α)) (m0 m : Nat → α) (i : Nat) : Option (Option (List ((Nat → α) → Nat → α))) → Prop
  | none => m i = m0 i
  | some none => m i = execOps (P i) (m0 i)
  | some (some l) => ∃ L, l = L.map (onFrame i) ∧ execOps L (m i) = execOps (P i) (m0 i)

/-- What holds in every reachable state. -/
structure Fork.Inv (n : Nat) (P : Nat → List (α → α)) (m0 : Nat → α) (s : Fork (Nat → α)) : Prop where
  len : s.threads.length ≤ n
  cnt : s.counter + (s.threads.countP (·.isNone) : Nat) = n
  ret : s.returned = true → s.threads.length = n ∧ s.counter = 0
  mem : ∀ i, ThreadOK P m0 s.mem i s.threads[i]?

theorem Fork.Inv.init (n : Nat) (P : Nat → List (α → α)) (m0 : Nat → α) : Fork.Inv n P m0 (Fork.init n m0) :=
  ⟨by simp [Fork.init], by simp [Fork.init], by simp [Fork.init], fun i => by simp [Fork.init, ThreadOK]⟩

theorem countP_set {A : Type} (p : A → Bool) {l : List A} {i : Nat} {a : A} (h : l[i]? = some a) (b : A) :
    (l.set i b).countP p + (if p a then 1 else 0) = l.countP p + (if p b then 1 else 0) := by
  obtain ⟨x, y, h1, h2⟩ := set_split h
  rw [h2, h1]
  simp only [List.countP_append, List.countP_cons]
  omega

theorem Fork.Inv.step {n : Nat} {P : Nat → List (α → α)} {m0 : Nat → α} {s t : Fork (Nat → α)} (iv : Fork.Inv n P m0 s)
    (st : Fork.Step n (fun i => (P i).map (onFrame i)) s t) : Fork.Inv n P m0 t := by
  cases st with
  | start h =>
    refine ⟨by simp; omega, ?_, ?_, ?_⟩
    · have := iv.cnt; simp only [List.countP_append]; simpa using this
    · intro hr; have := (iv.ret hr).1; omega
    · intro i
      have := iv.mem i
      dsimp only
      rw [List.getElem?_append]
      split
      · exact this
      · rename_i hi
        rw [List.getElem?_eq_none (by omega)] at this
        by_cases e : i = s.threads.length
        · subst e
          simp only [Nat.sub_self, List.getElem?_cons_zero]
          refine ⟨P s.threads.length, rfl, ?_⟩
          have h2 : s.mem s.threads.length = m0 s.threads.length := this
          rw [h2]
        · rw [List.getElem?_eq_none (by simp; omega)]; exact this
  | @op i o os h =>
    have hi := iv.mem i
    rw [h] at hi
    obtain ⟨L, hl, he⟩ := hi
    cases L with
    | nil => cases hl
    | cons l L =>
      simp only [List.map_cons, List.cons.injEq] at hl
      obtain ⟨rfl, rfl⟩ := hl
      refine ⟨by simpa using iv.len, ?_, by simpa using iv.ret, ?_⟩
      · have := countP_set (fun x : Option (List ((Nat → α) → Nat → α)) => x.isNone) h (some (List.map (onFrame i) L))
        have h2 := iv.cnt
        simp at this
        simp only; omega
      · intro j
        dsimp only
        rw [List.getElem?_set]
        by_cases e : i = j
        · subst e
          rw [if_pos rfl, if_pos (List.getElem?_eq_some_iff.1 h).1]
          exact ⟨L, rfl, by rw [onFrame_self]; exact he⟩
        · rw [if_neg e]
          have hj := iv.mem j
          have hm : onFrame i l s.mem j = s.mem j := onFrame_other (fun h => e h.symm) _ _
          unfold ThreadOK at hj ⊢
          rw [hm]
          exact hj
  | @done i h =>
    have hi := iv.mem i
    rw [h] at hi
    obtain ⟨L, hl, he⟩ := hi
    cases L with
    | cons => cases hl
    | nil =>
      have hc := countP_set (fun x : Option (List ((Nat → α) → Nat → α)) => x.isNone) h none
      simp at hc
      refine ⟨by simpa using iv.len, ?_, ?_, ?_⟩
      · have h2 := iv.cnt; simp only; omega
      · intro hr
        exfalso
        have h1 := iv.ret hr
        have h2 := iv.cnt
        have h3 : (s.threads.set i none).countP (fun x => x.isNone) ≤ (s.threads.set i none).length := List.countP_le_length
        simp at h3; omega
      · intro j
        dsimp only
        rw [List.getElem?_set]
        by_cases e : i = j
        · subst e
          rw [if_pos rfl, if_pos (List.getElem?_eq_some_iff.1 h).1]
          exact he
        · rw [if_neg e]; exact iv.mem j
  | wait h hc hr => exact ⟨iv.len, iv.cnt, fun _ => ⟨h, hc⟩, iv.mem⟩

theorem Fork.Inv.steps {n m : Nat} {P : Nat → List (α → α)} {m0 : Nat → α} {s t : Fork (Nat → α)} (iv : Fork.Inv n P m0 s)
    (st : Fork.Steps n (fun i => (P i).map (onFrame i)) m s t) : Fork.Inv n P m0 t := by
  induction st with
  | refl => exact iv
  | tail _ b ih => exact (ih iv).step b

/-- When the caller is back, every goroutine has run to its end. -/
theorem fork_result {n m : Nat} {P : Nat → List (α → α)} {m0 : Nat → α} {t : Fork (Nat → α)}
    (st : Fork.Steps n (fun i => (P i).map (onFrame i)) m (Fork.init n m0) t) (hr : t.returned = true) {i : Nat} (hi : i < n) :
    t.mem i = execOps (P i) (m0 i) ∧ t.threads[i]? = some none := by
  have iv := (Fork.Inv.init n P m0).steps st
  obtain ⟨h1, h2⟩ := iv.ret hr
  have h3 := iv.cnt
  have hall : t.threads.countP (fun x => x.isNone) = t.threads.length := by omega
  have h4 := List.countP_eq_length.1 hall t.threads[i] (List.getElem_mem (by omega))
  have h5 : t.threads[i]? = some none := by
    rw [List.getElem?_eq_getElem (by omega)]
    rw [Option.isNone_iff_eq_none.1 h4]
  have h6 := iv.mem i
  rw [h5] at h6
  exact ⟨h6, h5⟩

/-- The caller is never blocked for ever. -/
theorem fork_never_blocked {n : Nat} {P : Nat → List (α → α)} {m0 : Nat → α} {s : Fork (Nat → α)} (iv : Fork.Inv n P m0 s)
    (hr : s.returned = false) : ∃ t, Fork.Step n (fun i => (P i).map (onFrame i)) s t := by
  by_cases h : s.threads.length < n
  · exact ⟨_, .start h⟩
  · have hl : s.threads.length = n := by have := iv.len; omega
    by_cases hc : s.counter = 0
    · exact ⟨_, .wait hl hc hr⟩
    · have h3 := iv.cnt
      have hlt : ¬ ∀ x ∈ s.threads, x.isNone = true := by
        intro hall
        have : s.threads.countP (·.isNone) = _ := List.countP_eq_length.2 hall
        omega
      push Not at hlt
      obtain ⟨x, hx, hn⟩ := hlt
      obtain ⟨i, hi⟩ := List.getElem?_of_mem hx
      cases x with
      | none => simp at hn
      | some l =>
        cases l with
        | nil => exact ⟨_, .done hi⟩
        | cons o os => exact ⟨_, .op hi⟩

/-- What is left to do. -/
def Fork.weight (n : Nat) (prog : Nat → List (σ → σ)) (s : Fork σ) : Nat :=
  (s.threads.map fun x => match x with | none => 0 | some l => l.length + 1).sum +
  ((List.range' s.threads.length (n - s.threads.length)).map fun i => (prog i).length + 2).sum + (if s.returned then 0 else 1)

theorem Fork.weight_step {n : Nat} {prog : Nat → List (σ → σ)} {s t : Fork σ} (st : Fork.Step n prog s t) :
    t.weight n prog < s.weight n prog := by
  unfold Fork.weight
  cases st with
  | start h =>
    have : n - s.threads.length = (n - (s.threads.length + 1)) + 1 := by omega
    dsimp only
    rw [this, List.range'_succ]
    simp only [List.map_append, List.map_cons, List.map_nil, List.sum_append, List.sum_cons, List.sum_nil, List.length_append,
      List.length_cons, List.length_nil, Nat.zero_add]
    omega
  | @op i o os h =>
    have h2 := sum_set (fun x : Option (List (σ → σ)) => match x with | none => 0 | some l => l.length + 1) s.threads i _ (some os) h
    dsimp only at h2 ⊢
    rw [List.length_set]
    simp only [List.length_cons] at h2
    omega
  | @done i h =>
    have h2 := sum_set (fun x : Option (List (σ → σ)) => match x with | none => 0 | some l => l.length + 1) s.threads i _ none h
    dsimp only at h2 ⊢
    rw [List.length_set]
    simp only [List.length_nil] at h2
    omega
  | wait h hc hr => simp [hr]

theorem Fork.weight_steps {n m : Nat} {prog : Nat → List (σ → σ)} {s t : Fork σ} (st : Fork.Steps n prog m s t) :
    m + t.weight n prog ≤ s.weight n prog := by
  induction st with
  | refl => omega
  | tail a b ih => have := Fork.weight_step b; omega

/-! ### The goroutine of a part -/

theorem kindHeader_list (h : Heap F) (t : Nat) (k : Kind) :
    hdrList (kindHeader h t k).2 (kindHeader h t k).1 = sinsertAll [] (namesOf (h.tab t) k) := by
  unfold kindHeader
  split
  · rename_i e; rw [e]; rfl
  · simp only [hdrList, Heap.newHdr_fst, Heap.newHdr_hdr]

/-- The columns that are written, as a function of the table and the string marks. -/
theorem csvHeader_eq {d : DF} {h : Heap F} (wf : d.toRaw.WF h) (ord : Kind → List GoStr → List GoStr) :
    (d.csvHeader ord h).1 =
      (ord .bool (sinsertAll [] (namesOf (h.tab d.tab) .bool))).map (fun c => (Kind.bool, c)) ++
      (ord .int (sinsertAll [] (namesOf (h.tab d.tab) .int))).map (fun c => (Kind.int, c)) ++
      (ord .float (sinsertAll [] (namesOf (h.tab d.tab) .float))).map (fun c => (Kind.float, c)) ++
      (ord .obj (sinsertAll [] (hdrList h d.strHdr))).map (fun c => (Kind.obj, c)) ∧
    (d.csvHeader ord h).2.tab = h.tab ∧ (d.csvHeader ord h).2.arr = h.arr := by
  have l1 := kindHeader_list h d.tab .bool
  have a1 := kindHeader_spec h d.tab .bool
  have r1 := kindHeader_arr h d.tab .bool
  unfold DF.csvHeader
  generalize kindHeader h d.tab .bool = p1 at l1 a1 r1
  obtain ⟨b, h1⟩ := p1
  dsimp only at l1 a1 r1 ⊢
  have l2 := kindHeader_list h1 d.tab .int
  have a2 := kindHeader_spec h1 d.tab .int
  have r2 := kindHeader_arr h1 d.tab .int
  generalize kindHeader h1 d.tab .int = p2 at l2 a2 r2
  obtain ⟨i, h2⟩ := p2
  dsimp only at l2 a2 r2 ⊢
  have l3 := kindHeader_list h2 d.tab .float
  have a3 := kindHeader_spec h2 d.tab .float
  have r3 := kindHeader_arr h2 d.tab .float
  generalize kindHeader h2 d.tab .float = p3 at l3 a3 r3
  obtain ⟨f, h3⟩ := p3
  dsimp only at l3 a3 r3 ⊢
  rw [a1.2.1] at l2
  rw [a2.2.1, a1.2.1] at l3
  refine ⟨?_, by rw [a3.2.1, a2.2.1, a1.2.1], by rw [r3, r2, r1]⟩
  rw [l1, l2, l3, hdrList_ext ((a1.1.trans a2.1).trans a3.1) wf.str_lt]

theorem csvHeader_ext {d : DF} {h h' : Heap F} (wf : d.toRaw.WF h) (e : Heap.Ext h h') (ord : Kind → List GoStr → List GoStr) :
    (d.csvHeader ord h').1 = (d.csvHeader ord h).1 := by
  rw [(csvHeader_eq wf ord).1, (csvHeader_eq (wf.ext e) ord).1, e.tab _ wf.tab_lt, hdrList_ext e wf.str_lt]

section
variable [GoFloat F] {ff : F → GoStr} {marker : GoStr}

theorem csvFillCol_congr {h h' : Heap F} {k : Kind} {s : Slice} (e : ∀ r, h'.cell s r = h.cell s r) (col : Nat) (is : List Nat) (i : Nat)
    (b : List (List GoStr)) : csvFillCol ff marker h' k s col is i b = csvFillCol ff marker h k s col is i b := by
  induction is generalizing i b with
  | nil => rfl
  | cons r is ih => simp only [csvFillCol, e, ih]

theorem csvFill_congr {h h' : Heap F} {t : Table} (e : ∀ kc r, h'.cell (tabCol t kc) r = h.cell (tabCol t kc) r) (is : List Nat)
    (cs : List (Kind × GoStr)) (col : Nat) (b : List (List GoStr)) :
    csvFill ff marker h' t is cs col b = csvFill ff marker h t is cs col b := by
  induction cs generalizing col b with
  | nil => rfl
  | cons c cs ih => simp only [csvFill, csvFillCol_congr (e _), ih]

theorem csvLoop_congr {h h' : Heap F} {t : Table} (e : ∀ kc r, h'.cell (tabCol t kc) r = h.cell (tabCol t kc) r) (rows : List Nat)
    (cs : List (Kind × GoStr)) (n j : Nat) (b : List (List GoStr)) (w : CsvSink) :
    csvLoop ff marker h' t rows cs n j b w = csvLoop ff marker h t rows cs n j b w := by
  induction n generalizing j b w with
  | zero => rfl
  | succ n ih => simp only [csvLoop, csvFill_congr e, ih]

omit [GoFloat F] in
theorem cells_ext {d : DF} {h h' : Heap F} (wf : d.toRaw.WF h) (e : Heap.Ext h h') (kc : Kind × GoStr) (r : Nat) :
    h'.cell (tabCol (h.tab d.tab) kc) r = h.cell (tabCol (h.tab d.tab) kc) r := by
  unfold tabCol
  cases hg : AMap.get (h.tab d.tab) kc with
  | none => simp [Heap.cell, Slice.nil]
  | some s =>
    have := wf.slices kc s hg
    simp only [Option.getD_some]
    rw [Heap.cell_congr]
    rcases this with ⟨h1, h2⟩
    rcases h2 with h2 | h2
    · left; omega
    · right; exact e.arr _ h2.1

/-- The result of `To1CSV` without the new maps. -/
theorem to1CSV_eq {d : DF} {h : Heap F} (wf : d.toRaw.WF h) {opt : CSVWritingSpec} (hm : opt.maintainOrder = true)
    (ord : Kind → List GoStr → List GoStr) (w : CsvSink) :
    d.to1CSV ff ord w opt h =
      match (if opt.comma ≠ 0 then { w with comma := opt.comma } else w).write ((d.csvHeader ord h).1.map (·.2)) with
      | (false, w) => .ok ((false, w.flush), (d.csvHeader ord h).2)
      | (true, w) =>
        match csvLoop ff opt.missingMarker h (h.tab d.tab) d.rows (d.csvHeader ord h).1 d.numRows 0
            (List.replicate csvBatch (List.replicate (d.csvHeader ord h).1.length [])) w with
        | .error e => .error e
        | .ok (ok, w) => .ok ((ok, w.flush), (d.csvHeader ord h).2) := by
  unfold DF.to1CSV
  simp only [sortIfNeeded_eq (df := d) (m := opt.maintainOrder) (Or.inl hm)]
  obtain ⟨-, h2, h3⟩ := csvHeader_eq wf ord
  generalize d.csvHeader ord h = q at h2 h3
  obtain ⟨cols, h'⟩ := q
  dsimp only at h2 h3 ⊢
  rw [h2]
  have : ∀ kc r, h'.cell (tabCol (h.tab d.tab) kc) r = h.cell (tabCol (h.tab d.tab) kc) r :=
    fun kc r => by rw [Heap.cell_congr]; right; rw [h3]
  simp only [csvLoop_congr this]
  rfl

/-- More objects in memory make no difference. -/
theorem to1CSV_ext {d : DF} {h h' h1 : Heap F} (wf : d.toRaw.WF h) (e : Heap.Ext h h') {opt : CSVWritingSpec}
    (hm : opt.maintainOrder = true) {ord : Kind → List GoStr → List GoStr} {w : CsvSink} {o : Bool × CsvSink}
    (hr : d.to1CSV ff ord w opt h' = .ok (o, h1)) : ∃ h2, d.to1CSV ff ord w opt h = .ok (o, h2) := by
  rw [to1CSV_eq (wf.ext e) hm, csvHeader_ext wf e, e.tab _ wf.tab_lt] at hr
  rw [to1CSV_eq wf hm]
  simp only [csvLoop_congr (cells_ext wf e)] at hr
  generalize CsvSink.write _ _ = p at hr ⊢
  obtain ⟨b, w1⟩ := p
  cases b with
  | false => cases hr; exact ⟨_, rfl⟩
  | true =>
    dsimp only at hr ⊢
    generalize csvLoop ff opt.missingMarker h _ _ _ _ _ _ _ = q at hr ⊢
    cases q with
    | error e => cases hr
    | ok q => cases hr; exact ⟨_, rfl⟩

/-- The accesses after the return of an error do nothing. -/
theorem exec_after {h : Heap F} {t : Table} {rows : List Nat} {cols : List (Kind × GoStr)} (bs : List Nat) (o : CsvOut) (b : Bool)
    (ho : o.ret = some b) :
    execOps (bs.flatMap fun b => [csvOutFill ff marker h t rows cols (b * csvBatch), csvOutWrite rows (b * csvBatch)]) o = o := by
  induction bs with
  | nil => rfl
  | cons x bs ih =>
    have e1 : csvOutFill ff marker h t rows cols (x * csvBatch) o = o := by unfold csvOutFill; rw [ho]
    have e2 : csvOutWrite rows (x * csvBatch) o = o := by unfold csvOutWrite; rw [ho]
    simp only [List.flatMap_cons, List.cons_append, List.nil_append, execOps_cons, e1, e2, ih]

theorem exec_batches {h : Heap F} {t : Table} {rows : List Nat} {cols : List (Kind × GoStr)} (k : Nat) :
    ∀ {n b : Nat} {batch : List (List GoStr)} {w : CsvSink} {ok : Bool} {w' : CsvSink},
    csvLoop ff marker h t rows cols n (b * csvBatch) batch w = .ok (ok, w') → rows.length ≤ n + b * csvBatch →
    b + k = csvNumBatches rows.length ∨ (k = 0 ∧ csvNumBatches rows.length ≤ b) →
    ∃ bt, execOps ((List.range' b k).flatMap fun b =>
        [csvOutFill ff marker h t rows cols (b * csvBatch), csvOutWrite rows (b * csvBatch)]) ⟨w, batch, none⟩ =
      ⟨w', bt, if ok then none else some false⟩ := by
  have hB : csvBatch = 256 := rfl
  have hN : csvNumBatches rows.length = (rows.length + 255) / 256 := rfl
  induction k with
  | zero =>
    intro n b batch w ok w' e hn hk
    have hge : ¬ b * csvBatch < rows.length := by rw [hB]; omega
    have : csvLoop ff marker h t rows cols n (b * csvBatch) batch w = .ok (true, w) := by
      cases n with
      | zero => rfl
      | succ n => unfold csvLoop; rw [if_neg hge]
    rw [this] at e
    cases e
    exact ⟨batch, rfl⟩
  | succ k ih =>
    intro n b batch w ok w' e hn hk
    have hlt : b * csvBatch < rows.length := by rw [hB]; omega
    cases n with
    | zero => omega
    | succ n =>
      unfold csvLoop at e
      rw [if_pos hlt] at e
      dsimp only at e
      have he : (if b * csvBatch + csvBatch > rows.length then rows.length else b * csvBatch + csvBatch) - b * csvBatch =
          min csvBatch (rows.length - b * csvBatch) := by split <;> omega
      have hs : (rows.take (if b * csvBatch + csvBatch > rows.length then rows.length else b * csvBatch + csvBatch)).drop (b * csvBatch) =
          (rows.drop (b * csvBatch)).take csvBatch := by
        rw [List.drop_take, he]
        rw [← List.length_drop, ← List.take_eq_take_min]
      rw [he, hs] at e
      rw [List.range'_succ, List.flatMap_cons]
      simp only [List.cons_append, List.nil_append, execOps_cons]
      cases hf : csvFill ff marker h t ((rows.drop (b * csvBatch)).take csvBatch) cols 0 batch with
      | error x => rw [hf] at e; cases e
      | ok batch' =>
        rw [hf] at e
        dsimp only at e
        have e1 : csvOutFill ff marker h t rows cols (b * csvBatch) ⟨w, batch, none⟩ = ⟨w, batch', none⟩ := by
          unfold csvOutFill; simp only [hf]
        rw [e1]
        cases hw : w.writeAll (batch'.take (min csvBatch (rows.length - b * csvBatch))) with
        | mk r w1 =>
          rw [hw] at e
          cases r with
          | false =>
            cases e
            have e2 : csvOutWrite rows (b * csvBatch) ⟨w, batch', none⟩ = ⟨w', batch', some false⟩ := by
              unfold csvOutWrite; simp only [hw]
            rw [e2, exec_after _ _ false rfl]
            exact ⟨batch', rfl⟩
          | true =>
            have e2 : csvOutWrite rows (b * csvBatch) ⟨w, batch', none⟩ = ⟨w1, batch', none⟩ := by
              unfold csvOutWrite; simp only [hw]
            rw [e2]
            dsimp only at e
            rw [show b * csvBatch + csvBatch = (b + 1) * csvBatch by rw [Nat.add_mul, Nat.one_mul]] at e
            exact ih e (by rw [Nat.add_mul]; omega) (by omega)

/-- The goroutine of a part does what `To1CSV` does. -/
theorem csvOut_run {d : DF} {h h1 : Heap F} (wf : d.toRaw.WF h) {opt : CSVWritingSpec} (hm : opt.maintainOrder = true)
    {ord : Kind → List GoStr → List GoStr} {w : CsvSink} {ok : Bool} {w' : CsvSink} (b0 : List (List GoStr))
    (hr : d.to1CSV ff ord w opt h = .ok ((ok, w'), h1)) :
    ∃ b, execOps (csvOutOps ff opt h d (d.csvHeader ord h).1) ⟨w, b0, none⟩ = ⟨w', b, some ok⟩ := by
  rw [to1CSV_eq wf hm] at hr
  unfold csvOutOps
  rw [execOps_append, execOps_append]
  simp only [execOps_cons, execOps_nil]
  unfold csvOutHead
  dsimp only
  generalize hq : CsvSink.write _ _ = p at hr ⊢
  obtain ⟨b, w1⟩ := p
  cases b with
  | false =>
    cases hr
    dsimp only
    rw [exec_after _ _ false rfl]
    exact ⟨_, rfl⟩
  | true =>
    dsimp only at hr ⊢
    generalize hl : csvLoop ff opt.missingMarker h _ _ _ _ _ _ _ = q at hr
    cases q with
    | error e => cases hr
    | ok q =>
      obtain ⟨ok', w2⟩ := q
      cases hr
      obtain ⟨bt, e⟩ := exec_batches (csvNumBatches d.rows.length) (n := d.numRows) (b := 0)
        (by rw [Nat.zero_mul]; exact hl) (by simp [DF.numRows]) (Or.inl (by omega))
      rw [List.range_eq_range', show d.numRows = d.rows.length from rfl, e]
      refine ⟨bt, ?_⟩
      cases ok <;> rfl

end

end Verif
