import Verif.Model.Threads
import Verif.Proofs.PoolMem
import Verif.Proofs.CSVParsing

/-! Goroutines with a memory of their own: what is left in their memory at the end. -/

namespace Verif
variable {σ α F : Type}

theorem pool_step_change {c c' : PoolCfg σ} (hd : c.deferred = c'.deferred) {s t : Pool σ} (st : Pool.Step c s t)
    (hk : t.keys = s.keys ∨ s.keys = [] :: t.keys) : Pool.Step c' s t := by
  cases st with
  | spawn h => exact .spawn h
  | wait h => exact .wait h
  | recv h he => exact .recv h he
  | close h => exact .close h
  | @take i p k ks hw hk' hne =>
    dsimp only at hk
    rw [hk'] at hk
    rcases hk with hk | hk
    · exact absurd (congrArg List.length hk) (by simp)
    · injection hk with a b; exact absurd a hne
  | stop hw hk' => exact .stop hw hk'
  | stopEmpty hw hk' => exact .stopEmpty hw hk'
  | op hw => exact .op hw
  | fin hw => rw [hd]; exact .fin hw
  | send hw hb hc => exact .send hw hb hc
  | drainSend hw hb hc => exact .drainSend hw hb hc
  | exit hw => exact .exit hw
  | crash hw hc => exact .crash hw hc

theorem WPool.Step.toPool {prog : Nat → GoStr → List (σ → σ)} {s t : WPool σ} (st : WPool.Step prog s t) :
    ∃ i, Pool.Step ⟨false, prog i⟩ s.pool t.pool := by
  cases st with
  | @take s T i p k ks hw hk hne => exact ⟨i, .take hw hk hne⟩
  | @other s t T st hk => exact ⟨0, pool_step_change (c := ⟨false, fun _ => []⟩) (c' := ⟨false, prog 0⟩) rfl st hk⟩

theorem winv_steps {prog : Nat → GoStr → List (σ → σ)} {all : List GoStr} {W n : Nat} {s t : WPool σ}
    (iv : Pool.Inv all W s.pool) (st : WPool.Steps prog n s t) : Pool.Inv all W t.pool := by
  induction st with
  | refl => exact iv
  | tail _ b ih => obtain ⟨i, h⟩ := b.toPool; exact inv_step (ih iv) h

theorem weight_cfg {c c' : PoolCfg σ} (h : ∀ k, (c.prog k).length = (c'.prog k).length) (s : Pool σ) : s.weight c = s.weight c' := by
  unfold Pool.weight; simp [h]

theorem wweight_steps {prog : Nat → GoStr → List (σ → σ)} (hl : ∀ i k, (prog i k).length = (prog 0 k).length)
    {all : List GoStr} {W n : Nat} {s t : WPool σ} (iv : Pool.Inv all W s.pool) (st : WPool.Steps prog n s t) :
    n + t.pool.weight ⟨false, prog 0⟩ ≤ s.pool.weight ⟨false, prog 0⟩ := by
  induction st with
  | refl => omega
  | tail a b ih =>
    obtain ⟨i, h⟩ := b.toPool
    have h1 := weight_step (winv_steps iv a) h
    rw [weight_cfg (c := ⟨false, prog i⟩) (c' := ⟨false, prog 0⟩) (hl i), weight_cfg (c := ⟨false, prog i⟩) (c' := ⟨false, prog 0⟩) (hl i)] at h1
    have h2 := ih iv
    omega

theorem wpool_never_blocked (prog : Nat → GoStr → List (σ → σ)) {all : List GoStr} {W : Nat} {s : WPool σ}
    (iv : Pool.Inv all W s.pool) (hne : [] ∉ all) (hW : 0 < W) (hcl : s.pool.caller ≠ .returned) :
    ∃ t, WPool.Step prog s t := by
  obtain ⟨t, st⟩ := caller_never_blocked ⟨false, fun _ => []⟩ iv hne hW hcl
  have key : (t.keys = s.pool.keys ∨ s.pool.keys = [] :: t.keys) → ∃ t, WPool.Step prog s t :=
    fun h => ⟨⟨t, s.taken⟩, .other st h⟩
  cases st with
  | take hw hk hne => exact ⟨_, .take hw hk hne⟩
  | stopEmpty hw hk => exact key (.inr hk)
  | _ => exact key (.inl rfl)

/-- The accesses left to goroutine number `i`. -/
def leftAt (ws : List (Worker σ)) (i : Nat) : List (σ → σ) := ((ws[i]?).map Worker.left).getD []

theorem leftAt_get {ws : List (Worker σ)} {i : Nat} {w : Worker σ} (h : ws[i]? = some w) : leftAt ws i = w.left := by
  simp [leftAt, h]

theorem leftAt_set {ws : List (Worker σ)} {i : Nat} {w : Worker σ} (h : ws[i]? = some w) (w' : Worker σ) (j : Nat) :
    leftAt (ws.set i w') j = if j = i then w'.left else leftAt ws j := by
  have hi := (List.getElem?_eq_some_iff.1 h).1
  unfold leftAt
  rw [List.getElem?_set]
  by_cases e : j = i
  · subst e; simp [hi]
  · rw [if_neg (fun h => e h.symm), if_neg e]

theorem leftAt_same {ws : List (Worker σ)} {i : Nat} {w w' : Worker σ} (h : ws[i]? = some w) (e : w'.left = w.left) (j : Nat) :
    leftAt (ws.set i w') j = leftAt ws j := by
  rw [leftAt_set h]
  split
  · rename_i e'; subst e'; rw [leftAt_get h, e]
  · rfl

theorem leftAt_spawn (ws : List (Worker σ)) (j : Nat) : leftAt (ws ++ [.next []]) j = leftAt ws j := by
  unfold leftAt
  rw [List.getElem?_append]
  split
  · rfl
  · rename_i h
    rw [List.getElem?_eq_none (l := ws) (by omega)]
    cases hj : j - ws.length <;> simp [Worker.left]

/-- The jobs that goroutine number `i` took. -/
def takenBy (T : List (Nat × GoStr)) (i : Nat) : List GoStr := (T.filter fun p => decide (p.1 = i)).map (·.2)

theorem takenBy_snoc (T : List (Nat × GoStr)) (i j : Nat) (k : GoStr) :
    takenBy (T ++ [(i, k)]) j = if j = i then takenBy T j ++ [k] else takenBy T j := by
  unfold takenBy
  rw [List.filter_append, List.map_append]
  by_cases e : j = i
  · subst e; simp
  · rw [if_neg e]; simp [show ¬ i = j from fun h => e h.symm]

/-- What holds in every reachable state of goroutines that only use their own memory. -/
structure WInv (job : GoStr → List (α → α)) (m0 : Nat → α) (order : List GoStr) (s : WPool (Nat → α)) : Prop where
  left : ∀ i, ∃ L, leftAt s.pool.workers i = L.map (onFrame i) ∧
    execOps L (s.pool.mem i) = execOps ((takenBy s.taken i).flatMap job) (m0 i)
  order : s.taken.map (·.2) ++ s.pool.keys = order
  idx : ∀ p ∈ s.taken, p.1 < s.pool.workers.length

theorem WInv.init (job : GoStr → List (α → α)) (m0 : Nat → α) (keys order : List GoStr) (mw : Int) :
    WInv job m0 order (WPool.init keys order mw m0) :=
  ⟨fun i => ⟨[], by simp [WPool.init, Pool.init, leftAt], by simp [WPool.init, Pool.init, takenBy]⟩,
    by simp [WPool.init, Pool.init], by simp [WPool.init]⟩

theorem onFrame_self (i : Nat) (o : α → α) (m : Nat → α) : onFrame i o m i = o (m i) := by simp [onFrame]
theorem onFrame_other {i j : Nat} (h : j ≠ i) (o : α → α) (m : Nat → α) : onFrame i o m j = m j := by simp [onFrame, h]

theorem WInv.step {job : GoStr → List (α → α)} {m0 : Nat → α} {order : List GoStr} {s t : WPool (Nat → α)}
    (hne : [] ∉ order) (iv : WInv job m0 order s) (st : WPool.Step (fun i k => (job k).map (onFrame i)) s t) :
    WInv job m0 order t := by
  have keep : ∀ {s t : Pool (Nat → α)} {T}, WInv job m0 order ⟨s, T⟩ → (∀ j, leftAt t.workers j = leftAt s.workers j) →
      t.mem = s.mem → t.keys = s.keys → s.workers.length ≤ t.workers.length → WInv job m0 order ⟨t, T⟩ := by
    intro s t T iv h1 h2 h3 h4
    refine ⟨fun i => ?_, ?_, fun p hp => Nat.lt_of_lt_of_le (iv.idx p hp) h4⟩
    · obtain ⟨L, a, b⟩ := iv.left i
      exact ⟨L, (h1 i).trans a, by rw [h2]; exact b⟩
    · rw [h3]; exact iv.order
  cases st with
  | @take s T i p k ks hw hk hn =>
    refine ⟨fun j => ?_, ?_, ?_⟩
    · obtain ⟨L, a, b⟩ := iv.left j
      dsimp only at a b ⊢
      rw [leftAt_set hw, takenBy_snoc]
      by_cases e : j = i
      · subst e
        rw [leftAt_get hw] at a
        have : L = [] := by simpa [Worker.left] using a.symm
        subst this
        refine ⟨job k, by simp [Worker.left], ?_⟩
        rw [if_pos rfl, List.flatMap_append, execOps_append, ← b]; simp
      · exact ⟨L, by rw [if_neg e]; exact a, by rw [if_neg e]; exact b⟩
    · have := iv.order
      simp only [hk] at this
      rw [← this]; simp
    · intro q hq
      simp only [List.length_set]
      rcases List.mem_append.1 hq with hq | hq
      · exact iv.idx q hq
      · simp only [List.mem_singleton] at hq; subst hq; exact (List.getElem?_eq_some_iff.1 hw).1
  | @other s t T st hk =>
    have hkeys := iv.order
    cases st with
    | spawn h => exact keep iv (leftAt_spawn _) rfl rfl (by simp)
    | wait => exact keep iv (fun _ => rfl) rfl rfl (Nat.le_refl _)
    | recv => exact keep iv (fun _ => rfl) rfl rfl (Nat.le_refl _)
    | close => exact keep iv (fun _ => rfl) rfl rfl (Nat.le_refl _)
    | crash => exact keep iv (fun _ => rfl) rfl rfl (Nat.le_refl _)
    | @take i p k ks hw hk' hn =>
      dsimp only at hk
      rw [hk'] at hk
      rcases hk with hk | hk
      · exact absurd (congrArg List.length hk) (by simp)
      · injection hk with a b; exact absurd a hn
    | stopEmpty hw hk' =>
      dsimp only at hkeys
      rw [hk'] at hkeys
      exact absurd (by rw [← hkeys]; simp) hne
    | stop hw hk' => exact keep iv (leftAt_same hw rfl) rfl rfl (by simp)
    | @op i k o os p hw =>
      refine ⟨fun j => ?_, iv.order, ?_⟩
      · obtain ⟨L, a, b⟩ := iv.left j
        dsimp only at a b ⊢
        rw [leftAt_set hw]
        by_cases e : j = i
        · subst e
          rw [leftAt_get hw] at a
          cases L with
          | nil => simp [Worker.left] at a
          | cons l L =>
            simp only [Worker.left, List.map_cons, List.cons.injEq] at a
            obtain ⟨rfl, rfl⟩ := a
            exact ⟨L, by simp [Worker.left], by rw [onFrame_self]; exact b⟩
        · -- the access is that of another goroutine
          obtain ⟨L', a', -⟩ := iv.left i
          dsimp only at a'
          rw [leftAt_get hw] at a'
          cases L' with
          | nil => simp [Worker.left] at a'
          | cons l L' =>
            simp only [Worker.left, List.map_cons, List.cons.injEq] at a'
            obtain ⟨rfl, rfl⟩ := a'
            exact ⟨L, by rw [if_neg e]; exact a, by rw [onFrame_other e]; exact b⟩
      · intro q hq; simp only [List.length_set]; exact iv.idx q hq
    | fin hw => exact keep iv (leftAt_same hw rfl) rfl rfl (by simp)
    | send hw hb hc => exact keep iv (leftAt_same hw rfl) rfl rfl (by simp)
    | drainSend hw hb hc => exact keep iv (leftAt_same hw rfl) rfl rfl (by simp)
    | exit hw => exact keep iv (leftAt_same hw rfl) rfl rfl (by simp)

theorem WInv.steps {job : GoStr → List (α → α)} {m0 : Nat → α} {order : List GoStr} {n : Nat} {s t : WPool (Nat → α)}
    (hne : [] ∉ order) (iv : WInv job m0 order s) (st : WPool.Steps (fun i k => (job k).map (onFrame i)) n s t) :
    WInv job m0 order t := by
  induction st with
  | refl => exact iv
  | tail _ b ih => exact (ih iv).step hne b

/-- When the caller is back, the memory of each goroutine is the result of the jobs that it took, one after the other. -/
theorem wpool_result {job : GoStr → List (α → α)} {m0 : Nat → α} {keys order : List GoStr} (hp : order.Perm keys) {mw : Int}
    {n : Nat} {t : WPool (Nat → α)}
    (st : WPool.Steps (fun i k => (job k).map (onFrame i)) n (WPool.init keys order mw m0) t)
    (hr : t.pool.caller = .returned) :
    (∀ i, t.pool.mem i = execOps ((takenBy t.taken i).flatMap job) (m0 i)) ∧ t.taken.map (·.2) = order ∧
    ∀ p ∈ t.taken, p.1 < (queueWorkers keys mw).toNat := by
  have iv := winv_steps (inv_init hp mw m0) st
  obtain ⟨hidle, hkeys, hne⟩ := returned_idle iv hr
  have wi := (WInv.init job m0 keys order mw).steps (fun h => hne (hp.mem_iff.1 h)) st
  refine ⟨fun i => ?_, by simpa [hkeys] using wi.order, fun p hp => ?_⟩
  · obtain ⟨L, a, b⟩ := wi.left i
    have : leftAt t.pool.workers i = [] := by
      unfold leftAt
      cases hw : t.pool.workers[i]? with
      | none => rfl
      | some w =>
        cases w with
        | run k os p =>
          exfalso
          have h1 := hidle k
          have h2 := mem_sum_le (fun w : Worker (Nat → α) => w.running.count k) t.pool.workers i _ hw
          unfold rsum at h1
          rw [h1] at h2
          simp [Worker.running] at h2
        | _ => rfl
    rw [this] at a
    have : L = [] := by simpa using a.symm
    subst this
    exact b
  · have := (iv.fin hr).2
    have := wi.idx p hp
    omega

theorem mem_takenBy {T : List (Nat × GoStr)} {i : Nat} {c : GoStr} : c ∈ takenBy T i ↔ (i, c) ∈ T := by
  unfold takenBy; simp

theorem takenBy_nodup {T : List (Nat × GoStr)} (h : (T.map (·.2)).Nodup) (i : Nat) : (takenBy T i).Nodup :=
  h.sublist (List.filter_sublist.map _)

theorem taken_unique {T : List (Nat × GoStr)} (h : (T.map (·.2)).Nodup) {i j : Nat} {c : GoStr} (hi : (i, c) ∈ T) (hj : (j, c) ∈ T) :
    i = j := by
  have := List.inj_on_of_nodup_map h hi hj rfl
  injection this

/-! ### The jobs of FromCSV -/

theorem foldl_set_range {β : Type} (v : Nat → β) (l : List β) :
    (List.range l.length).foldl (fun l i => l.set i (v i)) l = (List.range l.length).map v := by
  have key : ∀ n, n ≤ l.length → ∀ (j : Nat),
      ((List.range n).foldl (fun l i => l.set i (v i)) l)[j]? = if j < n then some (v j) else l[j]? := by
    intro n
    induction n with
    | zero => intro _ j; simp
    | succ n ih =>
      intro hn j
      rw [List.range_succ, List.foldl_append]
      simp only [List.foldl_cons, List.foldl_nil, List.getElem?_set]
      have hlen : ((List.range n).foldl (fun l i => l.set i (v i)) l).length = l.length := by
        have : ∀ (is : List Nat) (l : List β), (is.foldl (fun l i => l.set i (v i)) l).length = l.length := by
          intro is
          induction is with
          | nil => intro l; rfl
          | cons i is ih => intro l; rw [List.foldl_cons, ih]; simp
        exact this _ _
      by_cases e : n = j
      · subst e; rw [if_pos rfl, if_pos (by omega), if_pos (by omega)]
      · rw [if_neg e, ih (by omega)]
        by_cases hj : j < n
        · rw [if_pos hj, if_pos (by omega)]
        · rw [if_neg hj, if_neg (by omega)]
  apply List.ext_getElem?
  intro j
  rw [key _ (Nat.le_refl _)]
  by_cases hj : j < l.length
  · rw [if_pos hj]; simp [hj]
  · rw [if_neg hj, List.getElem?_eq_none (by omega), List.getElem?_eq_none (by simp; omega)]

theorem exec_missing (spec : CSVReadingSpec) (cells : List GoStr) (is : List Nat) (f : CsvFrame F) :
    execOps (is.map (fun i (f : CsvFrame F) => { f with missing := f.missing.set i (decide (cells.getD i [] ∈ spec.missingValues)) })) f =
      { f with missing := is.foldl (fun l i => l.set i (decide (cells.getD i [] ∈ spec.missingValues))) f.missing } := by
  induction is generalizing f with
  | nil => rfl
  | cons i is ih => rw [List.map_cons, execOps_cons, ih]; rfl

theorem exec_buf [GoFloat F] (pf : GoStr → Option F) (cells : List GoStr) (is : List Nat) (f : CsvFrame F) :
    execOps (is.map (fun i (f : CsvFrame F) => { f with buf := f.buf.set i (csvValue pf f.kind (cells.getD i []) (f.missing.getD i false)) })) f =
      { f with buf := is.foldl (fun l i => l.set i (csvValue pf f.kind (cells.getD i []) (f.missing.getD i false))) f.buf } := by
  induction is generalizing f with
  | nil => rfl
  | cons i is ih => rw [List.map_cons, execOps_cons, ih]; rfl

theorem range_getD_map {β γ : Type} (l : List β) (d : β) (g : β → γ) : (List.range l.length).map (fun i => g (l.getD i d)) = l.map g := by
  apply List.ext_getElem
  · simp
  · intro i h1 h2; simp at h1; simp [h1]

theorem range_zip_map {β γ δ : Type} (l : List β) (d : β) (m : List γ) (e : γ) (hm : m.length = l.length) (g : β × γ → δ) :
    (List.range l.length).map (fun i => g (l.getD i d, m.getD i e)) = (l.zip m).map g := by
  apply List.ext_getElem
  · simp [hm]
  · intro i h1 h2
    simp at h1
    simp [h1, hm ▸ h1]

theorem csvOps_run [GoFloat F] (pf : GoStr → Option F) (spec : CSVReadingSpec) (cells : List GoStr) (c : GoStr) (f : CsvFrame F)
    (hm : MissOK spec cells.length f.missing) :
    ∃ m k b, MissOK spec cells.length m ∧ execOps (csvOps pf spec cells c) f =
      ⟨m, k, b, AMap.set f.cols ((csvKind pf spec cells).1, c) (csvKind pf spec cells).2,
        if (csvKind pf spec cells).1 = .obj then sinsert f.strs c else f.strs⟩ := by
  -- the kind and the missing values
  have hk : ∃ m, MissOK spec cells.length m ∧
      execOps (csvKindOps pf spec cells) f = { f with missing := m, kind := (csvKind pf spec cells).1 } ∧
      (List.range cells.length).map (fun i => csvValue pf (csvKind pf spec cells).1 (cells.getD i []) (m.getD i false)) =
        (csvKind pf spec cells).2 := by
    unfold csvKindOps csvKind
    split
    · refine ⟨f.missing, hm, rfl, ?_⟩
      exact range_getD_map cells [] (fun v => Val.bool ((parseBool v).getD false))
    · have hmiss : execOps (if spec.missingValues.length > 0 then
          (List.range cells.length).map (fun i (f : CsvFrame F) => { f with missing := f.missing.set i (decide (cells.getD i [] ∈ spec.missingValues)) })
          else []) f = { f with missing := missOf spec cells } := by
        split
        · rw [exec_missing, show List.range cells.length = List.range f.missing.length by rw [hm.len], foldl_set_range, hm.len,
            range_getD_map cells [] (fun v => decide (v ∈ spec.missingValues))]
          rfl
        · rename_i h0
          have h1 : spec.missingValues = [] := List.length_eq_zero_iff.1 (by omega)
          have h2 : f.missing = missOf spec cells := by rw [hm.blank h1, (missOf_ok spec cells).blank h1]
          rw [← h2]; rfl
      rw [execOps_append, hmiss]
      refine ⟨missOf spec cells, missOf_ok spec cells, ?_, ?_⟩
      · simp only [execOps_cons, execOps_nil]
        congr 1
        split
        · rfl
        · split <;> rfl
      · have hl := (missOf_ok spec cells).len
        split
        · exact range_zip_map cells [] (missOf spec cells) false hl (fun p => if p.2 then Val.int (-1) else .int ((parseInt p.1).getD 0))
        · split
          · exact range_zip_map cells [] (missOf spec cells) false hl
              (fun p => if p.2 then Val.float GoFloat.nan else .float ((pf p.1).getD GoFloat.zero))
          · exact range_zip_map cells [] (missOf spec cells) false hl (fun p => if p.2 then Val.nil else .str p.1)
  obtain ⟨m, hm', h1, h2⟩ := hk
  refine ⟨m, (csvKind pf spec cells).1, (csvKind pf spec cells).2, hm', ?_⟩
  unfold csvOps
  rw [execOps_append, execOps_append, execOps_append, h1]
  simp only [execOps_cons, execOps_nil]
  rw [exec_buf]
  dsimp only
  have e := foldl_set_range (fun i => csvValue pf (csvKind pf spec cells).1 (cells.getD i []) (m.getD i false))
    (List.replicate cells.length (csvKind pf spec cells).1.zero)
  rw [List.length_replicate] at e
  rw [e, h2]

/-- What the frame of a goroutine holds after the jobs of the columns `cs`. -/
structure FrameOK [GoFloat F] (pf : GoStr → Option F) (spec : CSVReadingSpec) (cellsOf : GoStr → List GoStr) (n : Nat)
    (cs : List GoStr) (f : CsvFrame F) : Prop where
  miss : MissOK spec n f.missing
  cols : ∀ k c, AMap.get f.cols (k, c) =
    if c ∈ cs ∧ (csvKind pf spec (cellsOf c)).1 = k then some (csvKind pf spec (cellsOf c)).2 else none
  strs : ∀ c, c ∈ f.strs ↔ c ∈ cs ∧ (csvKind pf spec (cellsOf c)).1 = .obj

theorem frameOK_new [GoFloat F] (pf : GoStr → Option F) (spec : CSVReadingSpec) (cellsOf : GoStr → List GoStr) (n : Nat) :
    FrameOK pf spec cellsOf n [] (newCsvFrame n : CsvFrame F) :=
  ⟨⟨by simp [newCsvFrame], fun _ => rfl⟩, by simp [newCsvFrame], by simp [newCsvFrame]⟩

theorem FrameOK.step [GoFloat F] {pf : GoStr → Option F} {spec : CSVReadingSpec} {cellsOf : GoStr → List GoStr}
    {records : List (List GoStr)} {header cs : List GoStr} {f : CsvFrame F} (ok : FrameOK pf spec cellsOf records.length cs f) {c : GoStr}
    (hcell : colCells records (indexOfString c header 0) = .ok (cellsOf c)) (hlen : (cellsOf c).length = records.length)
    (hnew : c ∉ cs) : FrameOK pf spec cellsOf records.length (cs ++ [c]) (execOps (csvJobOps pf spec records header c) f) := by
  unfold csvJobOps
  rw [hcell]
  dsimp only
  obtain ⟨m, k, b, hm, e⟩ := csvOps_run pf spec (cellsOf c) c f (by rw [hlen]; exact ok.miss)
  rw [e]
  rw [hlen] at hm
  refine ⟨hm, ?_, ?_⟩
  · intro k' c'
    rw [AMap.get_set]
    by_cases hc : c' = c
    · subst hc
      by_cases hk : (csvKind pf spec (cellsOf c')).1 = k'
      · subst hk; simp
      · rw [if_neg (by simpa using hk), ok.cols, if_neg (by simp [hnew]), if_neg (by simp [hk])]
    · rw [if_neg (by simp; intro _ h; exact hc h.symm), ok.cols]
      simp [hc]
  · intro c'
    dsimp only
    by_cases hc : c' = c
    · subst hc
      split
      · rename_i h; simp [mem_sinsert, h]
      · rename_i h; simp [h, ok.strs]
    · split
      · simp [mem_sinsert, ok.strs, hc]
      · simp [ok.strs, hc]

theorem frames_run [GoFloat F] {pf : GoStr → Option F} {spec : CSVReadingSpec} {cellsOf : GoStr → List GoStr}
    {records : List (List GoStr)} {header : List GoStr} (ds : List GoStr) : ∀ {cs : List GoStr} {f : CsvFrame F},
    FrameOK pf spec cellsOf records.length cs f → (cs ++ ds).Nodup →
    (∀ c ∈ ds, colCells records (indexOfString c header 0) = .ok (cellsOf c)) → (∀ c ∈ ds, (cellsOf c).length = records.length) →
    FrameOK pf spec cellsOf records.length (cs ++ ds) (execOps (ds.flatMap (csvJobOps pf spec records header)) f) := by
  induction ds with
  | nil => intro cs f ok _ _ _; simpa using ok
  | cons d ds ih =>
    intro cs f ok nd h1 h2
    rw [List.flatMap_cons, execOps_append]
    have nd' : ((cs ++ [d]) ++ ds).Nodup := by simpa using nd
    have := ih (ok.step (h1 d (by simp)) (h2 d (by simp)) (by
      intro hd
      exact (List.nodup_append.1 nd).2.2 d hd d (by simp) rfl)) nd' (fun c hc => h1 c (by simp [hc])) (fun c hc => h2 c (by simp [hc]))
    simpa using this

end Verif
