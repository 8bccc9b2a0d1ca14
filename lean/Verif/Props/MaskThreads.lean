import Verif.Proofs.MaskThreads
import Verif.Props.RowViews

/-! C85: goroutines that mask dataframes at the same time. -/

namespace Verif
variable {F : Type}

/-- **C85**. Goroutines follow the documented pattern (`ZeroMask`/`EmptyMask`, stores into the mask, `MaskView`), each on a
dataframe of its own choice, no two of them with the same mask memory. Whatever the order of their accesses: none panics; they
make a bounded number of accesses and are never stuck before all the `MaskView`s have returned; each `MaskView` returns the view
on the rows that its goroutine asked for; and no dataframe changes at any moment. -/
theorem C85_masks {h : Heap F} {tasks : List MaskTask} (ok : ∀ t ∈ tasks, t.OK h) (apart : tasks.Pairwise MaskTask.Apart)
    {n : Nat} {s : MaskPool F} (st : MaskPool.Steps n (MaskPool.init tasks h) s) :
    n ≤ (tasks.map fun t => 2 * t.df.numRows + t.edits.length + 4).sum ∧
    (∀ d : DF, d.WF h → abs s.heap d = abs h d ∧ locs s.heap d = locs h d ∧ d.WF s.heap) ∧
    (∀ (i : Nat) (task : MaskTask), tasks[i]? = some task → ∃ t, s.threads[i]? = some (task.df, t) ∧ t ≠ .dead ∧
      ∀ v, t = .done v → RowView h task.df s.heap v (task.rows h)) ∧
    ((∀ s', ¬ MaskPool.Step s s') → ∀ (i : Nat) (task : MaskTask), tasks[i]? = some task → ∃ v, s.threads[i]? = some (task.df, .done v)) := by
  obtain ⟨inv, hn⟩ := MaskPool.Steps.inv ok apart st rfl
  refine ⟨?_, fun d wf => inv.frame.others d wf, ?_, ?_⟩
  · have : (MaskPool.init tasks h).left = (tasks.map fun t => 2 * t.df.numRows + t.edits.length + 4).sum := by
      simp only [MaskPool.left, MaskPool.init, List.map_map]; rfl
    omega
  · intro i task hi
    obtain ⟨t, h1, h2, _⟩ := inv.thread i task hi
    refine ⟨t, h1, ?_, ?_⟩
    · rintro rfl; exact h2
    · rintro v rfl
      have hok := ok task (List.mem_of_getElem? hi)
      obtain ⟨v', e, r, _⟩ := maskView_rowView hok.wf (m := task.want h) (by
        intro x hx
        have : x < (task.want h).length := by simp [truePos] at hx; exact hx.1
        rwa [hok.want_length] at this)
      have hv : v' = v := by have := e.symm.trans h2; cases this; rfl
      subst hv
      rw [hok.rows_eq] at r
      exact ⟨(inv.frame.abs v').1.trans r.shows, (inv.frame.abs v').2.trans r.shares, r.wf.safe inv.frame.safe,
        fun d wd => inv.frame.others d wd⟩
  · intro hstuck i task hi
    obtain ⟨t, h1, h2, _⟩ := inv.thread i task hi
    refine Classical.byContradiction fun hno => ?_
    obtain ⟨t', h', e⟩ := MaskThread.step_some (df := task.df) (h := s.heap) (t := t)
      (fun v hv => hno ⟨v, by rw [h1, hv]⟩) (fun hd => by subst hd; exact h2)
    exact hstuck _ ⟨h1, e⟩

/-- **C85**, the executions end: from every reachable state all the `MaskView`s can return. -/
theorem C85_ends {h : Heap F} {tasks : List MaskTask} (ok : ∀ t ∈ tasks, t.OK h) (apart : tasks.Pairwise MaskTask.Apart)
    {n : Nat} {s : MaskPool F} (st : MaskPool.Steps n (MaskPool.init tasks h) s) :
    ∃ m s', n ≤ m ∧ MaskPool.Steps m (MaskPool.init tasks h) s' ∧
      ∀ (i : Nat) (task : MaskTask), tasks[i]? = some task → ∃ v, s'.threads[i]? = some (task.df, .done v) := by
  obtain ⟨k, hk⟩ : ∃ k, k = s.left := ⟨_, rfl⟩
  induction k using Nat.strongRecOn generalizing s n with
  | ind k ih =>
    by_cases hs : ∃ s', MaskPool.Step s s'
    · obtain ⟨s', st'⟩ := hs
      have hlt := st'.left (MaskPool.Steps.inv ok apart st rfl).1
      obtain ⟨m, s2, h1, h2, h3⟩ := ih s'.left (by omega) (.tail st st') rfl
      exact ⟨m, s2, by omega, h2, h3⟩
    · exact ⟨n, s, Nat.le_refl _, st, (C85_masks ok apart st).2.2.2 fun s' st' => hs ⟨s', st'⟩⟩

/-- **C85**, as documented: after `ThreadSafeMasking(true)` on the dataframes, any number of goroutines may mask them at the same
time, the same dataframe or not, views of each other or not: each gets the view on the rows whose last store is `true`. -/
theorem C85_thread_safe {h : Heap F} {tasks : List MaskTask} (wf : ∀ t ∈ tasks, t.df.WF h)
    (safe : ∀ t ∈ tasks, ∃ d : DF, t.df = d.threadSafeMasking true) (inside : ∀ t ∈ tasks, ∀ e ∈ t.edits, e.1 < t.df.numRows)
    {n : Nat} {s : MaskPool F} (st : MaskPool.Steps n (MaskPool.init tasks h) s) :
    n ≤ (tasks.map fun t => 2 * t.df.numRows + t.edits.length + 4).sum ∧
    (∀ d : DF, d.WF h → abs s.heap d = abs h d ∧ locs s.heap d = locs h d ∧ d.WF s.heap) ∧
    (∀ (i : Nat) (task : MaskTask), tasks[i]? = some task → ∃ t, s.threads[i]? = some (task.df, t) ∧ t ≠ .dead ∧
      ∀ v, t = .done v → RowView h task.df s.heap v
        ((List.range task.df.numRows).filter fun p => lastStore task.edits p = some true)) ∧
    ((∀ s', ¬ MaskPool.Step s s') → ∀ (i : Nat) (task : MaskTask), tasks[i]? = some task → ∃ v, s.threads[i]? = some (task.df, .done v)) := by
  have hts : ∀ t ∈ tasks, t.df.mThreadSafe = true := fun t ht => by obtain ⟨d, e⟩ := safe t ht; rw [e]; rfl
  obtain ⟨a, b, c, d⟩ := C85_masks (fun t ht => ⟨wf t ht, .inl (hts t ht), inside t ht⟩)
    (by rw [List.pairwise_iff_getElem]; exact fun i j hi hj _ => .inl (hts _ (List.getElem_mem hi))) st
  refine ⟨a, b, fun i task hi => ?_, d⟩
  obtain ⟨t, h1, h2, h3⟩ := c i task hi
  refine ⟨t, h1, h2, fun v hv => ?_⟩
  have := h3 v hv
  have e : task.rows h = (List.range task.df.numRows).filter fun p => lastStore task.edits p = some true := by
    unfold MaskTask.rows
    apply List.filter_congr
    intro p _
    rw [hts task (List.mem_of_getElem? hi)]
    cases lastStore task.edits p with
    | none => simp
    | some b => cases b <;> simp
  rwa [e] at this

/-! ### Without the thread-safe mode -/

/-- A goroutine runs for a while, alone. -/
inductive MaskRun (df : DF) : MaskThread → Heap F → MaskThread → Heap F → Prop where
  | refl (t h) : MaskRun df t h t h
  | head {t h t1 h1 t2 h2} (e : t.step df h = some (t1, h1)) (r : MaskRun df t1 h1 t2 h2) : MaskRun df t h t2 h2

theorem MaskRun.trans {df : DF} {a b c : MaskThread} {x y z : Heap F} (r : MaskRun df a x b y) (q : MaskRun df b y c z) :
    MaskRun df a x c z := by
  induction r with
  | refl => exact q
  | head e _ ih => exact .head e (ih q)

theorem MaskPool.Steps.trans {n m : Nat} {s t u : MaskPool F} (a : MaskPool.Steps n s t) (b : MaskPool.Steps m t u) :
    ∃ k, MaskPool.Steps k s u := by
  induction b with
  | refl => exact ⟨n, a⟩
  | tail _ st ih => obtain ⟨k, hk⟩ := ih a; exact ⟨k + 1, .tail hk st⟩

theorem MaskRun.steps {df : DF} {t t' : MaskThread} {h h' : Heap F} (r : MaskRun df t h t' h') (l : List (DF × MaskThread)) (i : Nat)
    (hi : l[i]? = some (df, t)) : ∃ n, MaskPool.Steps n ⟨l, h⟩ ⟨l.set i (df, t'), h'⟩ := by
  induction r generalizing l with
  | refl =>
    refine ⟨0, ?_⟩
    obtain ⟨hl, e⟩ := List.getElem?_eq_some_iff.1 hi
    rw [← e, List.set_getElem_self]; exact .refl _
  | head e r ih =>
    obtain ⟨n, hn⟩ := ih (l.set i (df, _)) (by
      rw [List.getElem?_set, if_pos rfl, if_pos (List.getElem?_eq_some_iff.1 hi).1])
    rw [List.set_set] at hn
    exact MaskPool.Steps.trans (.tail (.refl _) ⟨hi, e⟩) hn

/-- A goroutine on its own, up to the call of `MaskView`. -/
theorem maskRun_fill {df : DF} (m : Slice) (es : List (Nat × Bool)) (h : Heap F) (hm : m.len = df.numRows)
    (he : ∀ e ∈ es, e.1 < df.numRows) : ∃ h', MaskRun df (.fill m es) h (.scan m 0 []) h' := by
  induction es generalizing h with
  | nil => exact ⟨h, .head rfl (.refl _ _)⟩
  | cons a es ih =>
    obtain ⟨i, b⟩ := a
    have hi : i < m.len := by rw [hm]; exact he (i, b) (by simp)
    obtain ⟨h', r⟩ := ih (h.setMsk m.arr ((h.msk m.arr).set (m.off + i) b)) (fun e hx => he e (by simp [hx]))
    refine ⟨h', .head ?_ r⟩
    simp [MaskThread.step, maskWrite, hi]

theorem maskRun_clear {df : DF} (es : List (Nat × Bool)) (k i : Nat) (h : Heap F) (hk : k + i = df.numRows)
    (hl : df.numRows ≤ df.mask.len) (hc : df.mask.len ≤ df.mask.cap) :
    ∃ h', MaskRun df (.clear i es) h (.fill (maskSlot df) es) h' := by
  induction k generalizing i h with
  | zero =>
    refine ⟨h, .head ?_ (.refl _ _)⟩
    simp only [MaskThread.step]
    rw [if_neg (by omega), give_eq (by omega)]
  | succ k ih =>
    obtain ⟨h', r⟩ := ih (i + 1) (h.setMsk df.mask.arr ((h.msk df.mask.arr).set (df.mask.off + i) false)) (by omega)
    refine ⟨h', .head ?_ r⟩
    simp only [MaskThread.step]
    rw [if_pos (by omega)]
    simp only [maskWrite]
    rw [if_pos (by omega)]

theorem maskRun_start {df : DF} (zero : Bool) (es : List (Nat × Bool)) (h : Heap F) (hn : df.mThreadSafe = false)
    (hl : df.numRows ≤ df.mask.len) (hc : df.mask.len ≤ df.mask.cap) (he : ∀ e ∈ es, e.1 < df.numRows) :
    ∃ h', MaskRun df (.start zero es) h (.scan (maskSlot df) 0 []) h' := by
  cases zero with
  | true =>
    obtain ⟨h1, r1⟩ := maskRun_clear es df.numRows 0 h rfl hl hc
    obtain ⟨h2, r2⟩ := maskRun_fill (df := df) (maskSlot df) es h1 rfl he
    exact ⟨h2, .head (by simp [MaskThread.step, hn]) (r1.trans r2)⟩
  | false =>
    obtain ⟨h2, r2⟩ := maskRun_fill (df := df) (maskSlot df) es h rfl he
    exact ⟨h2, .head (by simp [MaskThread.step, hn, give_eq (Nat.le_trans hl hc)]) r2⟩

theorem MaskRun.inv {df : DF} {t t' : MaskThread} {h h' : Heap F} {want : List Bool} (r : MaskRun df t h t' h')
    (hn : df.mThreadSafe = false) (hf : MaskFit df) (hw : want.length = df.numRows)
    (hs : SlotOK h (maskSlot df)) (hts : ∀ m, t.slot df = some m → m = maskSlot df) (inv : t.Inv h want df) :
    t'.Inv h' want df ∧ SlotOK h' (maskSlot df) ∧ MaskFrame h h' := by
  induction r with
  | refl => exact ⟨inv, hs, .refl _⟩
  | @head t0 h0 t1 h1 t2 h2 e r ih =>
    obtain ⟨i1, i2⟩ := MaskThread.step_inv hf hw rfl (fun m hm => by rw [hts m hm]; exact hs) inv e
    have hslot : ∀ m, MaskThread.slot df t1 = some m → m = maskSlot df := by
      intro m hm
      cases i2 with
      | none hx =>
        rcases hx with hx | hx
        · exact hts m (by rw [← hx]; exact hm)
        · rw [hx] at hm; cases hm
      | alloc n hx =>
        exfalso
        -- a dataframe that is not in thread-safe mode never allocates a mask
        have key : ∀ (t : MaskThread) (h h' : Heap F) t', t.step df h = some (t', h') → h'.next = h.next := by
          intro t h h' t' e
          cases t with
          | start z es =>
            simp only [MaskThread.step] at e
            rw [if_neg (by simp [hn])] at e
            split at e <;> · cases e; rfl
          | clear i es =>
            simp only [MaskThread.step, maskWrite] at e
            split at e
            · split at e
              · rename_i hx; split at hx
                · cases hx; cases e; rfl
                · cases hx
              · cases e; rfl
            · cases e; rfl
          | fill m es =>
            cases es with
            | nil => cases e; rfl
            | cons a es =>
              obtain ⟨i, b⟩ := a
              simp only [MaskThread.step, maskWrite] at e
              split at e
              · rename_i hx; split at hx
                · cases hx; cases e; rfl
                · cases hx
              · cases e; rfl
          | scan m j rows =>
            simp only [MaskThread.step] at e
            split at e
            · split at e
              · split at e <;> · cases e; rfl
              · cases e; rfl
            · cases e; rfl
          | done v => cases e
          | dead => cases e
        have := key _ _ _ _ e
        simp [Heap.newMsk] at this
      | store q k b hx hx' hp => exact hts m (by rw [← hx']; exact hm)
    obtain ⟨j1, j2, j3⟩ := ih (i2.slotOK hs) hslot i1
    exact ⟨j1, j2, i2.frame.trans j3⟩

theorem maskRun_scan {df : DF} (m : Slice) (k j : Nat) (rows : List Nat) (h : Heap F) (hk : k + j = m.len) (hm : m.len = df.numRows) :
    ∃ v, MaskRun df (.scan m j rows) h (.done v) h := by
  induction k generalizing j rows with
  | zero =>
    refine ⟨maskResult df m.len rows, .head ?_ (.refl _ _)⟩
    simp only [MaskThread.step]
    rw [if_neg (by omega)]
  | succ k ih =>
    have hj : j < df.idx.rows.length := by
      have : df.numRows = df.idx.rows.length := rfl
      omega
    by_cases hb : (h.msk m.arr).getD (m.off + j) false = true
    · obtain ⟨v, r⟩ := ih (j + 1) (rows ++ [df.idx.rows[j]]) (by omega)
      refine ⟨v, .head ?_ r⟩
      simp only [MaskThread.step]
      rw [if_pos (by omega), if_pos hb, Idx.at_ok (x := df.idx) (i := (j : Int)) (by omega) (by omega)]
      rfl
    · obtain ⟨v, r⟩ := ih (j + 1) rows (by omega)
      refine ⟨v, .head ?_ r⟩
      simp only [MaskThread.step]
      rw [if_pos (by omega), if_neg hb]

/-- **C85**, the documented restriction is needed: two goroutines on dataframes with the same mask memory (`d` a dataframe and `u`
the same dataframe, one of its views, or another view of the same dataframe) with `u` at least as long as `d`, not in
thread-safe mode. Whatever rows the first one asks for, there is an execution where it gets no row at all. -/
theorem C85_race {h : Heap F} {d u : DF} (wd : d.WF h) (wu : u.WF h) (md : d.MaskWF h) (mu : u.MaskWF h)
    (nd : d.mThreadSafe = false) (nu : u.mThreadSafe = false) (ha : u.mask.arr = d.mask.arr) (ho : u.mask.off = d.mask.off)
    (hr : d.numRows ≤ u.numRows) (zero : Bool) {es : List (Nat × Bool)} (he : ∀ e ∈ es, e.1 < d.numRows) :
    ∃ n s v, MaskPool.Steps n (MaskPool.init [⟨d, zero, es⟩, ⟨u, true, []⟩] h) s ∧ s.threads[0]? = some (d, .done v) ∧
      v.numRows = 0 := by
  have okd : MaskTask.OK h ⟨d, zero, es⟩ := ⟨wd, .inr md, he⟩
  obtain ⟨h1, r1⟩ := maskRun_start zero es h nd md.len_ge md.len_le he
  obtain ⟨_, s1, f1⟩ := r1.inv nd okd.fit okd.want_length (okd.slotOK nd) (fun m hm => by simp [MaskThread.slot, nd] at hm; exact hm.symm)
    ⟨he, rfl⟩
  have mu1 : u.MaskWF h1 := mu.safe f1.safe
  have oku : MaskTask.OK h1 ⟨u, true, []⟩ := ⟨wu.safe f1.safe, .inr mu1, by simp⟩
  obtain ⟨h2, r2⟩ := maskRun_start (df := u) true [] h1 nu mu.len_ge mu.len_le (by simp)
  obtain ⟨i2, s2, f2⟩ := r2.inv nu oku.fit oku.want_length (oku.slotOK nu) (fun m hm => by simp [MaskThread.slot, nu] at hm; exact hm.symm)
    ⟨by simp, rfl⟩
  obtain ⟨_, _, hall, _⟩ := i2
  have hfalse : h2.readMask (maskSlot u) = List.replicate u.numRows false := by
    rw [← hall]; simp [MaskTask.want, applyEdits]
  have hd : h2.readMask (maskSlot d) = List.replicate d.numRows false := by
    have : h2.readMask (maskSlot d) = (h2.readMask (maskSlot u)).take d.numRows := by
      simp only [Heap.readMask, maskSlot, ha, ho, List.take_take]
      rw [Nat.min_eq_left hr]
    rw [this, hfalse]
    simp [hr]
  have okd2 : SlotOK h2 (maskSlot d) := by
    have md2 : d.MaskWF h2 := md.safe (f1.safe.trans f2.safe)
    exact (MaskTask.OK.slotOK (t := ⟨d, true, []⟩) ⟨wd.safe (f1.safe.trans f2.safe), .inr md2, by simp⟩ nd)
  obtain ⟨v, r3⟩ := maskRun_scan (df := d) (maskSlot d) d.numRows 0 [] h2 rfl rfl
  obtain ⟨i3, _, _⟩ := r3.inv (want := List.replicate d.numRows false) nd okd.fit (by simp) okd2
    (fun m hm => by simp [MaskThread.slot] at hm; exact hm.symm) ⟨rfl, Nat.zero_le _, hd.symm, rfl⟩
  obtain ⟨n1, q1⟩ := r1.steps [(d, .start zero es), (u, .start true [])] 0 rfl
  obtain ⟨n2, q2⟩ := r2.steps [(d, .scan (maskSlot d) 0 []), (u, .start true [])] 1 rfl
  obtain ⟨n3, q3⟩ := r3.steps [(d, .scan (maskSlot d) 0 []), (u, .scan (maskSlot u) 0 [])] 0 rfl
  obtain ⟨n4, q4⟩ := MaskPool.Steps.trans q1 q2
  obtain ⟨n5, q5⟩ := MaskPool.Steps.trans q4 q3
  refine ⟨n5, _, v, q5, rfl, ?_⟩
  have hmv : d.maskView (List.replicate d.numRows false) = .ok v := i3
  have hpos : truePos (List.replicate d.numRows false) = [] := by
    unfold truePos
    rw [List.filter_eq_nil_iff]
    intro x hx
    simp [List.getD_eq_getElem?_getD, List.getElem?_replicate]
    split <;> simp
  obtain ⟨v', e', r', _⟩ := maskView_rowView wd (m := List.replicate d.numRows false) (by rw [hpos]; simp)
  have : v' = v := by have := e'.symm.trans hmv; cases this; rfl
  subst this
  rw [r'.numRows, hpos]; rfl

/-! ### Non-vacuity -/

theorem threadSafeMasking_wf {d : DF} {h : Heap F} (wf : d.WF h) (b : Bool) : (d.threadSafeMasking b).WF h :=
  ⟨wf.toWF, wf.idx_len, wf.rect⟩

namespace Demo

/-- Two goroutines on one dataframe in thread-safe mode; the second one changes its mind about row 3. -/
def maskTasks : List MaskTask :=
  [⟨df.threadSafeMasking true, true, [(0, true)]⟩, ⟨df.threadSafeMasking true, false, [(3, true), (1, true), (3, false)]⟩]

theorem maskTasks_ok : ∀ t ∈ maskTasks, t.OK h := by
  intro t ht
  simp only [maskTasks, List.mem_cons, List.not_mem_nil, or_false] at ht
  rcases ht with rfl | rfl
  · exact ⟨threadSafeMasking_wf df_wf _, .inl rfl, by decide⟩
  · exact ⟨threadSafeMasking_wf df_wf _, .inl rfl, by decide⟩

-- There is an execution where both end, and in every such execution they get rows [0] and [1].
example : ∃ n s v w, MaskPool.Steps n (MaskPool.init maskTasks h) s ∧
    s.threads[0]? = some (df.threadSafeMasking true, .done v) ∧ s.threads[1]? = some (df.threadSafeMasking true, .done w) ∧
    RowView h (df.threadSafeMasking true) s.heap v [0] ∧ RowView h (df.threadSafeMasking true) s.heap w [1] := by
  obtain ⟨m, s, _, st, hd⟩ := C85_ends maskTasks_ok (by simp [maskTasks, MaskTask.Apart, DF.threadSafeMasking]) (.refl _)
  obtain ⟨v, hv⟩ := hd 0 _ rfl
  obtain ⟨w, hw⟩ := hd 1 _ rfl
  obtain ⟨_, _, h3, _⟩ := C85_thread_safe (fun t ht => (maskTasks_ok t ht).wf) (by
    intro t ht
    simp only [maskTasks, List.mem_cons, List.not_mem_nil, or_false] at ht
    rcases ht with rfl | rfl <;> exact ⟨df, rfl⟩) (fun t ht => (maskTasks_ok t ht).inside) st
  obtain ⟨t0, e0, _, r0⟩ := h3 0 _ rfl
  obtain ⟨t1, e1, _, r1⟩ := h3 1 _ rfl
  rw [hv] at e0; cases e0
  rw [hw] at e1; cases e1
  exact ⟨m, s, v, w, st, hv, hw, r0 v rfl, r1 w rfl⟩

-- Different masks, without the thread-safe mode.
example : [MaskTask.mk df false [(0, true)], ⟨df.threadSafeMasking true, true, [(2, true)]⟩].Pairwise MaskTask.Apart ∧
    (∀ t ∈ [MaskTask.mk df false [(0, true)], ⟨df.threadSafeMasking true, true, [(2, true)]⟩], t.OK h) := by
  refine ⟨by simp [MaskTask.Apart, DF.threadSafeMasking], ?_⟩
  intro t ht
  simp only [List.mem_cons, List.not_mem_nil, or_false] at ht
  rcases ht with rfl | rfl
  · exact ⟨df_wf, .inr df_mwf, by decide⟩
  · exact ⟨threadSafeMasking_wf df_wf _, .inl rfl, by decide⟩

-- The race: the first goroutine asks for the rows 0 and 2 and gets nothing.
example : ∃ n s v, MaskPool.Steps n (MaskPool.init [⟨df, true, [(0, true), (2, true)]⟩, ⟨df.reverseView, true, []⟩] h) s ∧
    s.threads[0]? = some (df, .done v) ∧ v.numRows = 0 :=
  C85_race df_wf (reverseView_rowView df_wf).wf df_mwf (mu := ⟨by decide, by decide, df_mwf.valid⟩) rfl rfl rfl rfl (by decide) true
    (by decide)

end Demo
end Verif
