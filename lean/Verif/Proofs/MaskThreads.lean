import Verif.Spec.MaskThreads
import Verif.Proofs.RowViews
import Verif.Proofs.Safe

/-! Invariants of the goroutines that mask dataframes. -/

namespace Verif
variable {F : Type}

/-- The part of the preallocated mask that `df` hands out. -/
def maskSlot (df : DF) : Slice := ⟨df.mask.arr, df.mask.off, df.numRows, df.mask.cap⟩

def applyEdits (es : List (Nat × Bool)) (m : List Bool) : List Bool := es.foldl (fun m e => m.set e.1 e.2) m

/-- The mask a task ends up with when it is alone. -/
def MaskTask.want (h : Heap F) (t : MaskTask) : List Bool :=
  applyEdits t.edits (if t.zero || t.df.mThreadSafe then List.replicate t.df.numRows false else h.readMask (maskSlot t.df))

/-- The mask memory in use. -/
def MaskThread.slot (df : DF) : MaskThread → Option Slice
  | .start _ _ => if df.mThreadSafe then none else some (maskSlot df)
  | .clear _ _ => some (maskSlot df)
  | .fill m _ => some m
  | .scan m _ _ => some m
  | .done _ => none
  | .dead => none

def SlotOK (h : Heap F) (m : Slice) : Prop := m.len = 0 ∨ m.arr < h.next ∧ m.off + m.len ≤ (h.msk m.arr).length

def MaskThread.Inv (h : Heap F) (want : List Bool) (df : DF) : MaskThread → Prop
  | .start zero es => (∀ e ∈ es, e.1 < df.numRows) ∧
      want = applyEdits es (if zero || df.mThreadSafe then List.replicate df.numRows false else h.readMask (maskSlot df))
  | .clear i es => df.mThreadSafe = false ∧ (∀ e ∈ es, e.1 < df.numRows) ∧ i ≤ df.numRows ∧
      want = applyEdits es (List.replicate df.numRows false) ∧ ∀ k < i, (h.readMask (maskSlot df))[k]? = some false
  | .fill m es => (∀ e ∈ es, e.1 < df.numRows) ∧ m.len = df.numRows ∧ want = applyEdits es (h.readMask m)
  | .scan m j rows => m.len = df.numRows ∧ j ≤ df.numRows ∧ want = h.readMask m ∧
      rows = pick df.rows (truePos (want.take j))
  | .done v => df.maskView want = .ok v
  | .dead => False

/-- What one access can do to the memory: nothing, a new mask, or a store into the mask in use. -/
inductive MaskEffect (h : Heap F) (s s' : Option Slice) : Heap F → Prop where
  | none (hs : s' = s ∨ s' = .none) : MaskEffect h s s' h
  | alloc (n : Nat) (hs : s' = some (h.newMsk (List.replicate n false)).1) : MaskEffect h s s' (h.newMsk (List.replicate n false)).2
  | store (m : Slice) (k : Nat) (b : Bool) (hs : s = some m) (hs' : s' = s) (hp : 0 < m.len) :
      MaskEffect h s s' (h.setMsk m.arr ((h.msk m.arr).set k b))

/-- Memory other than masks is the same. -/
structure MaskFrame (h h' : Heap F) : Prop where
  next : h.next ≤ h'.next
  arr : h'.arr = h.arr
  tab : h'.tab = h.tab
  hdr : h'.hdr = h.hdr
  len : ∀ i, i < h.next → (h'.msk i).length = (h.msk i).length

theorem MaskFrame.refl (h : Heap F) : MaskFrame h h := ⟨Nat.le_refl _, rfl, rfl, rfl, fun _ _ => rfl⟩

theorem MaskFrame.trans {a b c : Heap F} (x : MaskFrame a b) (y : MaskFrame b c) : MaskFrame a c :=
  ⟨Nat.le_trans x.next y.next, y.arr.trans x.arr, y.tab.trans x.tab, y.hdr.trans x.hdr,
    fun i hi => (y.len i (Nat.lt_of_lt_of_le hi x.next)).trans (x.len i hi)⟩

theorem MaskFrame.safe {h h' : Heap F} (f : MaskFrame h h') : Safe h h' :=
  Safe.of_tab f.next (fun i _ => by rw [f.arr]) (fun i hi => by rw [f.len i hi]; exact Nat.le_refl _) (fun i _ => by rw [f.tab])

theorem MaskFrame.abs {h h' : Heap F} (f : MaskFrame h h') (d : DF) : abs h' d = abs h d ∧ locs h' d = locs h d := by
  constructor
  · unfold Verif.abs Heap.cell hdrList; rw [f.arr, f.tab, f.hdr]
  · unfold locs hdrList; rw [f.tab, f.hdr]

theorem MaskFrame.others {h h' : Heap F} (f : MaskFrame h h') (d : DF) (wf : d.WF h) :
    Verif.abs h' d = Verif.abs h d ∧ locs h' d = locs h d ∧ d.WF h' := ⟨(f.abs d).1, (f.abs d).2, wf.safe f.safe⟩

theorem MaskEffect.frame {h h' : Heap F} {s s' : Option Slice} (e : MaskEffect h s s' h') : MaskFrame h h' := by
  cases e with
  | none => exact .refl h
  | alloc n =>
    refine ⟨Nat.le_succ _, rfl, rfl, rfl, fun i hi => ?_⟩
    simp only [Heap.newMsk]
    rw [if_neg (by omega)]
  | store m k b hs hs' hp =>
    refine ⟨Nat.le_refl _, rfl, rfl, rfl, fun i hi => ?_⟩
    simp only [Heap.setMsk]
    split
    · rename_i h1; subst h1; simp
    · rfl

theorem MaskEffect.slotOK {h h' : Heap F} {s s' : Option Slice} (e : MaskEffect h s s' h') {m : Slice} (hm : SlotOK h m) :
    SlotOK h' m := by
  have f := e.frame
  rcases hm with h0 | ⟨h1, h2⟩
  · exact .inl h0
  · exact .inr ⟨Nat.lt_of_lt_of_le h1 f.next, by rw [f.len _ h1]; exact h2⟩

/-- The memory in use by another goroutine. -/
theorem MaskEffect.other {h h' : Heap F} {s s' : Option Slice} (e : MaskEffect h s s' h') {m : Slice} (hm : SlotOK h m)
    (ha : ∀ q, s = some q → q.len = 0 ∨ m.len = 0 ∨ q.arr ≠ m.arr) : h'.readMask m = h.readMask m := by
  by_cases h0 : m.len = 0
  · simp [Heap.readMask, h0]
  · rcases hm with h1 | ⟨h1, h2⟩
    · omega
    cases e with
    | none => rfl
    | alloc n =>
      simp only [Heap.readMask, Heap.newMsk]
      rw [if_neg (by omega)]
    | store q k b hs hs' hp =>
      rcases ha q hs with h3 | h3 | h3
      · omega
      · omega
      · simp only [Heap.readMask, Heap.setMsk]
        rw [if_neg (Ne.symm h3)]

theorem readMask_len {h : Heap F} {m : Slice} (hm : SlotOK h m) : (h.readMask m).length = m.len := by
  simp only [Heap.readMask, List.length_take, List.length_drop]
  rcases hm with h1 | ⟨_, h2⟩ <;> omega

theorem readMask_store {h : Heap F} {m : Slice} (hm : SlotOK h m) {k : Nat} (hk : k < m.len) (b : Bool) :
    (h.setMsk m.arr ((h.msk m.arr).set (m.off + k) b)).readMask m = (h.readMask m).set k b := by
  simp only [Heap.readMask, Heap.setMsk, if_true]
  apply List.ext_getElem?
  intro j
  rw [List.getElem?_set, List.length_take, List.length_drop]
  rcases hm with h1 | ⟨_, h2⟩
  · omega
  by_cases hj : j < m.len
  · rw [List.getElem?_take_of_lt hj, List.getElem?_drop, List.getElem?_set]
    by_cases he : k = j
    · subst he
      rw [if_pos rfl, if_pos rfl, if_pos (by omega), if_pos (by omega)]
    · rw [if_neg (by omega), if_neg he, List.getElem?_take_of_lt hj, List.getElem?_drop]
  · rw [List.getElem?_eq_none (by simp; omega), if_neg (by omega), List.getElem?_eq_none (by simp; omega)]

theorem readMask_get {h : Heap F} {m : Slice} {j : Nat} (hj : j < m.len) :
    (h.msk m.arr).getD (m.off + j) false = (h.readMask m).getD j false := by
  simp only [Heap.readMask, List.getD_eq_getElem?_getD]
  rw [List.getElem?_take_of_lt hj, List.getElem?_drop]

theorem truePos_take_succ (w : List Bool) {j : Nat} (hj : j < w.length) :
    truePos (w.take (j + 1)) = truePos (w.take j) ++ (if w.getD j false then [j] else []) := by
  unfold truePos
  rw [List.length_take, List.length_take, Nat.min_eq_left (by omega), Nat.min_eq_left (by omega), List.range_succ,
    List.filter_append]
  congr 1
  · apply List.filter_congr
    intro x hx
    have : x < j := by simpa using hx
    simp [List.getD_eq_getElem?_getD, List.getElem?_take_of_lt, this, Nat.lt_succ_of_lt this]
  · simp [List.filter_cons, List.getD_eq_getElem?_getD, List.getElem?_take_of_lt]

theorem pick_append {α : Type} [Inhabited α] (l : List Nat) (a b : List Nat) : pick l (a ++ b) = pick l a ++ pick l b := by
  simp [pick]

/-- What does not change: the preallocated mask is large enough. -/
def MaskFit (df : DF) : Prop := df.mThreadSafe = true ∨ df.numRows ≤ df.mask.len ∧ df.mask.len ≤ df.mask.cap

theorem give_eq {df : DF} (hf : df.numRows ≤ df.mask.cap) (es : List (Nat × Bool)) : MaskThread.give df es = .fill (maskSlot df) es := by
  unfold MaskThread.give Slice.reslice
  rw [if_pos ⟨by omega, by omega, by omega⟩]
  simp [maskSlot]

/-- One access of one goroutine. -/
theorem MaskThread.step_inv {df : DF} {h h' : Heap F} {want : List Bool} {t t' : MaskThread} (hf : MaskFit df)
    (hw : want.length = df.numRows) (hrl : df.rows.length = df.numRows)
    (hs : ∀ m, t.slot df = some m → SlotOK h m) (inv : t.Inv h want df) (e : t.step df h = some (t', h')) :
    t'.Inv h' want df ∧ MaskEffect h (t.slot df) (t'.slot df) h' := by
  cases t with
  | start zero es =>
    simp only [step] at e
    obtain ⟨he, hwant⟩ := inv
    split at e
    · rename_i hts
      cases e
      refine ⟨⟨he, by simp [Heap.newMsk], ?_⟩, .alloc _ rfl⟩
      rw [hwant, hts]
      simp [Heap.newMsk, Heap.readMask]
    · rename_i hts
      rcases hf with hf | ⟨f1, f2⟩
      · exact absurd hf hts
      have hts' : df.mThreadSafe = false := by simpa using hts
      split at e
      · rename_i hz
        cases e
        refine ⟨⟨hts', he, Nat.zero_le _, ?_, fun k hk => by omega⟩, .none (.inl ?_)⟩
        · rw [hwant, hz]; simp
        · simp [slot, hts']
      · rename_i hz
        rw [give_eq (by omega)] at e
        cases e
        refine ⟨⟨he, rfl, ?_⟩, .none (.inl ?_)⟩
        · rw [hwant]; simp [hz, hts']
        · simp [slot, hts']
  | clear i es =>
    obtain ⟨hts, he, hi, hwant, hk⟩ := inv
    rcases hf with hf | ⟨f1, f2⟩
    · rw [hts] at hf; cases hf
    simp only [step] at e
    split at e
    · rename_i hin
      unfold maskWrite at e
      rw [if_pos (by omega)] at e
      cases e
      have hok := hs (maskSlot df) rfl
      have hst := readMask_store (b := false) hok (k := i) hin
      refine ⟨⟨hts, he, by omega, hwant, ?_⟩, .store (maskSlot df) (df.mask.off + i) false rfl rfl (by simp only [maskSlot]; omega)⟩
      intro k hk'
      change (Heap.readMask (h.setMsk (maskSlot df).arr ((h.msk (maskSlot df).arr).set ((maskSlot df).off + i) false)) _)[k]? = _
      rw [hst, List.getElem?_set, readMask_len hok]
      by_cases hki : i = k
      · subst hki; rw [if_pos rfl, if_pos (by exact hin)]
      · rw [if_neg hki]; exact hk k (by omega)
    · rename_i hin
      rw [give_eq (by omega)] at e
      cases e
      refine ⟨⟨he, rfl, ?_⟩, .none (.inl rfl)⟩
      rw [hwant]
      congr 1
      apply List.ext_getElem?
      intro j
      have hok := hs (maskSlot df) rfl
      by_cases hj : j < df.numRows
      · rw [hk j (by omega), List.getElem?_replicate, if_pos hj]
      · rw [List.getElem?_eq_none (by simpa using hj), List.getElem?_eq_none (by rw [readMask_len hok]; exact Nat.le_of_not_lt hj)]
  | fill m es =>
    obtain ⟨he, hl, hwant⟩ := inv
    cases es with
    | nil =>
      simp only [step] at e
      cases e
      exact ⟨⟨hl, Nat.zero_le _, hwant, rfl⟩, .none (.inl rfl)⟩
    | cons a es =>
      obtain ⟨i, b⟩ := a
      have hi : i < m.len := by rw [hl]; exact he (i, b) (by simp)
      simp only [step] at e
      unfold maskWrite at e
      rw [if_pos hi] at e
      cases e
      refine ⟨⟨fun x hx => he x (by simp [hx]), hl, ?_⟩, .store m (m.off + i) b rfl rfl (by omega)⟩
      rw [readMask_store (hs m rfl) hi, hwant]
      rfl
  | scan m j rows =>
    obtain ⟨hl, hj, hwant, hrows⟩ := inv
    simp only [step] at e
    split at e
    · rename_i hjm
      have hnext := truePos_take_succ want (j := j) (by omega)
      split at e
      · rename_i hb
        rw [readMask_get hjm, ← hwant] at hb
        have hjr : j < df.idx.rows.length := by
          have : df.rows.length = df.idx.rows.length := rfl
          omega
        rw [Idx.at_ok (x := df.idx) (i := (j : Int)) (by omega) (by omega)] at e
        cases e
        refine ⟨⟨hl, by omega, hwant, ?_⟩, .none (.inl rfl)⟩
        rw [hnext, hb, if_pos rfl, hrows]
        simp [pick, DF.rows, List.getD_eq_getElem?_getD, List.getElem?_eq_getElem hjr]
      · rename_i hb
        rw [readMask_get hjm, ← hwant] at hb
        cases e
        refine ⟨⟨hl, by omega, hwant, ?_⟩, .none (.inl rfl)⟩
        rw [hnext, if_neg hb, hrows]
        simp
    · rename_i hjm
      cases e
      refine ⟨?_, .none (.inr rfl)⟩
      have hjj : j = want.length := by omega
      simp only [Inv, DF.maskView]
      rw [maskRows_ok _ _ _ (by
        intro x hx
        rw [← truePos_eq] at hx
        have : x < want.length := by simp [truePos] at hx; exact hx.1
        change x < df.rows.length
        omega), ← truePos_eq]
      rw [hjj, List.take_length] at hrows
      simp only [maskResult]
      rw [hl, ← hw, hrows]
      simp [DF.rows]
  | done v => simp [step] at e
  | dead => simp [step] at e

theorem applyEdits_length (es : List (Nat × Bool)) (m : List Bool) : (applyEdits es m).length = m.length := by
  induction es generalizing m with
  | nil => rfl
  | cons a es ih => simp only [applyEdits, List.foldl_cons] at ih ⊢; rw [ih]; simp

/-- Number of accesses left. -/
def MaskThread.left (df : DF) : MaskThread → Nat
  | .start _ es => 2 * df.numRows + es.length + 4
  | .clear i es => (df.numRows - i) + df.numRows + es.length + 3
  | .fill _ es => df.numRows + es.length + 2
  | .scan _ j _ => df.numRows - j + 1
  | .done _ => 0
  | .dead => 0

theorem MaskThread.step_left {df : DF} {h h' : Heap F} {want : List Bool} {t t' : MaskThread}
    (inv : t.Inv h want df) (e : t.step df h = some (t', h')) : t'.left df < t.left df := by
  cases t with
  | start zero es =>
    simp only [step] at e
    split at e
    · cases e; simp only [left]; omega
    · split at e
      · cases e; simp only [left]; omega
      · unfold give at e
        split at e <;> · cases e; simp only [left]; omega
  | clear i es =>
    simp only [step] at e
    split at e
    · split at e <;> · cases e; simp only [left]; omega
    · unfold give at e
      split at e <;> · cases e; simp only [left]; omega
  | fill m es =>
    cases es with
    | nil => simp only [step] at e; cases e; simp only [left]; simp
    | cons a es =>
      obtain ⟨i, b⟩ := a
      simp only [step] at e
      split at e <;> · cases e; simp only [left, List.length_cons]; omega
  | scan m j rows =>
    obtain ⟨hl, hj, hwant, hrows⟩ := inv
    simp only [step] at e
    split at e
    · split at e
      · split at e <;> · cases e; simp only [left]; omega
      · cases e; simp only [left]; omega
    · cases e; simp only [left]; omega
  | done v => simp [step] at e
  | dead => simp [step] at e

theorem MaskThread.step_some {df : DF} {h : Heap F} {t : MaskThread} (h1 : ∀ v, t ≠ .done v) (h2 : t ≠ .dead) :
    ∃ t' h', t.step df h = some (t', h') := by
  cases t with
  | start zero es =>
    simp only [step]
    split
    · exact ⟨_, _, rfl⟩
    · split <;> exact ⟨_, _, rfl⟩
  | clear i es =>
    simp only [step]
    split
    · split <;> exact ⟨_, _, rfl⟩
    · exact ⟨_, _, rfl⟩
  | fill m es =>
    cases es with
    | nil => exact ⟨_, _, rfl⟩
    | cons a es => obtain ⟨i, b⟩ := a; simp only [step]; split <;> exact ⟨_, _, rfl⟩
  | scan m j rows =>
    simp only [step]
    split
    · split
      · split <;> exact ⟨_, _, rfl⟩
      · exact ⟨_, _, rfl⟩
    · exact ⟨_, _, rfl⟩
  | done v => exact absurd rfl (h1 v)
  | dead => exact absurd rfl h2

/-- The invariant of all the goroutines. -/
structure MaskPool.Inv (h0 : Heap F) (tasks : List MaskTask) (s : MaskPool F) : Prop where
  frame : MaskFrame h0 s.heap
  len : s.threads.length = tasks.length
  thread : ∀ (i : Nat) (task : MaskTask), tasks[i]? = some task → ∃ t : MaskThread, s.threads[i]? = some (task.df, t) ∧ t.Inv s.heap (task.want h0) task.df ∧
    ∀ m, t.slot task.df = some m → SlotOK s.heap m
  apart : ∀ (i j : Nat) (di : DF) (ti : MaskThread) (dj : DF) (tj : MaskThread) (m q : Slice), i ≠ j → s.threads[i]? = some (di, ti) → s.threads[j]? = some (dj, tj) →
    ti.slot di = some m → tj.slot dj = some q → m.len = 0 ∨ q.len = 0 ∨ m.arr ≠ q.arr

theorem MaskThread.Inv.other {h h' : Heap F} {want : List Bool} {df : DF} {t : MaskThread} (inv : t.Inv h want df)
    (hr : ∀ m, t.slot df = some m → h'.readMask m = h.readMask m) : t.Inv h' want df := by
  cases t with
  | start zero es =>
    refine ⟨inv.1, ?_⟩
    rw [inv.2]
    congr 1
    split
    · rfl
    · rename_i hc
      rw [hr]
      simp only [slot]
      rw [if_neg]
      intro h1; exact hc (by simp [h1])
  | clear i es =>
    obtain ⟨a, b, c, d, e⟩ := inv
    exact ⟨a, b, c, d, by rw [hr _ rfl]; exact e⟩
  | fill m es =>
    obtain ⟨a, b, c⟩ := inv
    exact ⟨a, b, by rw [hr _ rfl]; exact c⟩
  | scan m j rows =>
    obtain ⟨a, b, c, d⟩ := inv
    exact ⟨a, b, by rw [hr _ rfl]; exact c, d⟩
  | done v => exact inv
  | dead => exact inv

theorem MaskPool.Step.inv {h0 : Heap F} {tasks : List MaskTask} {s s' : MaskPool F}
    (hok : ∀ t ∈ tasks, MaskFit t.df ∧ (t.want h0).length = t.df.numRows ∧ t.df.rows.length = t.df.numRows)
    (inv : s.Inv h0 tasks) (st : MaskPool.Step s s') : s'.Inv h0 tasks := by
  obtain ⟨hi, e⟩ := st
  rename_i i df t t' h'
  have hlt : i < tasks.length := by
    rw [← inv.len]; exact (List.getElem?_eq_some_iff.1 hi).1
  obtain ⟨t0, h1, h2, h3⟩ := inv.thread i _ (List.getElem?_eq_getElem hlt)
  rw [hi] at h1
  obtain ⟨rfl, rfl⟩ : df = tasks[i].df ∧ t = t0 := by cases h1; exact ⟨rfl, rfl⟩
  obtain ⟨k1, k2, k3⟩ := hok _ (List.getElem_mem hlt)
  obtain ⟨inv', eff⟩ := MaskThread.step_inv k1 k2 k3 h3 h2 e
  have hslot' : ∀ m, t'.slot tasks[i].df = some m → SlotOK h' m ∧ (t.slot tasks[i].df = some m ∨ m.arr = s.heap.next) := by
    intro m hm
    cases eff with
    | none hs =>
      rcases hs with hs | hs
      · rw [hs] at hm; exact ⟨h3 m hm, .inl hm⟩
      · rw [hs] at hm; cases hm
    | alloc n hs =>
      rw [hs] at hm; cases hm
      refine ⟨.inr ⟨Nat.lt_succ_self _, ?_⟩, .inr rfl⟩
      simp [Heap.newMsk]
    | store q k b hs hs' hp =>
      rw [hs'] at hm
      exact ⟨(MaskEffect.store q k b hs hs' hp).slotOK (h3 m hm), .inl hm⟩
  have hthr : ∀ j d x, (s.threads.set i (tasks[i].df, t'))[j]? = some (d, x) →
      (j = i ∧ d = tasks[i].df ∧ x = t') ∨ (j ≠ i ∧ s.threads[j]? = some (d, x)) := by
    intro j d x hj
    rw [List.getElem?_set] at hj
    by_cases hij : i = j
    · subst hij
      rw [if_pos rfl, if_pos (by rw [inv.len]; exact hlt)] at hj
      cases hj; exact .inl ⟨rfl, rfl, rfl⟩
    · rw [if_neg hij] at hj; exact .inr ⟨Ne.symm hij, hj⟩
  have hfree : ∀ j d x q, j ≠ i → s.threads[j]? = some (d, x) → x.slot d = some q →
      SlotOK s.heap q := by
    intro j d x q hj hx hq
    have hjl : j < tasks.length := by rw [← inv.len]; exact (List.getElem?_eq_some_iff.1 hx).1
    obtain ⟨x0, y1, y2, y3⟩ := inv.thread j _ (List.getElem?_eq_getElem hjl)
    rw [hx] at y1; cases y1
    exact y3 q hq
  have hnew : ∀ j d x q m, j ≠ i → s.threads[j]? = some (d, x) → x.slot d = some q → t'.slot tasks[i].df = some m →
      m.len = 0 ∨ q.len = 0 ∨ m.arr ≠ q.arr := by
    intro j d x q m hj hx hq hm
    rcases (hslot' m hm).2 with y | y
    · exact inv.apart i j _ _ _ _ _ _ (Ne.symm hj) hi hx y hq
    · rcases hfree j d x q hj hx hq with z | ⟨z, _⟩
      · exact .inr (.inl z)
      · exact .inr (.inr (by omega))
  refine ⟨inv.frame.trans eff.frame, by simp [inv.len], ?_, ?_⟩
  · intro j task hj
    by_cases hij : i = j
    · subst hij
      rw [List.getElem?_eq_getElem hlt] at hj
      cases hj
      refine ⟨t', ?_, inv', fun m hm => (hslot' m hm).1⟩
      rw [List.getElem?_set, if_pos rfl, if_pos (by rw [inv.len]; exact hlt)]
    · obtain ⟨x, y1, y2, y3⟩ := inv.thread j task hj
      refine ⟨x, by rw [List.getElem?_set, if_neg hij]; exact y1, y2.other fun m hm => ?_, fun m hm => eff.slotOK (y3 m hm)⟩
      exact eff.other (y3 m hm) fun q hq => inv.apart i j _ _ _ _ _ _ hij hi y1 hq hm
  · intro a b da ta db tb m q hab ha hb hma hqb
    rcases hthr a _ _ ha with ⟨ea, rfl, rfl⟩ | ⟨ha', hA⟩
    · rcases hthr b _ _ hb with ⟨eb, _, _⟩ | ⟨hb', hB⟩
      · exact absurd (ea.trans eb.symm) hab
      · exact hnew b db tb q m hb' hB hqb hma
    · rcases hthr b _ _ hb with ⟨eb, rfl, rfl⟩ | ⟨hb', hB⟩
      · rcases hnew a da ta m q ha' hA hma hqb with x | x | x
        · exact .inr (.inl x)
        · exact .inl x
        · exact .inr (.inr (Ne.symm x))
      · exact inv.apart a b _ _ _ _ _ _ hab hA hB hma hqb

theorem MaskTask.OK.fit {h : Heap F} {t : MaskTask} (ok : t.OK h) : MaskFit t.df :=
  ok.mask.imp id fun m => ⟨m.len_ge, m.len_le⟩

theorem MaskTask.OK.slotOK {h : Heap F} {t : MaskTask} (ok : t.OK h) (hn : t.df.mThreadSafe = false) : SlotOK h (maskSlot t.df) := by
  rcases ok.mask with m | m
  · rw [hn] at m; cases m
  · rcases m.valid with v | ⟨v1, v2⟩
    · have := m.len_ge; have := m.len_le
      exact .inl (by simp only [maskSlot]; omega)
    · have := m.len_ge; have := m.len_le
      exact .inr ⟨v1, by simp only [maskSlot]; omega⟩

theorem MaskTask.OK.want_length {h : Heap F} {t : MaskTask} (ok : t.OK h) : (t.want h).length = t.df.numRows := by
  unfold MaskTask.want
  rw [applyEdits_length]
  split
  · simp
  · rename_i hc
    rw [readMask_len (ok.slotOK (by simp at hc; exact hc.2))]; rfl

theorem MaskPool.init_inv {h : Heap F} {tasks : List MaskTask} (ok : ∀ t ∈ tasks, t.OK h)
    (apart : tasks.Pairwise MaskTask.Apart) : (MaskPool.init tasks h).Inv h tasks := by
  refine ⟨.refl h, by simp [MaskPool.init], ?_, ?_⟩
  · intro i task hi
    have hok := ok task (List.mem_of_getElem? hi)
    refine ⟨.start task.zero task.edits, by simp [MaskPool.init, hi], ⟨hok.inside, rfl⟩, ?_⟩
    intro m hm
    simp only [MaskThread.slot] at hm
    split at hm
    · cases hm
    · rename_i hts
      cases hm
      exact hok.slotOK (by simpa using hts)
  · intro i j di ti dj tj m q hij hi hj hm hq
    simp only [MaskPool.init, List.getElem?_map, Option.map_eq_some_iff] at hi hj
    obtain ⟨x, hx, ex⟩ := hi
    obtain ⟨y, hy, ey⟩ := hj
    cases ex; cases ey
    have key : x.Apart y ∨ y.Apart x := by
      obtain ⟨li, ei⟩ := List.getElem?_eq_some_iff.1 hx
      obtain ⟨lj, ej⟩ := List.getElem?_eq_some_iff.1 hy
      rcases Nat.lt_or_gt_of_ne hij with hl | hl
      · left; rw [← ei, ← ej]; exact List.pairwise_iff_getElem.1 apart i j li lj hl
      · right; rw [← ei, ← ej]; exact List.pairwise_iff_getElem.1 apart j i lj li hl
    simp only [MaskThread.slot] at hm hq
    split at hm
    · cases hm
    split at hq
    · cases hq
    cases hm; cases hq
    rename_i h1 h2
    simp only [maskSlot]
    unfold MaskTask.Apart at key
    rcases key with (k | k | k | k | k) | (k | k | k | k | k)
    · exact absurd k h1
    · exact absurd k h2
    · exact .inl k
    · exact .inr (.inl k)
    · exact .inr (.inr k)
    · exact absurd k h2
    · exact absurd k h1
    · exact .inr (.inl k)
    · exact .inl k
    · exact .inr (.inr (Ne.symm k))

/-- Total number of accesses left. -/
def MaskPool.left (s : MaskPool F) : Nat := (s.threads.map fun p => p.2.left p.1).sum

theorem sum_set_lt (l : List Nat) (i x y : Nat) (h : l[i]? = some x) (hxy : y < x) : (l.set i y).sum < l.sum := by
  induction l generalizing i with
  | nil => cases h
  | cons a l ih =>
    cases i with
    | zero => simp at h; subst h; simp; omega
    | succ i => simp at h ⊢; have := ih i h; omega

theorem MaskPool.Step.left {h0 : Heap F} {tasks : List MaskTask} {s s' : MaskPool F}
    (inv : s.Inv h0 tasks) (st : MaskPool.Step s s') : s'.left < s.left := by
  obtain ⟨hi, e⟩ := st
  rename_i i df t t' h'
  have hlt : i < tasks.length := by
    rw [← inv.len]; exact (List.getElem?_eq_some_iff.1 hi).1
  obtain ⟨t0, h1, h2, h3⟩ := inv.thread i _ (List.getElem?_eq_getElem hlt)
  rw [hi] at h1
  obtain ⟨rfl, rfl⟩ : df = tasks[i].df ∧ t = t0 := by cases h1; exact ⟨rfl, rfl⟩
  have := MaskThread.step_left h2 e
  unfold MaskPool.left
  rw [List.map_set]
  exact sum_set_lt _ _ _ _ (by rw [List.getElem?_map, hi]; rfl) this

/-- The invariant holds in every reachable state. -/
theorem MaskPool.Steps.inv {h : Heap F} {tasks : List MaskTask} (ok : ∀ t ∈ tasks, t.OK h)
    (apart : tasks.Pairwise MaskTask.Apart) {n : Nat} {s0 s : MaskPool F} (st : MaskPool.Steps n s0 s)
    (e0 : s0 = MaskPool.init tasks h) : s.Inv h tasks ∧ n + s.left ≤ (MaskPool.init tasks h).left := by
  have hok : ∀ t ∈ tasks, MaskFit t.df ∧ (t.want h).length = t.df.numRows ∧ t.df.rows.length = t.df.numRows :=
    fun t ht => ⟨(ok t ht).fit, (ok t ht).want_length, rfl⟩
  induction st with
  | refl => subst e0; exact ⟨MaskPool.init_inv ok apart, by omega⟩
  | tail a b ih =>
    obtain ⟨i1, i2⟩ := ih e0
    have := MaskPool.Step.left i1 b
    exact ⟨MaskPool.Step.inv hok i1 b, by omega⟩

theorem applyEdits_getD (es : List (Nat × Bool)) (m : List Bool) (p : Nat) (hp : p < m.length) :
    (applyEdits es m).getD p false = (lastStore es p).getD (m.getD p false) := by
  induction es generalizing m with
  | nil => rfl
  | cons a es ih =>
    have h1 : applyEdits (a :: es) m = applyEdits es (m.set a.1 a.2) := rfl
    rw [h1, ih _ (by simpa using hp)]
    have h2 : lastStore (a :: es) p = (lastStore es p).or (if a.1 = p then some a.2 else none) := by
      simp only [lastStore, List.reverse_cons, List.find?_append]
      cases es.reverse.find? (·.1 == p) with
      | some x => rfl
      | none =>
        simp only [Option.none_or, Option.map_none, List.find?_cons, List.find?_nil]
        by_cases hap : a.1 = p
        · simp [hap]
        · have : (a.1 == p) = false := by simpa using hap
          simp [hap, this]
    rw [h2]
    cases lastStore es p with
    | some x => rfl
    | none =>
      simp only [Option.none_or, Option.getD_none]
      rw [List.getD_eq_getElem?_getD, List.getElem?_set]
      by_cases hap : a.1 = p
      · rw [if_pos hap, if_pos hap, if_pos (by omega)]; rfl
      · rw [if_neg hap, if_neg hap, List.getD_eq_getElem?_getD]; rfl

theorem MaskTask.OK.rows_eq {h : Heap F} {t : MaskTask} (ok : t.OK h) :
    truePos (t.want h) = t.rows h := by
  unfold truePos MaskTask.rows
  rw [ok.want_length]
  apply List.filter_congr
  intro p hp
  have hp : p < t.df.numRows := by simpa using hp
  unfold MaskTask.want
  have hlen : (if t.zero || t.df.mThreadSafe then List.replicate t.df.numRows false else h.readMask (maskSlot t.df)).length =
      t.df.numRows := by
    have := ok.want_length
    unfold MaskTask.want at this
    rwa [applyEdits_length] at this
  rw [applyEdits_getD _ _ _ (by omega)]
  congr 1
  split
  · rename_i hc
    rw [hc]
    simp [List.getD_eq_getElem?_getD, hp]
  · rename_i hc
    simp only [Bool.not_eq_true] at hc
    rw [hc]
    exact (readMask_get (h := h) (m := maskSlot t.df) (j := p) hp).symm

end Verif
