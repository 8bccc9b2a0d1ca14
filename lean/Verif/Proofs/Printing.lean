import Verif.Spec.Printing
import Verif.Proofs.Heap
import Verif.Props.CSVWriting
import Verif.Proofs.OneHotFit
import Verif.Proofs.CSVParsing

namespace Verif
variable {F : Type}

/-! ### sorting names -/

theorem insertStr_perm (x : GoStr) (l : List GoStr) : (insertStr x l).Perm (x :: l) := by
  induction l with
  | nil => exact .refl _
  | cons y ys ih =>
    unfold insertStr
    split
    · exact .refl _
    · exact (ih.cons y).trans (.swap _ _ _)

theorem sortStrs_perm (l : List GoStr) : (sortStrs l).Perm l := by
  induction l with
  | nil => exact .refl _
  | cons y ys ih => exact (insertStr_perm _ _).trans (ih.cons y)

theorem insertStr_sorted (x : GoStr) (l : List GoStr) (h : l.Pairwise (· ≤ ·)) : (insertStr x l).Pairwise (· ≤ ·) := by
  induction l with
  | nil => simp [insertStr]
  | cons y ys ih =>
    rw [List.pairwise_cons] at h
    unfold insertStr
    split
    · rename_i hxy
      rw [List.pairwise_cons, List.pairwise_cons]
      refine ⟨fun z hz => ?_, h⟩
      rcases List.mem_cons.1 hz with e | e
      · subst e; exact hxy
      · exact List.le_trans hxy (h.1 z e)
    · rename_i hxy
      rw [List.pairwise_cons]
      refine ⟨fun z hz => ?_, ih h.2⟩
      rcases List.mem_cons.1 ((insertStr_perm _ _).mem_iff.1 hz) with e | e
      · subst e
        rcases List.le_total z y with h' | h'
        · exact absurd h' hxy
        · exact h'
      · exact h.1 z e

theorem sortStrs_sorted (l : List GoStr) : (sortStrs l).Pairwise (· ≤ ·) := by
  induction l with
  | nil => simp [sortStrs]
  | cons y ys ih => exact insertStr_sorted _ _ ih

theorem sortStrs_listing {l : List GoStr} (hn : l.Nodup) : IsListing (· ∈ l) (sortStrs l) := by
  refine ⟨?_, fun c => (sortStrs_perm l).mem_iff⟩
  have hn' : (sortStrs l).Nodup := (sortStrs_perm l).nodup_iff.2 hn
  have := (sortStrs_sorted l).and hn'
  refine this.imp ?_
  rintro a b ⟨h1, h2⟩
  rcases Decidable.em (a < b) with h | h
  · exact h
  · exact absurd (List.le_antisymm h1 (List.not_lt.1 h)) h2

theorem IsListing.congr {P Q : GoStr → Prop} {l : List GoStr} (h : IsListing P l) (e : ∀ c, P c ↔ Q c) : IsListing Q l :=
  ⟨h.1, fun c => (h.2 c).trans (e c)⟩

/-- There is only one listing. -/
theorem IsListing.unique {P : GoStr → Prop} {l l' : List GoStr} (h : IsListing P l) (h' : IsListing P l') : l = l' := by
  have hp : l.Perm l' := by
    have n1 : l.Nodup := h.1.imp (fun {a b} hab e => by subst e; exact List.lt_irrefl _ hab)
    have n2 : l'.Nodup := h'.1.imp (fun {a b} hab e => by subst e; exact List.lt_irrefl _ hab)
    exact (List.perm_ext_iff_of_nodup n1 n2).2 (fun c => (h.2 c).trans (h'.2 c).symm)
  refine List.Perm.eq_of_pairwise (le := fun a b : GoStr => a < b) ?_ h.1 h'.1 hp
  intro a b _ _ h1 h2
  exact absurd (List.lt_trans h1 h2) (List.lt_irrefl _)

/-! ### elements -/

theorem printCell_spec [GoFloat F] {fm : Fmt F} {ff : GoStr} {enc : Option Nat} {st : Bool} {c : GoStr} {i : Nat} {k : Kind}
    {v : Val F} (ht : (k = .bool → ∃ b, v = .bool b) ∧ (k = .int → ∃ n, v = .int n) ∧ (k = .float → ∃ x, v = .float x)) :
    (∃ t, printCell fm ff enc st c i k v = .ok t ∧ Shown fm ff st enc.isNone c i k v t) ∨
    (printCell fm ff enc st c i k v = .error .panic ∧ k = .obj ∧ st = true ∧ enc = none ∧ v ≠ .nil ∧ ∀ s, v ≠ .str s) := by
  cases k with
  | float => obtain ⟨x, rfl⟩ := ht.2.2 rfl; exact .inl ⟨_, rfl, .float x⟩
  | int =>
    obtain ⟨x, rfl⟩ := ht.2.1 rfl
    left
    rcases (by omega : x < 0 ∨ 0 ≤ x) with hx | hx
    · obtain ⟨n, rfl⟩ : ∃ n : Nat, x = -(n + 1 : Nat) := ⟨(-x - 1).toNat, by omega⟩
      refine ⟨_, ?_, .neg n⟩
      simp only [printCell, fmtInt]
      rw [if_pos hx]
      have : (-((n + 1 : Nat) : Int)).natAbs = n + 1 := by omega
      rw [this]; rfl
    · obtain ⟨n, rfl⟩ : ∃ n : Nat, x = n := ⟨x.toNat, by omega⟩
      refine ⟨_, ?_, .nat n⟩
      simp only [printCell, fmtInt]
      rw [if_neg (by omega)]
      rfl
  | bool =>
    obtain ⟨x, rfl⟩ := ht.1 rfl
    cases x
    · exact .inl ⟨_, rfl, .zero⟩
    · exact .inl ⟨_, rfl, .one⟩
  | obj =>
    have hg : ∀ v : Val F, v ≠ .nil → (∃ t, printCell fm ff enc st c i .obj v = .ok t ∧ Shown fm ff st enc.isNone c i .obj v t) ∨
        (printCell fm ff enc st c i .obj v = .error .panic ∧ Kind.obj = .obj ∧ st = true ∧ enc = none ∧ v ≠ .nil ∧ ∀ s, v ≠ .str s) := by
      intro v hv
      cases st with
      | false =>
        refine .inl ⟨_, ?_, .object v hv rfl⟩
        cases v <;> first | exact absurd rfl hv | rfl
      | true =>
        cases enc with
        | some e =>
          refine .inl ⟨_, ?_, .coded v hv rfl rfl⟩
          cases v <;> first | exact absurd rfl hv | rfl
        | none =>
          cases v with
          | nil => exact absurd rfl hv
          | str s => refine .inl ⟨_, ?_, .text s rfl rfl⟩; simp [printCell, printObject]
          | float x => exact .inr ⟨rfl, rfl, rfl, rfl, (by simp), (by simp)⟩
          | int x => exact .inr ⟨rfl, rfl, rfl, rfl, (by simp), (by simp)⟩
          | bool x => exact .inr ⟨rfl, rfl, rfl, rfl, (by simp), (by simp)⟩
          | other x => exact .inr ⟨rfl, rfl, rfl, rfl, (by simp), (by simp)⟩
    cases v with
    | nil => exact .inl ⟨_, rfl, .missing⟩
    | _ => exact hg _ (by simp)

/-- A text determines nothing else: an element that can be shown is not one of those that cannot. -/
theorem Shown.not_bad {fm : Fmt F} {ff : GoStr} {c : GoStr} {i : Nat} {v : Val F} {t : GoStr}
    (h : Shown fm ff true true c i .obj v t) : v = .nil ∨ ∃ s, v = .str s := by
  generalize hs : true = st at h
  cases h with
  | missing => exact .inl rfl
  | text s => exact .inr ⟨s, rfl⟩
  | coded v hv h hu => rw [← hs] at hu; cases hu
  | object v hv h => rw [← hs] at h; cases h

theorem printVals_ok [GoFloat F] {fm : Fmt F} {ff : GoStr} {df : DF} {h : Heap F} {k : Kind} {c : GoStr} {s : Slice} :
    ∀ (js : List Nat) (i : Nat),
    (∀ x (j : Nat), js[x]? = some j → ∃ v t, h.cell s j = some v ∧ printCell fm ff df.enc (hdrContains h df.strHdr c) c (i + x) k v = .ok t) →
    ∃ ts : List GoStr, ts.length = js.length ∧ printVals fm ff df h k c s js i = .ok ts.flatten ∧
      ∀ x (j : Nat) t, js[x]? = some j → ts[x]? = some t → ∃ v, h.cell s j = some v ∧
        printCell fm ff df.enc (hdrContains h df.strHdr c) c (i + x) k v = .ok t
  | [], i, _ => ⟨[], rfl, rfl, by simp⟩
  | j :: js, i, hx => by
    obtain ⟨v, t, hv, ht⟩ := hx 0 j rfl
    obtain ⟨ts, h1, h2, h3⟩ := printVals_ok js (i + 1) (fun x j' e => by
      obtain ⟨v, t, a, b⟩ := hx (x + 1) j' (by simpa using e)
      exact ⟨v, t, a, by rw [← b]; congr 1; omega⟩)
    refine ⟨t :: ts, by simp [h1], ?_, fun x j' t' e1 e2 => ?_⟩
    · simp only [printVals, hv]
      simp only [Nat.add_zero] at ht
      simp [ht, h2]
    · cases x with
      | zero => simp at e1 e2; subst e1; subst e2; exact ⟨v, hv, ht⟩
      | succ x =>
        obtain ⟨v, a, b⟩ := h3 x j' t' (by simpa using e1) (by simpa using e2)
        exact ⟨v, a, by rw [← b]; congr 1; omega⟩

theorem printVals_panic [GoFloat F] {fm : Fmt F} {ff : GoStr} {df : DF} {h : Heap F} {k : Kind} {c : GoStr} {s : Slice} :
    ∀ (js : List Nat) (i : Nat),
    (∀ x (j : Nat), js[x]? = some j → ∃ v, h.cell s j = some v ∧
      ((∃ t, printCell fm ff df.enc (hdrContains h df.strHdr c) c (i + x) k v = .ok t) ∨
        printCell fm ff df.enc (hdrContains h df.strHdr c) c (i + x) k v = .error .panic)) →
    (∃ x j v, js[x]? = some j ∧ h.cell s j = some v ∧ printCell fm ff df.enc (hdrContains h df.strHdr c) c (i + x) k v = .error .panic) →
    printVals fm ff df h k c s js i = .error .panic
  | [], i, _, hb => by obtain ⟨x, j, v, e, _⟩ := hb; simp at e
  | j :: js, i, hx, hb => by
    obtain ⟨v, hv, ht⟩ := hx 0 j rfl
    simp only [Nat.add_zero] at ht
    simp only [printVals, hv]
    rcases ht with ⟨t, ht⟩ | ht
    · have ih := printVals_panic (fm := fm) (ff := ff) (df := df) (h := h) (k := k) (c := c) (s := s) js (i + 1) (fun x j' e => by
        obtain ⟨v, a, b⟩ := hx (x + 1) j' (by simpa using e)
        refine ⟨v, a, ?_⟩
        rw [show i + 1 + x = i + (x + 1) by omega]; exact b) (by
        obtain ⟨x, j', v', e, a, b⟩ := hb
        cases x with
        | zero =>
          simp only [List.getElem?_cons_zero, Option.some.injEq] at e
          subst e; rw [hv] at a; cases a
          simp only [Nat.add_zero] at b
          rw [ht] at b; cases b
        | succ x => exact ⟨x, j', v', by simpa using e, a, by rw [← b]; congr 1; omega⟩)
      simp [ht, ih]
    · simp [ht]

theorem typed_of_cell {a : ADF (Val F)} (ty : a.TypeOk) {k : Kind} {c : GoStr} {i : Nat} {v : Val F} (hv : a.cell k c i = some v) :
    (k = .bool → ∃ b, v = .bool b) ∧ (k = .int → ∃ n, v = .int n) ∧ (k = .float → ∃ x, v = .float x) :=
  ⟨fun e => by subst e; exact ty.1 _ _ _ hv, fun e => by subst e; exact ty.2.1 _ _ _ hv, fun e => by subst e; exact ty.2.2 _ _ _ hv⟩

theorem cell_of_col {df : DF} {h : Heap F} (wf : df.WF h) {k : Kind} {c : GoStr} (hc : ((abs h df).col k c).isSome) {i j : Nat}
    (hj : df.rows[i]? = some j) : ∃ v, h.cell (tabCol (h.tab df.tab) (k, c)) j = some v ∧ (abs h df).cell k c i = some v := by
  obtain ⟨l, hl⟩ := Option.isSome_iff_exists.1 hc
  obtain ⟨h1, h2⟩ := wf.cells hl
  have hx := cell_abs (h := h) df k c i
  rw [hj, Option.bind_some] at hx
  have hi : i < l.length := by rw [h1]; exact (List.getElem?_eq_some_iff.1 hj).1
  have hy : (abs h df).cell k c i = (l[i]?).join := by unfold ADF.cell; rw [hl]; rfl
  cases hv : l[i] with
  | none => exact absurd (hv ▸ List.getElem_mem hi) h2
  | some v =>
    rw [List.getElem?_eq_getElem hi, hv] at hy
    exact ⟨v, by rw [← hx, hy]; rfl, by rw [hy]; rfl⟩

/-- The bad elements of one column. -/
def ADF.Bad (a : ADF (Val F)) (k : Kind) (c : GoStr) (i : Nat) : Prop :=
  ∃ v, a.cell k c i = some v ∧ k = .obj ∧ a.isStr c = true ∧ a.enc = none ∧ v ≠ .nil ∧ ∀ s, v ≠ .str s

theorem head_cell [GoFloat F] {fm : Fmt F} {ff : GoStr} {df : DF} {h : Heap F} (wf : df.WF h) (ty : (abs h df).TypeOk)
    {k : Kind} {c : GoStr} (hc : ((abs h df).col k c).isSome) {i j : Nat} (hj : df.rows[i]? = some j) :
    ∃ v, h.cell (tabCol (h.tab df.tab) (k, c)) j = some v ∧ (abs h df).cell k c i = some v ∧
      ((∃ t, printCell fm ff df.enc (hdrContains h df.strHdr c) c i k v = .ok t ∧ (abs h df).Shows fm ff k c i t) ∧ ¬ (abs h df).Bad k c i ∨
        printCell fm ff df.enc (hdrContains h df.strHdr c) c i k v = .error .panic ∧ (abs h df).Bad k c i) := by
  obtain ⟨v, h1, h2⟩ := cell_of_col wf hc hj
  refine ⟨v, h1, h2, ?_⟩
  rcases printCell_spec (fm := fm) (ff := ff) (enc := df.enc) (st := hdrContains h df.strHdr c) (c := c) (i := i)
    (typed_of_cell ty h2) with ⟨t, a, b⟩ | ⟨a, b⟩
  · refine .inl ⟨⟨t, a, v, h2, b⟩, ?_⟩
    rintro ⟨v', e, rfl, s1, s2, s3, s4⟩
    rw [h2] at e; cases e
    have s1' : hdrContains h df.strHdr c = true := s1
    have s2' : df.enc = none := s2
    rw [s1', s2'] at b
    rcases b.not_bad with e | ⟨s, e⟩
    · exact s3 e
    · exact s4 s e
  · exact .inr ⟨a, v, h2, b⟩

theorem head_col [GoFloat F] (fm : Fmt F) (ff : GoStr) {df : DF} {h : Heap F} (wf : df.WF h) (ty : (abs h df).TypeOk)
    {k : Kind} {c : GoStr} (hc : ((abs h df).col k c).isSome) {m : Nat} (hm : m ≤ df.rows.length) :
    (∃ t, printVals fm ff df h k c (tabCol (h.tab df.tab) (k, c)) (df.rows.take m) 0 = .ok t ∧
      (abs h df).HeadLine fm ff m k c (c ++ b!":" ++ t ++ b!"\n")) ∧ (∀ i, i < m → ¬ (abs h df).Bad k c i) ∨
    printVals fm ff df h k c (tabCol (h.tab df.tab) (k, c)) (df.rows.take m) 0 = .error .panic ∧ ∃ i, i < m ∧ (abs h df).Bad k c i := by
  have hrow : ∀ (x j : Nat), (df.rows.take m)[x]? = some j → x < m ∧ df.rows[x]? = some j := by
    intro x j e
    rw [List.getElem?_take] at e
    split at e
    · exact ⟨by assumption, e⟩
    · cases e
  rcases Classical.em (∃ i, i < m ∧ (abs h df).Bad k c i) with hb | hb
  · right
    refine ⟨printVals_panic _ _ (fun x j e => ?_) ?_, hb⟩
    · obtain ⟨v, h1, h2, h3⟩ := head_cell (fm := fm) (ff := ff) wf ty hc (hrow x j e).2
      rw [Nat.zero_add]
      exact ⟨v, h1, h3.imp (fun a => ⟨_, a.1.choose_spec.1⟩) (fun a => a.1)⟩
    · obtain ⟨i, hi, hbad⟩ := hb
      obtain ⟨j, hj⟩ : ∃ j, df.rows[i]? = some j := ⟨_, List.getElem?_eq_getElem (by omega)⟩
      obtain ⟨v, h1, h2, h3⟩ := head_cell (fm := fm) (ff := ff) wf ty hc hj
      refine ⟨i, j, v, by rw [List.getElem?_take, if_pos hi, hj], h1, ?_⟩
      rw [Nat.zero_add]
      rcases h3 with h3 | h3
      · exact absurd hbad h3.2
      · exact h3.1
  · left
    have hn : ∀ i, i < m → ¬ (abs h df).Bad k c i := fun i hi hbad => hb ⟨i, hi, hbad⟩
    refine ⟨?_, hn⟩
    obtain ⟨ts, h1, h2, h3⟩ := printVals_ok (fm := fm) (ff := ff) (df := df) (h := h) (k := k) (c := c)
      (s := tabCol (h.tab df.tab) (k, c)) (df.rows.take m) 0 (fun x j e => by
        obtain ⟨v, h1, h2, h3⟩ := head_cell (fm := fm) (ff := ff) wf ty hc (hrow x j e).2
        rw [Nat.zero_add]
        rcases h3 with ⟨⟨t, a, _⟩, _⟩ | h3
        · exact ⟨v, t, h1, a⟩
        · exact absurd h3.2 (hn x (hrow x j e).1))
    have hl : ts.length = m := by rw [h1, List.length_take]; omega
    refine ⟨_, h2, ts, hl, fun i t e => ?_, by simp⟩
    have hi : i < m := by rw [← hl]; exact (List.getElem?_eq_some_iff.1 e).1
    obtain ⟨j, hj⟩ : ∃ j, df.rows[i]? = some j := ⟨_, List.getElem?_eq_getElem (by omega)⟩
    obtain ⟨v, a, b⟩ := h3 i j t (by rw [List.getElem?_take, if_pos hi, hj]) e
    obtain ⟨v', h1', h2', h3'⟩ := head_cell (fm := fm) (ff := ff) wf ty hc hj
    rw [a] at h1'; cases h1'
    rw [Nat.zero_add] at b
    rcases h3' with ⟨⟨t', a', b'⟩, _⟩ | h3'
    · rw [b] at a'; cases a'; exact b'
    · exact absurd h3'.2 (hn i hi)

theorem printCols_spec [GoFloat F] (fm : Fmt F) (ff : GoStr) {df : DF} {h : Heap F} (wf : df.WF h) (ty : (abs h df).TypeOk)
    {m : Nat} (hm : m ≤ df.rows.length) : ∀ (cols : List (Kind × GoStr)), (∀ kc ∈ cols, ((abs h df).col kc.1 kc.2).isSome) →
    (∃ lines : List GoStr, printCols fm ff df h (df.rows.take m) cols = .ok lines.flatten ∧
      List.Forall₂ (fun (kc : Kind × GoStr) line => (abs h df).HeadLine fm ff m kc.1 kc.2 line) cols lines) ∧
      (∀ kc ∈ cols, ∀ i, i < m → ¬ (abs h df).Bad kc.1 kc.2 i) ∨
    printCols fm ff df h (df.rows.take m) cols = .error .panic ∧ ∃ kc ∈ cols, ∃ i, i < m ∧ (abs h df).Bad kc.1 kc.2 i
  | [], _ => .inl ⟨⟨[], rfl, .nil⟩, by simp⟩
  | (k, c) :: cs, hc => by
    have ih := printCols_spec fm ff wf ty hm cs (fun kc hkc => hc kc (List.mem_cons_of_mem _ hkc))
    have h0 := head_col fm ff wf ty (hc (k, c) (List.mem_cons_self ..)) hm
    simp only [printCols]
    rcases h0 with ⟨⟨t, h1, h2⟩, hn⟩ | ⟨h1, i, h2, h3⟩
    · rcases ih with ⟨⟨ls, i1, i2⟩, i3⟩ | ⟨i1, kc, i2, i3⟩
      · left
        refine ⟨⟨(c ++ b!":" ++ t ++ b!"\n") :: ls, by simp [h1, i1], .cons h2 i2⟩, fun kc hkc => ?_⟩
        rcases List.mem_cons.1 hkc with e | e
        · subst e; exact hn
        · exact i3 kc e
      · right
        exact ⟨by simp [h1, i1], kc, List.mem_cons_of_mem _ i2, i3⟩
    · right
      exact ⟨by simp [h1], (k, c), List.mem_cons_self .., i, h2, h3⟩

/-! ### records -/

theorem recordKind_spec {h : Heap F} {df : DF} {c : GoStr} {k : Kind} (e : recordKind (h.tab df.tab) c = some k) :
    (abs h df).RecordKind c k := by
  have hs : ∀ k, ((abs h df).col k c).isSome = (AMap.get (h.tab df.tab) (k, c)).isSome := by intro k; simp [abs]
  unfold ADF.RecordKind
  simp only [hs]
  unfold recordKind at e
  split at e
  · cases e; refine ⟨by assumption, fun k' _ => ?_⟩; cases k' <;> decide
  · split at e
    · cases e; refine ⟨by assumption, fun k' hk => ?_⟩; cases k' <;> first | decide | contradiction
    · split at e
      · cases e; refine ⟨by assumption, fun k' hk => ?_⟩; cases k' <;> first | decide | contradiction
      · split at e
        · cases e; refine ⟨by assumption, fun k' hk => ?_⟩; cases k' <;> first | decide | contradiction
        · cases e

theorem recordKind_some {h : Heap F} {df : DF} {c : GoStr} (e : ∃ k, ((abs h df).col k c).isSome) :
    ∃ k, recordKind (h.tab df.tab) c = some k := by
  obtain ⟨k, hk⟩ := e
  have hs : ((abs h df).col k c).isSome = (AMap.get (h.tab df.tab) (k, c)).isSome := by simp [abs]
  rw [hs] at hk
  unfold recordKind
  split
  · exact ⟨_, rfl⟩
  · split
    · exact ⟨_, rfl⟩
    · split
      · exact ⟨_, rfl⟩
      · split
        · exact ⟨_, rfl⟩
        · cases k <;> contradiction

theorem ADF.RecordKind.unique {a : ADF (Val F)} {c : GoStr} {k k' : Kind} (h : a.RecordKind c k) (h' : a.RecordKind c k') : k = k' := by
  have h1 := h.2 k' h'.1
  have h2 := h'.2 k h.1
  have : [Kind.float, .obj, .int, .bool].idxOf k = [Kind.float, .obj, .int, .bool].idxOf k' := Nat.le_antisymm h1 h2
  clear h1 h2
  revert this
  cases k <;> cases k' <;> decide

/-- A bad element that `PrintRecords` would print. -/
def ADF.BadRecord (a : ADF (Val F)) (c : GoStr) (i : Nat) : Prop := a.RecordKind c .obj ∧ a.Bad .obj c i

theorem recordVal_spec [GoFloat F] (fm : Fmt F) (ff : GoStr) {df : DF} {h : Heap F} (wf : df.WF h) (ty : (abs h df).TypeOk)
    {c : GoStr} (hc : ∃ k, ((abs h df).col k c).isSome) {i j : Nat} (hj : df.rows[i]? = some j) :
    (∃ t, recordVal fm ff df h i j c = .ok t ∧ ∃ k, (abs h df).RecordKind c k ∧ (abs h df).Shows fm ff k c i t) ∧
      ¬ (abs h df).BadRecord c i ∨
    recordVal fm ff df h i j c = .error .panic ∧ (abs h df).BadRecord c i := by
  obtain ⟨k, hk⟩ := recordKind_some hc
  have hr := recordKind_spec hk
  obtain ⟨v, h1, h2, h3⟩ := head_cell (fm := fm) (ff := ff) wf ty hr.1 hj
  simp only [recordVal, hk, h1]
  rcases h3 with ⟨⟨t, a, b⟩, hn⟩ | ⟨a, b⟩
  · left
    refine ⟨⟨t, a, k, hr, b⟩, fun hb => ?_⟩
    have := hr.unique hb.1
    subst this
    exact hn hb.2
  · right
    obtain ⟨v', b1, b2, b3⟩ := b
    subst b2
    exact ⟨a, hr, v', b1, rfl, b3⟩

theorem recordCols_spec [GoFloat F] (fm : Fmt F) (ff : GoStr) (short : AMap GoStr GoStr) {df : DF} {h : Heap F} (wf : df.WF h)
    (ty : (abs h df).TypeOk) {i j : Nat} (hj : df.rows[i]? = some j) :
    ∀ (cols : List GoStr), (∀ c ∈ cols, ∃ k, ((abs h df).col k c).isSome) →
    (∃ ts : List GoStr, List.Forall₂ (fun c t => ∃ k, (abs h df).RecordKind c k ∧ (abs h df).Shows fm ff k c i t) cols ts ∧
      recordCols fm ff short df h i j cols =
        .ok (List.zipWith (fun c t => b!" " ++ (fm.plain (displayName short c) ++ (b!":" ++ t))) cols ts).flatten) ∧
      (∀ c ∈ cols, ¬ (abs h df).BadRecord c i) ∨
    recordCols fm ff short df h i j cols = .error .panic ∧ ∃ c ∈ cols, (abs h df).BadRecord c i
  | [], _ => .inl ⟨⟨[], .nil, rfl⟩, by simp⟩
  | c :: cs, hc => by
    have ih := recordCols_spec fm ff short wf ty hj cs (fun kc hkc => hc kc (List.mem_cons_of_mem _ hkc))
    have h0 := recordVal_spec fm ff wf ty (hc c (List.mem_cons_self ..)) hj
    simp only [recordCols]
    rcases h0 with ⟨⟨t, h1, h2⟩, hn⟩ | ⟨h1, h2⟩
    · rcases ih with ⟨⟨ls, i1, i2⟩, i3⟩ | ⟨i1, kc, i2, i3⟩
      · left
        refine ⟨⟨t :: ls, .cons h2 i1, by simp [h1, i2]⟩, fun kc hkc => ?_⟩
        rcases List.mem_cons.1 hkc with e | e
        · subst e; exact hn
        · exact i3 kc e
      · right
        exact ⟨by simp [h1, i1], kc, List.mem_cons_of_mem _ i2, i3⟩
    · right
      exact ⟨by simp [h1], c, List.mem_cons_self .., h2⟩

theorem recordRows_spec [GoFloat F] (fm : Fmt F) (ff : GoStr) (short : AMap GoStr GoStr) {df : DF} {h : Heap F} (wf : df.WF h)
    (ty : (abs h df).TypeOk) {order : List GoStr} (hc : ∀ c ∈ order, ∃ k, ((abs h df).col k c).isSome) {n : Nat}
    (hn : n ≤ df.rows.length) :
    ∀ (js : List Nat) (i : Nat), js = df.rows.drop i →
    (∃ lines : List GoStr, lines.length = n - i ∧ recordRows fm ff short df h n order js i = .ok lines.flatten ∧
      ∀ (x j : Nat) line, df.rows[i + x]? = some j → lines[x]? = some line →
        (abs h df).RecordLine fm ff (fun c => fm.plain (displayName short c)) order (intWidth ((n : Int) - 1)) (i + x) j line) ∧
      (∀ c ∈ order, ∀ x, i ≤ x → x < n → ¬ (abs h df).BadRecord c x) ∨
    recordRows fm ff short df h n order js i = .error .panic ∧ ∃ c ∈ order, ∃ x, i ≤ x ∧ x < n ∧ (abs h df).BadRecord c x
  | [], i, e => by
    have : df.rows.length ≤ i := by
      have := congrArg List.length e
      simp at this; omega
    exact .inl ⟨⟨[], by simp; omega, rfl, by simp⟩, fun c _ x h1 h2 => by omega⟩
  | j :: js, i, e => by
    have hi : i < df.rows.length := by
      have := congrArg List.length e
      simp at this; omega
    have hj : df.rows[i]? = some j := by
      have := congrArg (fun l : List Nat => l[0]?) e
      simp only [List.getElem?_cons_zero, List.getElem?_drop, Nat.add_zero] at this
      exact this.symm
    have hjs : js = df.rows.drop (i + 1) := by
      have := congrArg List.tail e
      simpa using this
    simp only [recordRows]
    by_cases hni : n ≤ i
    · rw [if_pos hni]
      exact .inl ⟨⟨[], by simp; omega, rfl, by simp⟩, fun c _ x h1 h2 => by omega⟩
    rw [if_neg hni]
    have h0 := recordCols_spec fm ff short wf ty hj order hc
    have ih := recordRows_spec fm ff short wf ty hc hn js (i + 1) hjs
    rcases h0 with ⟨⟨ts, h1, h2⟩, hnb⟩ | ⟨h1, c, h2, h3⟩
    · rcases ih with ⟨⟨ls, i1, i2, i3⟩, i4⟩ | ⟨i1, c, i2, x, i3, i4, i5⟩
      · left
        refine ⟨⟨(b!"[" ++ padInt (intWidth ((n : Int) - 1)) i ++ b!":" ++ natDec j ++ b!"]" ++
            (List.zipWith (fun c t => b!" " ++ (fm.plain (displayName short c) ++ (b!":" ++ t))) order ts).flatten ++ b!"\n") :: ls, ?_, ?_, fun x j' line e1 e2 => ?_⟩, fun c hcm x hx1 hx2 => ?_⟩
        · simp [i1]; omega
        · simp [h2, i2]
        · cases x with
          | zero =>
            simp only [Nat.add_zero] at e1
            rw [hj] at e1; cases e1
            simp only [List.getElem?_cons_zero, Option.some.injEq] at e2
            exact ⟨ts, h1, by rw [← e2]; simp [padInt]⟩
          | succ x =>
            have := i3 x j' line (by rw [← e1]; congr 1; omega) (by simpa using e2)
            rwa [show i + 1 + x = i + (x + 1) by omega] at this
        · by_cases hxe : x = i
          · subst hxe; exact hnb c hcm
          · exact i4 c hcm x (by omega) hx2
      · right
        exact ⟨by simp [h2, i1], c, i2, x, by omega, i4, i5⟩
    · right
      exact ⟨by simp [h1], c, h2, i, Nat.le_refl _, by omega, h3⟩

theorem nodup_allNames (t : Table) : (allNames t).Nodup :=
  nodup_sinsertAll (nodup_sinsertAll (nodup_sinsertAll (nodup_sinsertAll .nil _) _) _) _

theorem mem_allNames {h : Heap F} {df : DF} {c : GoStr} : c ∈ allNames (h.tab df.tab) ↔ ∃ k, ((abs h df).col k c).isSome := by
  unfold allNames
  simp only [mem_sinsertAll, List.not_mem_nil, false_or, mem_namesOf_int]
  constructor
  · rintro (((h | h) | h) | h) <;> exact ⟨_, h⟩
  · rintro ⟨k, h⟩
    cases k <;> simp [h]

theorem natDec_length {n : Nat} (d : Nat) (h1 : 10 ^ d ≤ n) (h2 : n < 10 ^ (d + 1)) : (natDec n).length = d + 1 := by
  have h0 : n ≠ 0 := by have := Nat.pow_pos (n := d) (show 0 < 10 by decide); omega
  unfold natDec
  rw [if_neg h0, List.length_map, List.length_reverse, Nat.length_digits 10 n (by decide) h0,
    Nat.log_eq_of_pow_le_of_lt_pow h1 h2]

theorem natDec_pos (n : Nat) : 0 < (natDec n).length := by
  unfold natDec
  split
  · decide
  · rename_i h
    rw [List.length_map, List.length_reverse, Nat.length_digits 10 n (by decide) h]
    omega

/-- The padding `intFormat` asks for is the number of digits of the last position (at most four). -/
theorem intWidth_spec {m i : Nat} (hi : i < m) :
    intWidth ((m : Int) - 1) - (natDec i).length = (if m ≤ 10000 then (natDec (m - 1)).length else 0) - (natDec i).length := by
  have hp := natDec_pos i
  unfold intWidth
  split
  · have : (if m ≤ 10000 then (natDec (m - 1)).length else 0) ≤ 1 := by
      rw [if_pos (by omega)]
      by_cases h0 : m - 1 = 0
      · rw [h0]; decide
      · rw [natDec_length (n := m - 1) 0 (by simp; omega) (by simp; omega)]
    omega
  · split
    · rw [if_pos (by omega), natDec_length (n := m - 1) 1 (by simp; omega) (by simp; omega)]
    · split
      · rw [if_pos (by omega), natDec_length (n := m - 1) 2 (by simp; omega) (by simp; omega)]
      · split
        · rw [if_pos (by omega), natDec_length (n := m - 1) 3 (by simp; omega) (by simp; omega)]
        · rw [if_neg (by omega)]

theorem printList_eq (l : List GoStr) : printList l = nameList l := by
  cases l with
  | nil => rfl
  | cons x xs =>
    unfold printList nameList
    have : x ++ xs.flatMap (fun y => b!" " ++ y) = ((x :: xs).intersperse b!" ").flatten := by
      induction xs generalizing x with
      | nil => simp
      | cons y ys ih =>
        rw [List.intersperse_cons₂, List.flatten_cons, List.flatten_cons, ← ih y]
        simp
    rw [← this]; simp

end Verif
