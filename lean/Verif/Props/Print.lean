import Verif.Model.Print
import Verif.Props.Headers
import Verif.Props.Demo

/-! C54: `GoodShortNames`. -/

namespace Verif
open scoped Demo
variable {F : Type}

theorem firstFree_some {inv : AMap GoStr GoStr} {col p : GoStr} {len n : Nat} (h : firstFree inv col len n = some p) :
    ∃ l, len ≤ l ∧ l < len + n ∧ p = col.take l ∧ AMap.get inv p = none := by
  induction n generalizing len with
  | zero => simp [firstFree] at h
  | succ n ih =>
    unfold firstFree at h
    split at h
    · rename_i hf
      cases h
      exact ⟨len, Nat.le_refl _, by omega, rfl, Option.isNone_iff_eq_none.1 hf⟩
    · obtain ⟨l, h1, h2, h3, h4⟩ := ih h
      exact ⟨l, by omega, by omega, h3, h4⟩

theorem firstFree_none {inv : AMap GoStr GoStr} {col : GoStr} {len n : Nat} (h : firstFree inv col len n = none) :
    ∀ l, len ≤ l → l < len + n → ∃ c, AMap.get inv (col.take l) = some c := by
  induction n generalizing len with
  | zero => intro l h1 h2; omega
  | succ n ih =>
    unfold firstFree at h
    split at h
    · cases h
    · rename_i hf
      intro l h1 h2
      by_cases he : l = len
      · subst he
        cases hg : AMap.get inv (col.take l) with
        | none => rw [hg] at hf; exact absurd rfl hf
        | some c => exact ⟨c, rfl⟩
      · exact ih h l (by omega) (by omega)

/-- The inverse map once the columns `done` are visited. -/
structure ShortInv (m : Nat) (done : List GoStr) (inv : AMap GoStr GoStr) : Prop where
  keys : (AMap.keys inv).Nodup
  sound : ∀ p c, AMap.get inv p = some c → c ∈ done ∧ p <+: c ∧ m ≤ p.length
  once : ∀ p p' c, AMap.get inv p = some c → AMap.get inv p' = some c → p = p'
  full : ∀ c ∈ done, (∃ p, AMap.get inv p = some c) ∨
    ∀ l, m ≤ l → l ≤ c.length → ∃ c', c' ≠ c ∧ AMap.get inv (c.take l) = some c'

theorem ShortInv.step {m : Nat} {done : List GoStr} {inv : AMap GoStr GoStr} (s : ShortInv m done inv) {col : GoStr}
    (hn : col ∉ done) : ShortInv m (done ++ [col]) (shortStep m inv col) := by
  unfold shortStep
  cases hf : firstFree inv col m (col.length + 1 - m) with
  | none =>
    have hx := firstFree_none hf
    refine ⟨s.keys, fun p c h => ?_, s.once, fun c hc => ?_⟩
    · obtain ⟨a, b⟩ := s.sound p c h
      exact ⟨by simp [a], b⟩
    · rcases List.mem_append.1 hc with hc | hc
      · exact s.full c hc
      · simp at hc; subst hc
        right
        intro l h1 h2
        obtain ⟨c', hc'⟩ := hx l h1 (by omega)
        exact ⟨c', fun e => hn (e ▸ (s.sound _ _ hc').1), hc'⟩
  | some p =>
    obtain ⟨l, h1, h2, rfl, hfree⟩ := firstFree_some hf
    simp only
    have hl : l ≤ col.length := by omega
    have old : ∀ q c, AMap.get inv q = some c → AMap.get (AMap.set inv (col.take l) col) q = some c := by
      intro q c hq
      rw [AMap.get_set, if_neg (fun e => by rw [← e, hfree] at hq; cases hq)]
      exact hq
    refine ⟨AMap.nodup_set s.keys _ _, fun q c h => ?_, fun q q' c h h' => ?_, fun c hc => ?_⟩
    · rw [AMap.get_set] at h
      split at h
      · rename_i e
        cases h; subst e
        refine ⟨by simp, List.take_prefix _ _, ?_⟩
        rw [List.length_take]; omega
      · obtain ⟨a, b⟩ := s.sound q c h
        exact ⟨by simp [a], b⟩
    · rw [AMap.get_set] at h h'
      split at h <;> split at h'
      · rename_i e1 e2; rw [← e1, ← e2]
      · cases h; exact absurd (s.sound _ _ h').1 hn
      · cases h'; exact absurd (s.sound _ _ h).1 hn
      · exact s.once q q' c h h'
    · rcases List.mem_append.1 hc with hc | hc
      · rcases s.full c hc with ⟨q, hq⟩ | hall
        · exact Or.inl ⟨q, old q c hq⟩
        · right
          intro l' a b
          obtain ⟨c', hne, hg⟩ := hall l' a b
          exact ⟨c', hne, old _ _ hg⟩
      · simp at hc; subst hc
        exact Or.inl ⟨c.take l, by rw [AMap.get_set, if_pos rfl]⟩

theorem ShortInv.fold {m : Nat} (l : List GoStr) : ∀ {done : List GoStr} {inv : AMap GoStr GoStr}, ShortInv m done inv →
    (done ++ l).Nodup → ShortInv m (done ++ l) (l.foldl (shortStep m) inv) := by
  induction l with
  | nil => intro done inv s _; simpa using s
  | cons c cs ih =>
    intro done inv s nd
    have hn : c ∉ done := by
      intro hx
      rw [List.nodup_append] at nd
      exact nd.2.2 c hx c (by simp) rfl
    have := ih (s.step hn) (by simpa using nd)
    simpa using this

/-- Turning an injective list of pairs around. -/
theorem get_foldl_swap (l : AMap GoStr GoStr) : ∀ (r : AMap GoStr GoStr), (l.map (·.2)).Nodup → ∀ (c p : GoStr),
    (AMap.get (l.foldl (fun r e => AMap.set r e.2 e.1) r) c = some p ↔ (p, c) ∈ l ∨ (c ∉ l.map (·.2) ∧ AMap.get r c = some p)) := by
  induction l with
  | nil => intro r _ c p; simp
  | cons e l ih =>
    obtain ⟨q, d⟩ := e
    intro r nd c p
    rw [List.map_cons, List.nodup_cons] at nd
    rw [List.foldl_cons, ih _ nd.2, AMap.get_set]
    simp only [List.mem_cons, Prod.mk.injEq, List.map_cons, not_or]
    by_cases hd : d = c
    · subst hd
      simp only [if_true, Option.some.injEq, nd.1, not_false_eq_true, true_and, not_true_eq_false, false_and, or_false, and_true]
      have : (p, d) ∉ l := fun h => nd.1 (List.mem_map.2 ⟨_, h, rfl⟩)
      simp only [this, false_or, or_false]
      exact eq_comm
    · rw [if_neg hd]
      simp [Ne.symm hd]

theorem nodup_hdrList_kind (h : Heap F) (t : Nat) (k : Kind) : (hdrList (kindHeader h t k).2 (kindHeader h t k).1).Nodup := by
  unfold kindHeader
  split
  · simp [hdrList]
  · simp only [hdrList, Heap.newHdr, if_true]
    exact nodup_sinsertAll' List.nodup_nil _
where
  nodup_sinsertAll' {s : List GoStr} (hs : s.Nodup) (cs : List GoStr) : (sinsertAll s cs).Nodup := by
    unfold sinsertAll
    induction cs generalizing s with
    | nil => exact hs
    | cons c cs ih =>
      apply ih
      unfold sinsert
      split
      · exact hs
      · rename_i hc
        rw [List.nodup_append]
        refine ⟨hs, by simp, ?_⟩
        intro a ha b hb e
        simp at hb
        subst hb; subst e
        exact hc ha

theorem nodup_hdrAnd (h : Heap F) (o : Option Nat) (os : List (Option Nat)) (ho : (hdrList h o).Nodup) :
    (hdrList (hdrAnd h o os).2 (hdrAnd h o os).1).Nodup := by
  have key : ∀ (os : List (Option Nat)) (h : Heap F) (i : Nat), (h.hdr i).Nodup →
      ((os.foldl (fun h o' => h.setHdr i (sinsertAll (h.hdr i) (hdrList h o'))) h).hdr i).Nodup := by
    intro os
    induction os with
    | nil => intro h i hi; exact hi
    | cons o os ih =>
      intro h i hi
      rw [List.foldl_cons]
      apply ih
      simp only [Heap.setHdr, if_true]
      exact nodup_hdrList_kind.nodup_sinsertAll' hi _
  unfold hdrAnd
  cases o with
  | none => simp only [hdrList]; apply key; simp [Heap.newHdr]
  | some i => simp only [hdrList]; exact key os h i ho

theorem nodup_header (h : Heap F) (t : Nat) : (hdrList (header h t).2 (header h t).1).Nodup := by
  unfold header
  simp only
  apply nodup_hdrAnd
  have n1 := nodup_hdrList_kind h t .int
  obtain ⟨h4, e⟩ : ∃ h4, h4 = (kindHeader (kindHeader (kindHeader (kindHeader h t .int).2 t .bool).2 t .obj).2 t .float).2 := ⟨_, rfl⟩
  have a1 := kindHeader_spec h t .int
  have a2 := (kindHeader_spec (kindHeader h t .int).2 t .bool).1
  have a3 := (kindHeader_spec (kindHeader (kindHeader h t .int).2 t .bool).2 t .obj).1
  have a4 := (kindHeader_spec (kindHeader (kindHeader (kindHeader h t .int).2 t .bool).2 t .obj).2 t .float).1
  have ext := (a2.trans a3).trans a4
  cases ho : (kindHeader h t .int).1 with
  | none => simp [hdrList]
  | some i =>
    rw [ho] at n1
    simp only [hdrList] at n1 ⊢
    rw [ext.hdr i (a1.2.2.1 i ho).2]
    exact n1

/-- The minimum length that `GoodShortNames` works with. -/
def effMin (minLength : Int) : Nat := if minLength ≤ 0 then 3 else minLength.toNat

theorem goodShortNames_spec (df : DF) (h : Heap F) {ord : List GoStr → List GoStr} (h1 : ∀ l, (ord l).Perm l)
    {ord2 : AMap GoStr GoStr → AMap GoStr GoStr} (h2 : ∀ l, (ord2 l).Perm l) (minLength : Int) :
    ∃ inv names, ShortInv (effMin minLength) names inv ∧ (∀ c, c ∈ names ↔ ∃ k, ((abs h df).col k c).isSome) ∧
      ∀ c p, AMap.get (df.goodShortNames h ord ord2 minLength) c = some p ↔ AMap.get inv p = some c := by
  have hs := header_spec h df.tab
  have nd := nodup_header h df.tab
  unfold DF.goodShortNames
  generalize header h df.tab = q at hs nd ⊢
  obtain ⟨hd, h'⟩ := q
  dsimp only at hs nd ⊢
  have em : (if minLength ≤ 0 then 3 else minLength).toNat = effMin minLength := by
    unfold effMin; split <;> rfl
  rw [em]
  have base : ShortInv (effMin minLength) [] ([] : AMap GoStr GoStr) :=
    ⟨by simp [AMap.keys], by simp [AMap.get], by simp [AMap.get], by simp⟩
  have s := base.fold (ord (hdrList h' hd)) (by simpa using (h1 _).nodup_iff.2 nd)
  rw [List.nil_append] at s
  refine ⟨_, _, s, ?_, ?_⟩
  · intro c
    rw [(h1 _).mem_iff, hs.2]
    simp [abs]
  · intro c p
    generalize hI : (ord (hdrList h' hd)).foldl (shortStep (effMin minLength)) [] = inv at s ⊢
    have hv : ((ord2 inv).map (·.2)).Nodup := by
      rw [((h2 inv).map _).nodup_iff]
      have hk := s.keys
      unfold AMap.keys at hk
      rw [List.Nodup, List.pairwise_map] at hk ⊢
      refine List.Pairwise.imp_of_mem ?_ hk
      intro a b ha hb hne e
      refine hne (s.once a.1 b.1 a.2 (AMap.get_of_mem s.keys ha) ?_)
      rw [e]; exact AMap.get_of_mem s.keys hb
    rw [get_foldl_swap (ord2 inv) [] hv]
    simp only [AMap.get, reduceCtorEq, and_false, or_false]
    rw [(h2 inv).mem_iff]
    exact ⟨fun h => AMap.get_of_mem s.keys h, fun h => AMap.mem_of_get h⟩

/-- **C54** (shorthands). Whatever the iteration orders, `GoodShortNames` maps columns of the dataframe to
prefixes of their names of at least the requested length (3 when it is not positive), and no two columns to
the same prefix. A column gets none only when all its long enough prefixes belong to other columns. -/
theorem C54_shorthands_partial (df : DF) (h : Heap F) {ord : List GoStr → List GoStr} (h1 : ∀ l, (ord l).Perm l)
    {ord2 : AMap GoStr GoStr → AMap GoStr GoStr} (h2 : ∀ l, (ord2 l).Perm l) (minLength : Int)
    {short : AMap GoStr GoStr} (hs : short = df.goodShortNames h ord ord2 minLength) :
    (∀ c p, AMap.get short c = some p → (∃ k, ((abs h df).col k c).isSome) ∧ p <+: c ∧
      (if minLength ≤ 0 then 3 else minLength) ≤ p.length) ∧
    (∀ c c' p, AMap.get short c = some p → AMap.get short c' = some p → c = c') ∧
    (∀ k c, ((abs h df).col k c).isSome → AMap.get short c = none →
      ∀ p, p <+: c → (if minLength ≤ 0 then 3 else minLength) ≤ p.length → ∃ c', c' ≠ c ∧ AMap.get short c' = some p) := by
  obtain ⟨inv, names, s, hn, hg⟩ := goodShortNames_spec df h h1 h2 minLength
  rw [← hs] at hg
  have em : ∀ n : Nat, effMin minLength ≤ n ↔ (if minLength ≤ 0 then 3 else minLength) ≤ (n : Int) := by
    intro n; unfold effMin; split <;> omega
  refine ⟨?_, ?_, ?_⟩
  · intro c p hc
    obtain ⟨a, b, d⟩ := s.sound p c ((hg c p).1 hc)
    exact ⟨(hn c).1 a, b, (em _).1 d⟩
  · intro c c' p a b
    have a := (hg c p).1 a
    have b := (hg c' p).1 b
    rw [a] at b
    exact Option.some.inj b
  · intro k c hc hnone p hp hl
    rcases s.full c ((hn c).2 ⟨k, hc⟩) with ⟨q, hq⟩ | hall
    · rw [(hg c q).2 hq] at hnone; cases hnone
    · obtain ⟨c', hne, hq⟩ := hall p.length ((em _).2 hl) hp.length_le
      refine ⟨c', hne, (hg c' p).2 ?_⟩
      rw [← List.prefix_iff_eq_take.1 hp] at hq
      exact hq

/-- **C54** (what is displayed). Two columns are displayed under the same name only if the name of one of them is
a proper prefix of the other's and it has no shorthand itself. In particular the display is unambiguous when
no column name is a prefix of another. -/
theorem C54_display_partial (df : DF) (h : Heap F) {ord : List GoStr → List GoStr} (h1 : ∀ l, (ord l).Perm l)
    {ord2 : AMap GoStr GoStr → AMap GoStr GoStr} (h2 : ∀ l, (ord2 l).Perm l) (minLength : Int)
    {short : AMap GoStr GoStr} (hs : short = df.goodShortNames h ord ord2 minLength) {c c' : GoStr} (hne : c ≠ c')
    (hd : displayName short c = displayName short c') :
    (c <+: c' ∧ AMap.get short c = none ∧ AMap.get short c' = some c) ∨
    (c' <+: c ∧ AMap.get short c' = none ∧ AMap.get short c = some c') := by
  obtain ⟨a, b, _⟩ := C54_shorthands_partial df h h1 h2 minLength hs
  unfold displayName at hd
  cases e1 : AMap.get short c with
  | none =>
    cases e2 : AMap.get short c' with
    | none => rw [e1, e2] at hd; exact absurd hd hne
    | some p =>
      rw [e1, e2] at hd
      simp at hd
      subst hd
      exact Or.inl ⟨(a c' c e2).2.1, rfl, rfl⟩
  | some p =>
    cases e2 : AMap.get short c' with
    | none =>
      rw [e1, e2] at hd
      simp at hd
      subst hd
      exact Or.inr ⟨(a c p e1).2.1, rfl, rfl⟩
    | some p' =>
      rw [e1, e2] at hd
      simp at hd
      subst hd
      exact absurd (b c c' p e1 e2) hne

namespace Demo

/-- Columns "abcd" and "abc". -/
def snOps : List (BOp Int) := [.add .int b!"abcd" [.int 1], .add .int b!"abc" [.int 1]]

def snDF : DF × Heap Int := match (build snOps heap0).1.toDataFrame (build snOps heap0).2 with
  | .ok p => p
  | .error _ => (df, heap0)

example : snDF.1.goodShortNames snDF.2 List.reverse id 2 = [(b!"abc", b!"ab"), (b!"abcd", b!"abc")] := by decide +kernel

end Demo

/-- C54 is false of the code as to what is displayed: when the long name is visited first, the columns "abcd" and
"abc" are both displayed as "abc". -/
theorem C54_display_refuted : ∃ (df : DF) (h : Heap Int) (ord : List GoStr → List GoStr), (∀ l, (ord l).Perm l) ∧
    ((abs h df).col .int b!"abcd").isSome ∧ ((abs h df).col .int b!"abc").isSome ∧
    displayName (df.goodShortNames h ord id 3) b!"abcd" = displayName (df.goodShortNames h ord id 3) b!"abc" :=
  ⟨Demo.snDF.1, Demo.snDF.2, id, fun _ => List.Perm.refl _, by decide +kernel, by decide +kernel, by decide +kernel⟩

end Verif
