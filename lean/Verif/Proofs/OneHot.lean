import Verif.Spec.OneHot
import Verif.Proofs.Fit
import Mathlib.Data.Nat.Digits.Lemmas

/-! Lemmas for the one-hot encoder: names, and what `Fit` learns. -/

namespace Verif
variable {F : Type}

/-! ### Decimal numbers and names -/

theorem natDec_digits (n : Nat) : ∀ b ∈ natDec n, 48 ≤ b.toNat ∧ b.toNat < 58 := by
  unfold natDec
  split
  · simp
  · intro b hb
    simp only [List.mem_map, List.mem_reverse] at hb
    obtain ⟨d, hd, rfl⟩ := hb
    have := Nat.digits_lt_base (by decide : 1 < 10) hd
    simp only [UInt8.toNat_ofNat']
    omega

theorem natDec_ne_nil (n : Nat) : natDec n ≠ [] := by
  unfold natDec
  split
  · simp
  · rename_i hn
    simpa using Nat.digits_ne_nil_iff_ne_zero.2 hn

theorem natDec_inj {m n : Nat} (h : natDec m = natDec n) : m = n := by
  have key : ∀ a b : Nat, b ≠ 0 → natDec a = natDec b → a = b := by
    intro a b hb h
    unfold natDec at h
    rw [if_neg hb] at h
    split at h
    · rename_i ha
      -- the digits of b would be [0]
      exfalso
      have h' : [(48 : UInt8)] = ((Nat.digits 10 b).map fun d => UInt8.ofNat (48 + d)).reverse := by rw [← List.map_reverse]; exact h
      have h2 : ((Nat.digits 10 b).map fun d => UInt8.ofNat (48 + d)) = [48] := by
        have := congrArg List.reverse h'
        rw [List.reverse_reverse] at this; exact this.symm
      cases hd : Nat.digits 10 b with
      | nil => rw [hd] at h2; simp at h2
      | cons d l =>
        rw [hd] at h2
        simp only [List.map_cons, List.cons.injEq, List.map_eq_nil_iff] at h2
        obtain ⟨h3, rfl⟩ := h2
        have h4 : d < 10 := Nat.digits_lt_base (b := 10) (m := b) (by decide) (by rw [hd]; simp)
        have h5 : d = 0 := by
          have := congrArg UInt8.toNat h3
          simp only [UInt8.toNat_ofNat'] at this
          have h48 : (48 : UInt8).toNat = 48 := rfl
          omega
        have := Nat.ofDigits_digits 10 b
        rw [hd, h5] at this
        simp at this
        omega
    · have h2 : (Nat.digits 10 a).map (fun d => UInt8.ofNat (48 + d)) = (Nat.digits 10 b).map (fun d => UInt8.ofNat (48 + d)) := by
        have := congrArg List.reverse h
        rwa [← List.map_reverse, ← List.map_reverse, List.reverse_reverse, List.reverse_reverse] at this
      apply Nat.digits_inj_iff (b := 10) |>.1
      have inj : ∀ (l l' : List Nat), (∀ d ∈ l, d < 10) → (∀ d ∈ l', d < 10) →
          l.map (fun d => UInt8.ofNat (48 + d)) = l'.map (fun d => UInt8.ofNat (48 + d)) → l = l' := by
        intro l
        induction l with
        | nil => intro l' _ _ h; cases l' with
          | nil => rfl
          | cons => simp at h
        | cons d l ih =>
          intro l' h1 h2 h
          cases l' with
          | nil => simp at h
          | cons e l' =>
            simp only [List.map_cons, List.cons.injEq] at h
            have e1 := congrArg UInt8.toNat h.1
            simp only [UInt8.toNat_ofNat'] at e1
            have b1 := h1 d (by simp)
            have b2 := h2 e (by simp)
            rw [ih l' (fun x hx => h1 x (by simp [hx])) (fun x hx => h2 x (by simp [hx])) h.2]
            congr 1
            omega
      exact inj _ _ (fun d hd => Nat.digits_lt_base (by decide) hd) (fun d hd => Nat.digits_lt_base (by decide) hd) h2
  by_cases hn : n = 0
  · by_cases hm : m = 0
    · rw [hm, hn]
    · exact (key n m hm h.symm).symm
  · exact key m n hn h

/-- A word without underscore after the last underscore: the column and the word can be read off. -/
theorem name_inj {c c' w w' : GoStr} (hw : (95 : UInt8) ∉ w) (hw' : (95 : UInt8) ∉ w')
    (h : c ++ 95 :: w = c' ++ 95 :: w') : c = c' ∧ w = w' := by
  rw [List.append_eq_append_iff] at h
  rcases h with ⟨a, h1, h2⟩ | ⟨a, h1, h2⟩
  · cases a with
    | nil => simp at h1 h2; exact ⟨h1.symm, h2⟩
    | cons x a =>
      simp only [List.cons_append, List.cons.injEq] at h2
      exact absurd (by rw [h2.2]; simp) hw
  · cases a with
    | nil => simp at h1 h2; exact ⟨h1, h2.symm⟩
    | cons x a =>
      simp only [List.cons_append, List.cons.injEq] at h2
      exact absurd (by rw [h2.2]; simp) hw'

/-- The words used in names. -/
inductive Word where
  | cat (i : Nat) | missing | unk

def Word.bytes : Word → GoStr
  | .cat i => b!"onehot" ++ natDec i
  | .missing => b!"missing"
  | .unk => b!"unk"

theorem Word.no_underscore (w : Word) : (95 : UInt8) ∉ w.bytes := by
  cases w with
  | cat i =>
    simp only [Word.bytes, List.mem_append, not_or]
    refine ⟨by decide, fun h => ?_⟩
    have := (natDec_digits i 95 h).2
    simp at this
  | missing => decide
  | unk => decide

theorem Word.inj {w w' : Word} (h : w.bytes = w'.bytes) : w = w' := by
  cases w <;> cases w' <;> simp [Word.bytes] at h ⊢
  exact natDec_inj h

def Word.name (w : Word) (c : GoStr) : GoStr := c ++ 95 :: w.bytes

theorem Word.name_inj {w w' : Word} {c c' : GoStr} (h : w.name c = w'.name c') : c = c' ∧ w = w' :=
  let ⟨a, b⟩ := Verif.name_inj w.no_underscore w'.no_underscore h
  ⟨a, Word.inj b⟩

theorem onehotName_eq (c : GoStr) (i : Nat) : onehotName c i = (Word.cat i).name c := by
  simp [onehotName, Word.name, Word.bytes]
theorem missingName_eq (c : GoStr) : missingName c = Word.missing.name c := rfl
theorem unkName_eq (c : GoStr) : unkName c = Word.unk.name c := rfl

theorem Word.name_ne_nil (w : Word) (c : GoStr) : w.name c ≠ [] := by simp [Word.name]

/-! ### Fit -/

theorem mem_freqKeys {vals : List Int} {v : Int} : v ∈ freqKeys vals ↔ v ∈ vals ∧ v ≠ -1 := by
  simp [freqKeys]

theorem nodup_freqKeys (vals : List Int) : (freqKeys vals).Nodup := List.nodup_dedup _

theorem mostCommon_spec {vals ks : List Int} (hk : ∀ v, v ∈ ks ↔ v ∈ vals ∧ v ≠ -1) (hne : ks ≠ []) :
    MostFrequent vals (mostCommon vals ks) := by
  have key : ∀ (l : List Int) (a : Int × Int), (∀ v ∈ l, v ∈ ks) →
      let r := l.foldl (fun (a : Int × Int) v => if (vals.count v : Int) > a.2 then (v, (vals.count v : Int)) else a) a
      (∀ v ∈ l, (vals.count v : Int) ≤ r.2) ∧ a.2 ≤ r.2 ∧ (r = a ∨ (r.1 ∈ l ∧ r.2 = vals.count r.1)) := by
    intro l
    induction l with
    | nil => intro a _; exact ⟨by simp, Int.le_refl _, Or.inl rfl⟩
    | cons v l ih =>
      intro a hl
      simp only [List.foldl_cons]
      by_cases hv : (vals.count v : Int) > a.2
      · rw [if_pos hv]
        obtain ⟨h1, h2, h3⟩ := ih (v, (vals.count v : Int)) (fun x hx => hl x (by simp [hx]))
        simp only at h1 h2 h3
        refine ⟨?_, by omega, Or.inr ?_⟩
        · intro w hw
          simp only [List.mem_cons] at hw
          rcases hw with rfl | hw
          · exact h2
          · exact h1 w hw
        · rcases h3 with h3 | ⟨h3, h4⟩
          · rw [h3]; simp
          · exact ⟨by simp [h3], h4⟩
      · rw [if_neg hv]
        obtain ⟨h1, h2, h3⟩ := ih a (fun x hx => hl x (by simp [hx]))
        refine ⟨?_, h2, h3.imp id (fun ⟨x, y⟩ => ⟨by simp [x], y⟩)⟩
        intro w hw
        simp only [List.mem_cons] at hw
        rcases hw with rfl | hw
        · omega
        · exact h1 w hw
  obtain ⟨h1, h2, h3⟩ := key ks (0, -1) (fun _ h => h)
  simp only at h1 h2 h3
  unfold mostCommon
  generalize ks.foldl (fun (a : Int × Int) v => if (vals.count v : Int) > a.2 then (v, (vals.count v : Int)) else a) (0, -1) = r at h1 h2 h3
  obtain ⟨v0, hv0⟩ := List.exists_mem_of_ne_nil ks hne
  rcases h3 with h3 | ⟨h3, h4⟩
  · have := h1 v0 hv0
    rw [h3] at this
    simp only at this
    omega
  · obtain ⟨m1, m2⟩ := (hk _).1 h3
    refine ⟨m1, m2, fun w hw hw1 => ?_⟩
    have := h1 w ((hk w).2 ⟨hw, hw1⟩)
    rw [h4] at this
    exact_mod_cast this

theorem numberCats_get (col : GoStr) (i : Nat) (vs : List Int) (m : AMap Int GoStr) (nd : vs.Nodup) (v : Int) :
    AMap.get (numberCats col i vs m) v =
      if v ∈ vs then some (onehotName col (i + vs.idxOf v)) else AMap.get m v := by
  induction vs generalizing i m with
  | nil => simp [numberCats]
  | cons w vs ih =>
    obtain ⟨n1, n2⟩ := List.nodup_cons.1 nd
    simp only [numberCats]
    rw [ih _ _ n2, AMap.get_set]
    by_cases hvw : w = v
    · subst hvw; simp [n1]
    · have : v ≠ w := fun h => hvw h.symm
      simp only [hvw, if_false, List.mem_cons, this, false_or]
      split
      · rw [List.idxOf_cons_ne _ hvw]; congr 2; omega
      · rfl

/-- The code of one column. -/
def codeOf (o : OneHotOptions) (p : AMap Int GoStr × (GoStr × GoStr)) (v : Int) : Option GoStr :=
  if v = -1 then (if o.missing = .returnError then none else some p.2.1)
  else match AMap.get p.1 v with
    | some n => some n
    | none => if o.unknown = .returnError then none else some p.2.2

section col
variable {o : OneHotOptions} {sch : OneHotSched} {col : GoStr} {vals : List Int}

theorem cats_get (v : Int) : AMap.get (oneHotFitCol o sch col vals).1 v =
    if v ∈ vals ∧ v ≠ -1 then some (onehotName col ((sch.number col (freqKeys vals)).idxOf v)) else none := by
  have hp := sch.number_perm col (freqKeys vals)
  simp only [oneHotFitCol]
  rw [numberCats_get _ _ _ _ (hp.nodup_iff.2 (nodup_freqKeys vals))]
  simp only [hp.mem_iff, mem_freqKeys, AMap.get_nil, Nat.zero_add]

/-- The column of the most frequent category. -/
theorem frequent_spec (h2 : ∃ v ∈ vals, v ≠ -1) :
    MostFrequent vals (mostCommon vals (sch.common col (freqKeys vals))) := by
  refine mostCommon_spec (fun v => ?_) ?_
  · rw [(sch.common_perm col _).mem_iff, mem_freqKeys]
  · intro he
    obtain ⟨v, hv, hv1⟩ := h2
    have : v ∈ sch.common col (freqKeys vals) := by rw [(sch.common_perm col _).mem_iff, mem_freqKeys]; exact ⟨hv, hv1⟩
    rw [he] at this; cases this

/-- Name `n` is the column given to a most frequent category. -/
def IsFrequent (o : OneHotOptions) (sch : OneHotSched) (col : GoStr) (vals : List Int) (n : GoStr) : Prop :=
  ∃ v, MostFrequent vals v ∧ AMap.get (oneHotFitCol o sch col vals).1 v = some n

theorem isFrequent (h2 : ∃ v ∈ vals, v ≠ -1) :
    IsFrequent o sch col vals ((AMap.get (numberCats col 0 (sch.number col (freqKeys vals)) [])
      (mostCommon vals (sch.common col (freqKeys vals)))).getD []) := by
  have := frequent_spec (sch := sch) (col := col) h2
  refine ⟨_, this, ?_⟩
  have hc := cats_get (o := o) (sch := sch) (col := col) (vals := vals) (mostCommon vals (sch.common col (freqKeys vals)))
  rw [if_pos ⟨this.1, this.2.1⟩] at hc
  rw [hc]
  simp only [oneHotFitCol] at hc
  rw [hc]; rfl

theorem not_frequent {col : GoStr} (o : OneHotOptions) (h2 : ¬ ∃ v ∈ vals, v ≠ -1) (w : Int) :
    (AMap.get (numberCats col 0 (sch.number col (freqKeys vals)) []) w).getD [] = [] := by
  have hc := cats_get (o := o) (sch := sch) (col := col) (vals := vals) w
  rw [if_neg (fun h => h2 ⟨w, h⟩)] at hc
  simp only [oneHotFitCol] at hc
  rw [hc]; rfl

theorem fb_missing (hf : CanFit o vals) : match o.missing with
    | .returnError => True
    | .separate => (oneHotFitCol o sch col vals).2.1 = missingName col
    | .imputeMostFrequent => IsFrequent o sch col vals (oneHotFitCol o sch col vals).2.1
    | .separateIfSeen => if (-1 : Int) ∈ vals then (oneHotFitCol o sch col vals).2.1 = missingName col
        else IsFrequent o sch col vals (oneHotFitCol o sch col vals).2.1
    | .sharedSeparate => False := by
  cases hm : o.missing with
  | returnError => trivial
  | separate => simp [oneHotFitCol, hm]
  | imputeMostFrequent =>
    have := isFrequent (o := o) (sch := sch) (col := col) (vals := vals) (hf.imputeMissing (Or.inl hm))
    simpa only [oneHotFitCol, hm, ne_eq, reduceCtorEq, not_false_eq_true, true_or, if_true] using this
  | separateIfSeen =>
    simp only
    split
    · rename_i hx; simp [oneHotFitCol, hm, hx]
    · rename_i hx
      have := isFrequent (o := o) (sch := sch) (col := col) (vals := vals) (hf.imputeMissing (Or.inr ⟨hm, hx⟩))
      simpa only [oneHotFitCol, hm, ne_eq, reduceCtorEq, not_false_eq_true, true_or, if_true, hx, if_false] using this
  | sharedSeparate => exact hf.missing hm

theorem fb_unknown (hf : CanFit o vals) : match o.unknown with
    | .returnError => True
    | .separate => (oneHotFitCol o sch col vals).2.2 = unkName col
    | .imputeMostFrequent => IsFrequent o sch col vals (oneHotFitCol o sch col vals).2.2
    | .sharedSeparate => (oneHotFitCol o sch col vals).2.2 = (oneHotFitCol o sch col vals).2.1
    | .separateIfSeen => False := by
  cases hm : o.unknown with
  | returnError => trivial
  | separate => simp [oneHotFitCol, hm]
  | imputeMostFrequent =>
    have := isFrequent (o := o) (sch := sch) (col := col) (vals := vals) (hf.imputeUnknown hm)
    simpa only [oneHotFitCol, hm, ne_eq, reduceCtorEq, not_false_eq_true, or_true, if_true] using this
  | sharedSeparate => simp [oneHotFitCol, hm]
  | separateIfSeen => exact hf.unknown hm

/-- C38, one column: what `Fit` learns. -/
theorem learnt (hf : CanFit o vals) : Learnt o col vals (codeOf o (oneHotFitCol o sch col vals)) := by
  have hseen : ∀ v ∈ vals, v ≠ -1 → codeOf o (oneHotFitCol o sch col vals) v =
      some (onehotName col ((sch.number col (freqKeys vals)).idxOf v)) := by
    intro v hv h1
    simp only [codeOf, if_neg h1, cats_get, if_pos (And.intro hv h1)]
  have hfreq : ∀ n, IsFrequent o sch col vals n → ∃ v, MostFrequent vals v ∧ some n = codeOf o (oneHotFitCol o sch col vals) v := by
    rintro n ⟨v, h1, h2⟩
    refine ⟨v, h1, ?_⟩
    simp only [codeOf, if_neg h1.2.1, h2]
  have hm1 : codeOf o (oneHotFitCol o sch col vals) (-1) =
      if o.missing = .returnError then none else some (oneHotFitCol o sch col vals).2.1 := by simp [codeOf]
  have hunk : ∀ v, v ≠ -1 → v ∉ vals → codeOf o (oneHotFitCol o sch col vals) v =
      if o.unknown = .returnError then none else some (oneHotFitCol o sch col vals).2.2 := by
    intro v h1 h2
    simp [codeOf, h1, cats_get, h2]
  constructor
  · intro v hv h1; exact ⟨_, hseen v hv h1⟩
  · intro v hv h1 w hw h2 e
    rw [hseen v hv h1, hseen w hw h2, Option.some.injEq, onehotName_eq, onehotName_eq] at e
    have e1 := (Word.name_inj e).2
    simp only [Word.cat.injEq] at e1
    have hp := sch.number_perm col (freqKeys vals)
    exact (List.idxOf_inj (hp.mem_iff.2 (mem_freqKeys.2 ⟨hv, h1⟩))).1 e1
  · have := fb_missing (sch := sch) (col := col) hf
    rw [hm1]
    revert this
    cases hm : o.missing with
    | returnError => simp
    | separate => intro h; simp [h]
    | imputeMostFrequent => intro h; simpa using hfreq _ h
    | separateIfSeen =>
      simp only
      intro h
      split
      · rename_i hx; rw [if_pos hx] at h; simp [h]
      · rename_i hx; rw [if_neg hx] at h; simpa using hfreq _ h
    | sharedSeparate => exact fun h => h
  · intro v h1 h2
    have := fb_unknown (sch := sch) (col := col) hf
    rw [hunk v h1 h2, hm1]
    revert this
    cases hm : o.unknown with
    | returnError => simp
    | separate => intro h; simp [h]
    | imputeMostFrequent => intro h; simpa using hfreq _ h
    | sharedSeparate => intro h; simp [h, hf.shared hm]
    | separateIfSeen => exact fun h => h
  · intro v w h1 h2 h3 h4; rw [hunk v h1 h2, hunk w h3 h4]

theorem fallback_ok (hf : CanFit o vals) : fallbackMissing o (oneHotFitCol o sch col vals).2 = false := by
  have hfr : ∀ n, IsFrequent o sch col vals n → n ≠ [] := by
    rintro n ⟨v, h1, h2⟩
    rw [cats_get, if_pos ⟨h1.1, h1.2.1⟩, Option.some.injEq, onehotName_eq] at h2
    rw [← h2]; exact Word.name_ne_nil _ _
  have a1 : o.missing ≠ .returnError → (oneHotFitCol o sch col vals).2.1 ≠ [] := by
    intro hne
    have := fb_missing (sch := sch) (col := col) hf
    revert this
    cases hm : o.missing with
    | returnError => exact absurd hm hne
    | separate => intro h; simp only at h; rw [h, missingName_eq]; exact Word.name_ne_nil _ _
    | imputeMostFrequent => exact hfr _
    | separateIfSeen =>
      intro h
      simp only at h
      split at h
      · rw [h, missingName_eq]; exact Word.name_ne_nil _ _
      · exact hfr _ h
    | sharedSeparate => exact False.elim
  have a2 : o.unknown ≠ .returnError → (oneHotFitCol o sch col vals).2.2 ≠ [] := by
    intro hne
    have := fb_unknown (sch := sch) (col := col) hf
    revert this
    cases hm : o.unknown with
    | returnError => exact absurd hm hne
    | separate => intro h; simp only at h; rw [h, unkName_eq]; exact Word.name_ne_nil _ _
    | imputeMostFrequent => exact hfr _
    | sharedSeparate => intro h; simp only at h; rw [h]; exact a1 (hf.shared hm)
    | separateIfSeen => exact False.elim
  unfold fallbackMissing
  simp only [Bool.or_eq_false_iff, Bool.and_eq_false_iff, decide_eq_false_iff_not, ne_eq, Decidable.not_not]
  constructor
  · by_cases h : o.missing = .returnError
    · exact Or.inr h
    · exact Or.inl (a1 h)
  · by_cases h : o.unknown = .returnError
    · exact Or.inr h
    · exact Or.inl (a2 h)

theorem fallback_bad (hf : ¬ CanFit o vals) : fallbackMissing o (oneHotFitCol o sch col vals).2 = true := by
  unfold fallbackMissing
  simp only [Bool.or_eq_true, Bool.and_eq_true, decide_eq_true_eq]
  by_contra hcon
  rw [not_or, not_and, not_and] at hcon
  obtain ⟨c1, c2⟩ := hcon
  apply hf
  refine ⟨?_, ?_, ?_, ?_, ?_⟩
  · intro hm
    exact c1 (by simp [oneHotFitCol, hm]) (by simp [hm])
  · intro hm
    exact c2 (by simp [oneHotFitCol, hm]) (by simp [hm])
  · intro hm
    by_contra hno
    rcases hm with hm | ⟨hm, hx⟩
    · refine c1 ?_ (by simp [hm])
      simp only [oneHotFitCol, hm]
      exact not_frequent o hno _
    · refine c1 ?_ (by simp [hm])
      simp only [oneHotFitCol, hm, hx, if_false]
      exact not_frequent o hno _
  · intro hm
    by_contra hno
    refine c2 ?_ (by simp [hm])
    simp only [oneHotFitCol, hm]
    exact not_frequent o hno _
  · intro hm hm2
    exact c2 (by simp [oneHotFitCol, hm, hm2]) (by simp [hm])

end col

end Verif
