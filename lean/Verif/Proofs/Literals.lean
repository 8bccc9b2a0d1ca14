import Verif.Spec.CSVParsing

/-! The model's `ParseBool` and `ParseInt` read exactly the literals of `Verif.Spec.CSVParsing`. -/

namespace Verif

theorem parseBool_iff {v : GoStr} {b : Bool} : parseBool v = some b ↔ BoolLit v b := by
  constructor
  · intro h
    unfold parseBool at h
    split at h
    · rename_i hm
      cases h
      simp only [List.mem_cons, List.not_mem_nil, or_false] at hm
      rcases hm with rfl | rfl | rfl | rfl | rfl | rfl <;> constructor
    · split at h
      · rename_i hm
        cases h
        simp only [List.mem_cons, List.not_mem_nil, or_false] at hm
        rcases hm with rfl | rfl | rfl | rfl | rfl | rfl <;> constructor
      · cases h
  · intro h
    cases h <;> decide

theorem foldl_digits (ds : List Nat) (hd : ∀ d ∈ ds, d < 10) (a : Nat) :
    (asciiDigits ds).foldl (fun n b => 10 * n + (b.toNat - 48)) a = 10 ^ ds.length * a + decimal ds := by
  induction ds generalizing a with
  | nil => simp [asciiDigits, decimal]
  | cons d ds ih =>
    have h1 := hd d (by simp)
    have e : (UInt8.ofNat (48 + d)).toNat = 48 + d := by
      rw [UInt8.toNat_ofNat']; omega
    have := ih (fun x hx => hd x (by simp [hx])) (10 * a + (48 + d - 48))
    simp only [asciiDigits, decimal, List.map_cons, List.foldl_cons, List.length_cons, List.reverse_cons, Nat.ofDigits_append,
      Nat.ofDigits_singleton, List.length_reverse, e] at this ⊢
    rw [this]
    have : 48 + d - 48 = d := by omega
    rw [this]; ring

theorem parseDigits_iff {s : GoStr} {n : Nat} : parseDigits s = some n ↔
    ∃ ds : List Nat, ds ≠ [] ∧ (∀ d ∈ ds, d < 10) ∧ s = asciiDigits ds ∧ n = decimal ds := by
  unfold parseDigits
  constructor
  · intro h
    split at h
    · rename_i hs
      obtain ⟨hne, hall⟩ := hs
      simp only [List.all_eq_true, decide_eq_true_eq] at hall
      have hd : ∀ d ∈ s.map (fun b => b.toNat - 48), d < 10 := by
        intro d hd
        obtain ⟨b, hb, rfl⟩ := List.mem_map.1 hd
        have := hall b hb
        omega
      have e : s = asciiDigits (s.map fun b => b.toNat - 48) := by
        unfold asciiDigits
        rw [List.map_map]
        conv => lhs; rw [← List.map_id s]
        apply List.map_congr_left
        intro b hb
        have := hall b hb
        have e : 48 + (b.toNat - 48) = b.toNat := by omega
        simp only [id, Function.comp, e, UInt8.ofNat_toNat]
      have hne' : s.map (fun b => b.toNat - 48) ≠ [] := fun h0 => hne (List.map_eq_nil_iff.1 h0)
      have key := foldl_digits _ hd 0
      rw [← e] at key
      generalize List.map (fun b : UInt8 => b.toNat - 48) s = ds at *
      refine ⟨ds, hne', hd, e, ?_⟩
      rw [Option.some_inj] at h
      rw [← h, key, Nat.mul_zero, Nat.zero_add]
    · cases h
  · rintro ⟨ds, hne, hd, rfl, rfl⟩
    rw [if_pos, foldl_digits _ hd]
    · simp
    · refine ⟨by simpa [asciiDigits] using hne, ?_⟩
      simp only [List.all_eq_true, decide_eq_true_eq, asciiDigits, List.mem_map]
      rintro b ⟨d, hd', rfl⟩
      have := hd d hd'
      rw [UInt8.toNat_ofNat']; omega

theorem asciiDigits_head {ds : List Nat} (hd : ∀ d ∈ ds, d < 10) {b : UInt8} {r : GoStr} (e : b :: r = asciiDigits ds) :
    b ≠ 45 ∧ b ≠ 43 := by
  cases ds with
  | nil => simp [asciiDigits] at e
  | cons d ds =>
    simp only [asciiDigits, List.map_cons, List.cons.injEq] at e
    have h1 := hd d (by simp)
    have e1 : b.toNat = 48 + d := by rw [e.1, UInt8.toNat_ofNat']; omega
    constructor
    · rintro rfl; change 45 = _ at e1; omega
    · rintro rfl; change 43 = _ at e1; omega

theorem parseInt_iff {v : GoStr} {n : Int} : parseInt v = some n ↔ IntLit v n := by
  unfold parseInt IntLit
  have pp : (b!"+" : GoStr) = [43] := rfl
  have pm : (b!"-" : GoStr) = [45] := rfl
  rw [pp, pm]
  cases v with
  | nil =>
    simp only [reduceCtorEq, List.cons_append, List.nil_append, false_and, or_self, or_false, false_iff]
    rintro ⟨_, ds, hne, _, e, _⟩
    exact hne (by simpa [asciiDigits] using e.symm)
  | cons b r =>
    simp only [List.cons_append, List.nil_append, List.cons.injEq]
    by_cases h45 : b = 45
    · subst h45
      rw [if_pos rfl]
      constructor
      · intro h
        obtain ⟨m, hm, h⟩ := Option.bind_eq_some_iff.1 h
        obtain ⟨ds, hne, hd, rfl, rfl⟩ := parseDigits_iff.1 hm
        split at h
        · cases h
          exact ⟨by omega, ds, hne, hd, Or.inr (Or.inr ⟨⟨rfl, rfl⟩, rfl⟩)⟩
        · cases h
      · rintro ⟨hr, ds, hne, hd, h | h | h⟩
        · exact absurd rfl (asciiDigits_head hd h.1).1
        · exact absurd h.1.1 (by decide)
        · obtain ⟨⟨_, rfl⟩, rfl⟩ := h
          rw [parseDigits_iff.2 ⟨ds, hne, hd, rfl, rfl⟩]
          simp only [Option.bind_some]
          rw [if_pos (by omega)]
    · rw [if_neg h45]
      by_cases h43 : b = 43
      · subst h43
        rw [if_pos rfl]
        constructor
        · intro h
          obtain ⟨m, hm, h⟩ := Option.bind_eq_some_iff.1 h
          obtain ⟨ds, hne, hd, rfl, rfl⟩ := parseDigits_iff.1 hm
          split at h
          · cases h
            exact ⟨by omega, ds, hne, hd, Or.inr (Or.inl ⟨⟨rfl, rfl⟩, rfl⟩)⟩
          · cases h
        · rintro ⟨hr, ds, hne, hd, h | h | h⟩
          · exact absurd rfl (asciiDigits_head hd h.1).2
          · obtain ⟨⟨_, rfl⟩, rfl⟩ := h
            rw [parseDigits_iff.2 ⟨ds, hne, hd, rfl, rfl⟩]
            simp only [Option.bind_some]
            rw [if_pos (by omega)]
          · exact absurd h.1.1 (by decide)
      · rw [if_neg h43]
        constructor
        · intro h
          obtain ⟨m, hm, h⟩ := Option.bind_eq_some_iff.1 h
          obtain ⟨ds, hne, hd, e, rfl⟩ := parseDigits_iff.1 hm
          split at h
          · cases h
            exact ⟨by omega, ds, hne, hd, Or.inl ⟨e, rfl⟩⟩
          · cases h
        · rintro ⟨hr, ds, hne, hd, h | h | h⟩
          · obtain ⟨e, rfl⟩ := h
            rw [parseDigits_iff.2 ⟨ds, hne, hd, e, rfl⟩]
            simp only [Option.bind_some]
            rw [if_pos (by omega)]
          · exact absurd h.1.1 h43
          · exact absurd h.1.1 h45

theorem no_boolLit {v : GoStr} (h : parseBool v = none) (b : Bool) : ¬ BoolLit v b := by
  intro hb; rw [← parseBool_iff, h] at hb; cases hb

theorem no_intLit {v : GoStr} (h : parseInt v = none) (n : Int) : ¬ IntLit v n := by
  intro hb; rw [← parseInt_iff, h] at hb; cases hb

end Verif
