import Verif.Model.DataFrame

namespace Verif
namespace AMap
variable {κ α β : Type} [DecidableEq κ]

@[simp] theorem get_nil (k : κ) : get ([] : AMap κ α) k = none := rfl

theorem get_cons (k q : κ) (v : α) (m : AMap κ α) :
    get ((k, v) :: m) q = if k = q then some v else get m q := rfl

theorem get_set (m : AMap κ α) (k q : κ) (v : α) :
    get (set m k v) q = if k = q then some v else get m q := by
  induction m with
  | nil => simp [set, get]
  | cons e m ih =>
    obtain ⟨k', v'⟩ := e
    simp only [set]
    by_cases h : k' = k
    · subst h; simp only [if_true, get_cons]; split <;> rfl
    · simp only [h, if_false, get_cons, ih]
      by_cases h1 : k' = q
      · subst h1; simp [Ne.symm h]
      · simp [h1]

theorem get_erase (m : AMap κ α) (k q : κ) :
    get (erase m k) q = if k = q then none else get m q := by
  induction m with
  | nil => simp [erase]
  | cons e m ih =>
    obtain ⟨k', v'⟩ := e
    simp only [erase]
    by_cases h : k' = k
    · subst h; simp only [if_true, ih, get_cons]; split <;> rfl
    · simp only [h, if_false, get_cons, ih]
      by_cases h1 : k' = q
      · subst h1; simp [Ne.symm h]
      · simp [h1]

theorem get_filter (p : κ → Bool) (m : AMap κ α) (q : κ) :
    get (m.filter (fun e => p e.1)) q = if p q then get m q else none := by
  induction m with
  | nil => simp
  | cons e m ih =>
    obtain ⟨k, v⟩ := e
    by_cases hp : p k
    · rw [List.filter_cons_of_pos (by simpa using hp)]
      simp only [get_cons, ih]
      by_cases h : k = q
      · subst h; simp [hp]
      · simp [h]
    · rw [List.filter_cons_of_neg (by simpa using hp)]
      simp only [get_cons, ih]
      by_cases h : k = q
      · subst h; simp [hp]
      · simp [h]

theorem mem_of_get {m : AMap κ α} {k : κ} {v : α} (h : get m k = some v) : (k, v) ∈ m := by
  induction m with
  | nil => simp at h
  | cons e m ih =>
    obtain ⟨k', v'⟩ := e
    rw [get_cons] at h
    by_cases hk : k' = k
    · subst hk; simp at h; subst h; simp
    · simp [hk] at h; exact List.mem_cons_of_mem _ (ih h)

theorem get_of_mem {m : AMap κ α} (hn : (keys m).Nodup) {k : κ} {v : α} (h : (k, v) ∈ m) :
    get m k = some v := by
  induction m with
  | nil => simp at h
  | cons e m ih =>
    obtain ⟨k', v'⟩ := e
    rw [get_cons]
    simp only [keys, List.map_cons, List.nodup_cons] at hn
    rcases List.mem_cons.1 h with h | h
    · cases h; simp
    · have : k' ≠ k := by
        rintro rfl
        exact hn.1 (List.mem_map.2 ⟨_, h, rfl⟩)
      simp [this, ih hn.2 h]

theorem get_eq_none_iff (m : AMap κ α) (k : κ) : get m k = none ↔ k ∉ keys m := by
  induction m with
  | nil => simp [keys]
  | cons e m ih =>
    obtain ⟨k', v'⟩ := e
    rw [get_cons]
    by_cases h : k' = k
    · subst h; simp [keys]
    · simp only [h, if_false, ih, keys, List.map_cons, List.mem_cons]
      simp [Ne.symm h]

theorem get_isSome_iff (m : AMap κ α) (k : κ) : (get m k).isSome ↔ k ∈ keys m := by
  have := get_eq_none_iff m k
  rw [Option.isSome_iff_ne_none, ne_eq, this]; simp

theorem keys_set (m : AMap κ α) (k : κ) (v : α) :
    keys (set m k v) = if k ∈ keys m then keys m else keys m ++ [k] := by
  induction m with
  | nil => simp [set, keys]
  | cons e m ih =>
    obtain ⟨k', v'⟩ := e
    simp only [set]
    by_cases h : k' = k
    · subst h; simp [keys]
    · simp only [h, if_false]
      simp only [keys, List.map_cons, List.mem_cons, Ne.symm h, false_or] at ih ⊢
      rw [ih]
      by_cases hk : k ∈ List.map (fun x => x.fst) m <;> simp [hk]

theorem keys_erase (m : AMap κ α) (k : κ) :
    keys (erase m k) = (keys m).filter (fun x => decide (x ≠ k)) := by
  induction m with
  | nil => simp [erase, keys]
  | cons e m ih =>
    obtain ⟨k', v'⟩ := e
    simp only [erase]
    by_cases h : k' = k
    · subst h; simp [keys] at ih ⊢; exact ih
    · simp only [h, if_false]
      simp only [keys, List.map_cons] at ih ⊢
      rw [ih]; simp [h]

theorem nodup_set {m : AMap κ α} (hn : (keys m).Nodup) (k : κ) (v : α) :
    (keys (set m k v)).Nodup := by
  rw [keys_set]; split
  · exact hn
  · rename_i h
    rw [List.nodup_append]
    refine ⟨hn, by simp, ?_⟩
    intro a ha b hb; simp at hb; subst hb; rintro rfl; exact h ha

theorem nodup_erase {m : AMap κ α} (hn : (keys m).Nodup) (k : κ) : (keys (erase m k)).Nodup := by
  rw [keys_erase]; exact List.Nodup.sublist List.filter_sublist hn

omit [DecidableEq κ] in
theorem nodup_filter {m : AMap κ α} (hn : (keys m).Nodup) (p : κ × α → Bool) :
    (keys (m.filter p)).Nodup :=
  List.Nodup.sublist (List.Sublist.map _ (List.filter_sublist)) hn

end AMap
end Verif
