import Verif.Model.Disk
import Verif.Spec.Disk
import Verif.Props.CSVText
import Verif.Props.CSVFiles

namespace Verif
variable {F : Type}

theorem Disk.putAll_other (d : Disk) {l : List (GoStr × GoStr)} {p : GoStr} (hp : p ∉ l.map (·.1)) : d.putAll l p = d p := by
  induction l generalizing d with
  | nil => rfl
  | cons x l ih =>
    obtain ⟨q, s⟩ := x
    simp only [List.map_cons, List.mem_cons, not_or] at hp
    rw [Disk.putAll, ih _ hp.2, Disk.put, if_neg hp.1]

theorem Disk.putAll_at (d : Disk) {l : List (GoStr × GoStr)} (nd : (l.map (·.1)).Nodup) {p s : GoStr} (hp : (p, s) ∈ l) :
    d.putAll l p = some s := by
  induction l generalizing d with
  | nil => cases hp
  | cons x l ih =>
    obtain ⟨q, s'⟩ := x
    simp only [List.map_cons, List.nodup_cons] at nd
    rw [Disk.putAll]
    rcases List.mem_cons.1 hp with e | hp
    · cases e
      rw [Disk.putAll_other _ nd.1, Disk.put, if_pos rfl]
    · exact ih _ nd.2 hp

theorem Disk.create_all {can : GoStr → Bool} {ps : List GoStr} (hc : ∀ p ∈ ps, can p = true) (d : Disk) :
    d.create can ps = (true, d.putAll (ps.map fun p => (p, []))) := by
  induction ps generalizing d with
  | nil => rfl
  | cons p ps ih =>
    rw [Disk.create, if_pos (hc p (by simp)), ih (fun q hq => hc q (by simp [hq]))]
    rfl

/-- The parts of an even share: which rows they have. -/
theorem parts_at {m : Nat} (parts : List (List Nat)) (i L : Nat) (hf : parts.flatten = List.range' i L)
    (hle : ∀ p ∈ parts, p.length ≤ m) (hfull : ∀ p ∈ parts.dropLast, p.length = m) {j : Nat} {is : List Nat} (hj : parts[j]? = some is) :
    is = List.range' (i + j * m) (min m (L - j * m)) := by
  induction parts generalizing i L j with
  | nil => simp at hj
  | cons p ps ih =>
    have hL : p.length ≤ L := by
      have := congrArg List.length hf
      simp at this; omega
    rw [List.flatten_cons] at hf
    have hsplit : p = List.range' i p.length ∧ ps.flatten = List.range' (i + p.length) (L - p.length) := by
      have e : List.range' i L = List.range' i p.length ++ List.range' (i + p.length) (L - p.length) := by
        rw [show List.range' (i + p.length) (L - p.length) = List.range' (i + 1 * p.length) (L - p.length) by simp, List.range'_append]
        congr 1; omega
      rw [e] at hf
      exact List.append_inj hf (by simp)
    obtain ⟨hp, hps⟩ := hsplit
    cases ps with
    | nil =>
      cases j with
      | succ j => simp at hj
      | zero =>
        simp at hj
        subst hj
        have hll : L = p.length := by
          have := congrArg List.length hps
          simp at this; omega
        have := hle p (by simp)
        rw [hll]
        simp only [Nat.zero_mul, Nat.add_zero, Nat.sub_zero]
        rwa [Nat.min_eq_right this]
    | cons q qs =>
      have hm : p.length = m := hfull p (by simp)
      cases j with
      | zero =>
        simp at hj
        subst hj
        simp only [Nat.zero_mul, Nat.add_zero, Nat.sub_zero]
        rw [Nat.min_eq_left (by omega), ← hm]
        exact hp
      | succ j =>
        have := ih (i + p.length) (L - p.length) hps (fun x hx => hle x (by simp [hx]))
          (fun x hx => hfull x (by rw [List.dropLast_cons_of_ne_nil (by simp)]; exact List.mem_cons_of_mem _ hx)) (j := j) (by simpa using hj)
        rw [this, hm, Nat.succ_mul]
        congr 1 <;> omega

theorem parts_length {m : Nat} (l : List (List Nat)) (h : ∀ p ∈ l, p.length ≤ m) : l.flatten.length ≤ l.length * m := by
  induction l with
  | nil => simp
  | cons p l ih =>
    have h1 := h p (by simp)
    have h2 := ih fun p hp => h p (by simp [hp])
    simp only [List.flatten_cons, List.length_append, List.length_cons, Nat.add_mul, Nat.one_mul]
    omega

/-- There is a share for every file iff the first ones leave rows to the last one. -/
theorem shares_count {rows N m : Nat} (hN : 1 ≤ N) (h0 : 0 < rows) (hm : m = (rows + N - 1) / N) {parts : List (List Nat)}
    (hpf : parts.flatten = List.range rows) (hle : parts.length ≤ N) (hev : EvenParts rows N parts) :
    parts.length = N ↔ (N - 1) * m < rows := by
  have hlen := parts_length parts hev.le
  rw [← hm, hpf, List.length_range] at hlen
  constructor
  · intro h
    have hp := parts_at (m := m) parts 0 rows (by rw [hpf, List.range_eq_range']) (by rw [hm]; exact hev.le) (by rw [hm]; exact hev.full)
      (List.getElem?_eq_getElem (show N - 1 < parts.length by omega))
    have := hev.rest h0 _ (List.getElem_mem (show N - 1 < parts.length by omega))
    refine Classical.byContradiction fun hn => this ?_
    rw [hp, show rows - (N - 1) * m = 0 by omega, Nat.min_zero]
    rfl
  · intro h
    refine Classical.byContradiction fun hn => ?_
    have : parts.length * m ≤ (N - 1) * m := Nat.mul_le_mul_right _ (by omega)
    omega

end Verif
