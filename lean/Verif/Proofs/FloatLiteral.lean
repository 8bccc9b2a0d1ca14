import Verif.Spec.FloatLiteral
import Verif.Proofs.Strconv

/-! `strconv.ParseFloat`: exactly which texts it takes. -/

namespace Verif
open FP

/-- To prove something of all bytes. -/
theorem byte_forall {p : UInt8 → Prop} (h : ∀ n : Fin 256, p (UInt8.ofNat n)) (b : UInt8) : p b := by
  have := h ⟨b.toNat, b.toNat_lt⟩
  simpa using this

theorem lower_x : ∀ b : UInt8, lowerByte b = 120 ↔ b = 120 ∨ b = 88 := byte_forall (by decide +kernel)
theorem lower_e : ∀ b : UInt8, lowerByte b = 101 ↔ b = 101 ∨ b = 69 := byte_forall (by decide +kernel)
theorem lower_p : ∀ b : UInt8, lowerByte b = 112 ↔ b = 112 ∨ b = 80 := byte_forall (by decide +kernel)

/-- The value of a digit, as a table. -/
def digitTab (hex : Bool) (b : UInt8) : Option ℕ :=
  if 48 ≤ b ∧ b ≤ 57 then some (b.toNat - 48)
  else if hex = true ∧ 97 ≤ b ∧ b ≤ 102 then some (b.toNat - 97 + 10)
  else if hex = true ∧ 65 ≤ b ∧ b ≤ 70 then some (b.toNat - 65 + 10)
  else none

theorem digitVal_tab (hex : Bool) : ∀ b, digitVal hex b = digitTab hex b := by
  cases hex
  · exact byte_forall (by decide +kernel)
  · exact byte_forall (by decide +kernel)

theorem digitVal_iff {hex : Bool} {b : UInt8} {d : ℕ} : digitVal hex b = some d ↔ DigitIs hex b d := by
  rw [digitVal_tab]
  unfold digitTab DigitIs
  split
  · rename_i h
    constructor
    · intro e; cases e; exact Or.inl ⟨h.1, h.2, rfl⟩
    · rintro (⟨_, _, e⟩ | ⟨_, ⟨a, _, _⟩ | ⟨a, _, _⟩⟩)
      · rw [e]
      · exact absurd (UInt8.le_trans a h.2) (by decide : ¬ (97 : UInt8) ≤ 57)
      · exact absurd (UInt8.le_trans a h.2) (by decide : ¬ (65 : UInt8) ≤ 57)
  · rename_i h
    split
    · rename_i h2
      constructor
      · intro e; cases e; exact Or.inr ⟨h2.1, Or.inl ⟨h2.2.1, h2.2.2, rfl⟩⟩
      · rintro (⟨a, b, _⟩ | ⟨_, ⟨_, _, e⟩ | ⟨_, a, _⟩⟩)
        · exact absurd ⟨a, b⟩ h
        · rw [e]
        · exact absurd (UInt8.le_trans h2.2.1 a) (by decide : ¬ (97 : UInt8) ≤ 70)
    · rename_i h2
      split
      · rename_i h3
        constructor
        · intro e; cases e; exact Or.inr ⟨h3.1, Or.inr ⟨h3.2.1, h3.2.2, rfl⟩⟩
        · rintro (⟨a, b, _⟩ | ⟨_, ⟨a, b, _⟩ | ⟨_, _, e⟩⟩)
          · exact absurd ⟨a, b⟩ h
          · exact absurd ⟨h3.1, a, b⟩ h2
          · rw [e]
      · rename_i h3
        constructor
        · intro e; cases e
        · rintro (⟨a, b, _⟩ | ⟨hx, ⟨a, b, _⟩ | ⟨a, b, _⟩⟩)
          · exact absurd ⟨a, b⟩ h
          · exact absurd ⟨hx, a, b⟩ h2
          · exact absurd ⟨hx, a, b⟩ h3

theorem digitVal_facts {hex : Bool} {b : UInt8} {d : ℕ} (h : digitVal hex b = some d) :
    b ≠ 95 ∧ b ≠ 46 ∧ b ≠ 43 ∧ b ≠ 45 ∧ b ≠ 112 ∧ b ≠ 80 := by
  have key : ∀ b : UInt8, (digitTab hex b).isSome → b ≠ 95 ∧ b ≠ 46 ∧ b ≠ 43 ∧ b ≠ 45 ∧ b ≠ 112 ∧ b ≠ 80 := by
    cases hex
    · exact byte_forall (by decide +kernel)
    · exact byte_forall (by decide +kernel)
  rw [digitVal_tab] at h
  exact key b (by rw [h]; rfl)

/-! ### the digits -/

/-- The base. -/
def baseOf (hex : Bool) : ℕ := if hex then 16 else 10

theorem ofDigits_snoc (c : ℕ) (ds : List ℕ) : Nat.ofDigits c ds.reverse = ds.foldl (fun n d => c * n + d) 0 := by
  induction ds using List.reverseRecOn with
  | nil => rfl
  | append_singleton ds d ih =>
    rw [List.reverse_append, List.foldl_append]
    simp only [List.reverse_cons, List.reverse_nil, List.nil_append, List.singleton_append, List.foldl_cons, List.foldl_nil]
    rw [Nat.ofDigits_cons, ih, add_comm]

theorem scan_digits (hex : Bool) {d s : GoStr} {ds : List ℕ} (hd : DigitsAre hex d ds) : ∀ a : Mant,
    scanMant hex a (d ++ s) =
      scanMant hex ⟨a.dot, a.some || !ds.isEmpty, ds.foldl (fun n d => baseOf hex * n + d) a.m, if a.dot then a.frac + ds.length else a.frac⟩ s := by
  induction hd with
  | nil => intro a; simp
  | cons h _ ih =>
    intro a
    have hv := digitVal_iff.2 h
    obtain ⟨n1, n2, -⟩ := digitVal_facts hv
    rw [List.cons_append, scanMant, if_neg n1, if_neg n2]
    simp only [hv]
    rw [ih]
    congr 2
    · simp
    · by_cases h : a.dot = true
      · simp only [h, if_true, List.length_cons]; omega
      · simp only [h, if_false, Bool.false_eq_true]

/-- Where the digits end. -/
theorem scan_stop (hex : Bool) (a : Mant) {s : GoStr} (h : ∀ b, s.head? = some b → b ≠ 95 ∧ (b = 46 → a.dot = true) ∧ digitVal hex b = none) :
    scanMant hex a s = (a, s) := by
  cases s with
  | nil => rfl
  | cons b s =>
    obtain ⟨h1, h2, h3⟩ := h b rfl
    rw [scanMant, if_neg h1]
    by_cases h46 : b = 46
    · rw [if_pos h46, if_pos (h2 h46)]
    · rw [if_neg h46, h3]

theorem split_digits (hex : Bool) : ∀ s : GoStr, ∃ d ds r, s = d ++ r ∧ DigitsAre hex d ds ∧ ∀ b, r.head? = some b → digitVal hex b = none
  | [] => ⟨[], [], [], rfl, .nil, by simp⟩
  | b :: s => by
    cases hb : digitVal hex b with
    | none => exact ⟨[], [], b :: s, rfl, .nil, by rintro c ⟨⟩; exact hb⟩
    | some v =>
      obtain ⟨d, ds, r, rfl, hd, hr⟩ := split_digits hex s
      exact ⟨b :: d, v :: ds, r, rfl, .cons (digitVal_iff.1 hb) hd, hr⟩

/-- All of the digits and the point. -/
theorem scan_total (hex : Bool) {s : GoStr} (h95 : 95 ∉ s) : ∃ ip is frac fp fs r dot, s = ip ++ (frac ++ r) ∧ DigitsAre hex ip is ∧
    (frac = [] ∧ fp = [] ∧ fs = [] ∨ frac = b!"." ++ fp ∧ DigitsAre hex fp fs) ∧
    scanMant hex ⟨false, false, 0, 0⟩ s = (⟨dot, !(is ++ fs).isEmpty, (is ++ fs).foldl (fun n d => baseOf hex * n + d) 0, fs.length⟩, r) := by
  obtain ⟨ip, is, r, rfl, hi, hr⟩ := split_digits hex s
  rw [scan_digits hex hi]
  by_cases hp : r.head? = some 46
  · obtain ⟨t, rfl⟩ : ∃ t, r = 46 :: t := by
      cases r with
      | nil => cases hp
      | cons b t => cases hp; exact ⟨t, rfl⟩
    obtain ⟨fp, fs, r, rfl, hf, hr2⟩ := split_digits hex t
    refine ⟨ip, is, b!"." ++ fp, fp, fs, r, true, by simp, hi, Or.inr ⟨rfl, hf⟩, ?_⟩
    rw [scanMant, if_neg (by decide), if_pos rfl, if_neg (by simp), scan_digits hex hf, scan_stop]
    · simp only [List.foldl_append]
      congr 2
      · cases is <;> cases fs <;> simp
      · simp
    · intro b hb
      refine ⟨?_, fun _ => rfl, hr2 b hb⟩
      rintro rfl
      apply h95
      have := List.mem_of_mem_head? hb
      simp [this]
  · refine ⟨ip, is, [], [], [], r, false, by simp, hi, Or.inl ⟨rfl, rfl, rfl⟩, ?_⟩
    rw [scan_stop]
    · simp
    · intro b hb
      refine ⟨?_, ?_, hr b hb⟩
      · rintro rfl
        apply h95
        have := List.mem_of_mem_head? hb
        simp [this]
      · rintro rfl; exact absurd hb hp

/-! ### the exponent -/

/-- `scanExp` on digits. -/
theorem scanExp_all : ∀ (d : GoStr) (n : ℕ), (∀ b ∈ d, isDigit b = true) → (scanExp n d).2 = [] ∧
    ∃ d₁ d₂, d = d₁ ++ d₂ ∧ (scanExp n d).1 = n * 10 ^ d₁.length + digitsVal d₁ ∧ (d₂ = [] ∨ 10000 ≤ (scanExp n d).1) ∧
      (d₁ ≠ [] → n * 10 ^ d₁.dropLast.length + digitsVal d₁.dropLast < 10000) := by
  intro d
  induction d with
  | nil => intro n _; exact ⟨rfl, [], [], rfl, by simp [scanExp, digitsVal], Or.inl rfl, by simp⟩
  | cons b d ih =>
    intro n hd
    have hb := hd b (by simp)
    have n1 : b ≠ 95 := digit_forall (p := fun b => b ≠ 95) (by decide) hb
    have hstep : scanExp n (b :: d) = scanExp (if n < 10000 then 10 * n + (b.toNat - 48) else n) d := by rw [scanExp, if_neg n1, if_pos hb]
    rw [hstep]
    by_cases hn : n < 10000
    · rw [if_pos hn]
      obtain ⟨h1, d₁, d₂, rfl, h2, h3, h4⟩ := ih (10 * n + (b.toNat - 48)) (fun x hx => hd x (by simp [hx]))
      have hval : ∀ l : GoStr, n * 10 ^ (b :: l).length + digitsVal (b :: l) = (10 * n + (b.toNat - 48)) * 10 ^ l.length + digitsVal l := by
        intro l
        have : digitsVal (b :: l) = (b.toNat - 48) * 10 ^ l.length + digitsVal l := by
          rw [← List.singleton_append, digitsVal_append]; simp [digitsVal]
        rw [this, List.length_cons, Nat.pow_succ]; ring
      refine ⟨h1, b :: d₁, d₂, rfl, by rw [h2, hval], h3, fun _ => ?_⟩
      cases d₁ with
      | nil => simpa [digitsVal] using hn
      | cons c l =>
        rw [List.dropLast_cons_of_ne_nil (by simp), hval]
        exact h4 (by simp)
    · rw [if_neg hn]
      obtain ⟨h1, -⟩ := ih n (fun x hx => hd x (by simp [hx]))
      have hst : ∀ l : GoStr, (∀ b ∈ l, isDigit b = true) → (scanExp n l).1 = n := by
        intro l
        induction l with
        | nil => intro _; rfl
        | cons c l ihl =>
          intro hl
          have hc := hl c (by simp)
          have n1 : c ≠ 95 := digit_forall (p := fun b => b ≠ 95) (by decide) hc
          rw [scanExp, if_neg n1, if_pos hc, if_neg hn]
          exact ihl fun x hx => hl x (by simp [hx])
      rw [hst d fun x hx => hd x (by simp [hx])]
      exact ⟨h1, [], b :: d, rfl, by simp [digitsVal], Or.inr (by omega), by simp⟩

theorem cut_unique {d : GoStr} {x y : ℕ} (hx : CutTo d x) (hy : CutTo d y) : x = y := by
  obtain ⟨a₁, a₂, rfl, rfl, ha, ha'⟩ := hx
  obtain ⟨b₁, b₂, he, rfl, hb, hb'⟩ := hy
  have mono : ∀ a b : GoStr, digitsVal a ≤ digitsVal (a ++ b) := by
    intro a b
    rw [digitsVal_append]
    have : 1 ≤ 10 ^ b.length := Nat.one_le_pow _ _ (by decide)
    have := Nat.mul_le_mul_left (digitsVal a) this
    omega
  have key : ∀ a₁ a₂ b₁ b₂ : GoStr, a₁ ++ a₂ = b₁ ++ b₂ → a₁.length < b₁.length → (a₂ = [] ∨ 10000 ≤ digitsVal a₁) →
      digitsVal b₁.dropLast < 10000 → False := by
    intro a₁ a₂ b₁ b₂ he hl ha hb
    rcases ha with rfl | ha
    · rw [List.append_nil] at he
      rw [he, List.length_append] at hl
      omega
    · have : ∃ t, b₁.dropLast = a₁ ++ t := by
        refine (List.prefix_of_prefix_length_le (l₃ := b₁ ++ b₂) ⟨a₂, he⟩ ?_ (by simp; omega)).imp fun _ h => h.symm
        exact (List.dropLast_prefix b₁).trans (List.prefix_append _ _)
      obtain ⟨t, ht⟩ := this
      have := mono a₁ t
      rw [← ht] at this
      omega
  rcases lt_trichotomy a₁.length b₁.length with h | h | h
  · exact (key _ _ _ _ he h ha hb').elim
  · rw [(List.append_inj he h).1]
  · exact (key _ _ _ _ he.symm h hb ha').elim

/-- `scanExp` on a text without underscores that it reads to the end. -/
theorem scanExp_iff {s : GoStr} (h95 : 95 ∉ s) {x : ℕ} : scanExp 0 s = (x, []) ↔ (∀ b ∈ s, isDigit b = true) ∧ CutTo s x := by
  have hcut : (∀ b ∈ s, isDigit b = true) → CutTo s (scanExp 0 s).1 := by
    intro hd
    obtain ⟨-, d₁, d₂, h1, h2, h3, h4⟩ := scanExp_all s 0 hd
    refine ⟨d₁, d₂, h1, by simpa using h2, h3, ?_⟩
    by_cases hd1 : d₁ = []
    · subst hd1; simp [digitsVal]
    · simpa using h4 hd1
  constructor
  · intro h
    have hall : ∀ (s : GoStr) (n : ℕ), 95 ∉ s → (scanExp n s).2 = [] → ∀ b ∈ s, isDigit b = true := by
      intro s
      induction s with
      | nil => intro _ _ _ b hb; cases hb
      | cons b s ih =>
        intro n h95 h
        have n1 : b ≠ 95 := by rintro rfl; exact h95 (by simp)
        rw [scanExp, if_neg n1] at h
        by_cases hb : isDigit b = true
        · rw [if_pos hb] at h
          intro c hc
          rcases List.mem_cons.1 hc with rfl | hc
          · exact hb
          · exact ih _ (fun h => h95 (by simp [h])) h c hc
        · rw [if_neg hb] at h; cases h
    have hd := hall s 0 h95 (by rw [h])
    refine ⟨hd, ?_⟩
    have := hcut hd
    rwa [h] at this
  · rintro ⟨hd, hc⟩
    obtain ⟨h1, -⟩ := scanExp_all s 0 hd
    have := cut_unique hc (hcut hd)
    rw [this, ← h1]

/-- An optional sign. -/
theorem readSign_total (s : GoStr) : ∃ sign, s = sign ++ (readSign s).2 ∧ SignText sign (readSign s).1 := by
  unfold readSign
  split
  · exact ⟨b!"+", rfl, Or.inl ⟨Or.inr rfl, rfl⟩⟩
  · exact ⟨b!"-", rfl, Or.inr ⟨rfl, rfl⟩⟩
  · exact ⟨[], rfl, Or.inl ⟨Or.inl rfl, rfl⟩⟩

theorem signed_eq (neg : Bool) (n : ℕ) : FP.signed neg n = if neg then -(n : ℤ) else n := by cases neg <;> rfl

theorem readExp_iff {hex : Bool} {s : GoStr} (h95 : 95 ∉ s) {x : ℤ} : readExp hex s = some (x, []) ↔ LitExp hex s x := by
  constructor
  · intro h
    cases s with
    | nil =>
      unfold readExp at h
      cases hex
      · cases h; exact Or.inl ⟨rfl, rfl, rfl⟩
      · cases h
    | cons b s =>
      rw [readExp] at h
      by_cases hb : lowerByte b = (if hex then 112 else 101)
      · rw [if_pos hb] at h
        obtain ⟨sign, hs, hsg⟩ := readSign_total s
        cases hr : (readSign s).2 with
        | nil => rw [hr] at h; cases h
        | cons c t =>
          rw [hr] at h hs
          simp only at h
          by_cases hc : isDigit c = true
          · rw [if_pos hc] at h
            have h95' : 95 ∉ c :: t := fun h' => h95 (by rw [hs]; simp only [List.mem_cons, List.mem_append] at h' ⊢; exact Or.inr (Or.inr h'))
            obtain ⟨n, hn⟩ : ∃ n, n = (scanExp 0 (c :: t)).1 := ⟨_, rfl⟩
            have h2 : (scanExp 0 (c :: t)).2 = [] := by
              have := Option.some.inj h
              exact congrArg Prod.snd this
            have h1 : FP.signed (readSign s).1 (scanExp 0 (c :: t)).1 = x := congrArg Prod.fst (Option.some.inj h)
            obtain ⟨hd, hcut⟩ := (scanExp_iff h95' (x := n)).1 (by rw [hn, ← h2])
            refine Or.inr ⟨[b], sign, _, c :: t, n, by rw [hs]; rfl, ?_, hsg, ⟨by simp, fun b hb => isDigit_iff.1 (hd b hb)⟩, hcut, ?_⟩
            · cases hex
              · simp only [Bool.false_eq_true, if_false] at hb ⊢
                rcases (lower_e b).1 hb with rfl | rfl
                · exact Or.inl rfl
                · exact Or.inr rfl
              · simp only [if_true] at hb ⊢
                rcases (lower_p b).1 hb with rfl | rfl
                · exact Or.inl rfl
                · exact Or.inr rfl
            · rw [← h1, ← hn, signed_eq]
          · rw [if_neg hc] at h; cases h
      · rw [if_neg hb] at h
        cases hex
        · cases h
        · cases h
  · rintro (⟨rfl, rfl, rfl⟩ | ⟨e, sign, neg, d, n, rfl, he, hs, hd, hcut, rfl⟩)
    · rfl
    · have hd' : ∀ b ∈ d, isDigit b = true := fun b hb => isDigit_iff.2 (hd.2 b hb)
      have h95' : 95 ∉ d := fun h' => h95 (by simp [h'])
      have hscan := (scanExp_iff h95').2 ⟨hd', hcut⟩
      have key : ∀ c : UInt8, lowerByte c = (if hex then 112 else 101) →
          readExp hex (c :: (sign ++ d)) = some (if neg then -(n : ℤ) else n, []) := by
        intro c hc
        have hr := readSign_text hs (r := d) (head_of_digits hd' (by decide))
        rw [readExp, if_pos hc, hr]
        obtain ⟨b, r, rfl⟩ := List.exists_cons_of_ne_nil hd.1
        simp only [hd' b (by simp), if_true]
        rw [hscan, signed_eq]
      cases hex
      · simp only [Bool.false_eq_true, if_false] at he key
        rcases he with rfl | rfl
        · exact key 101 (by decide)
        · exact key 69 (by decide)
      · simp only [if_true] at he key
        rcases he with rfl | rfl
        · exact key 112 (by decide)
        · exact key 80 (by decide)

theorem LitExp.head {hex : Bool} {exp : GoStr} {x : ℤ} (h : LitExp hex exp x) (b : UInt8) (hb : exp.head? = some b) :
    b ≠ 95 ∧ b ≠ 46 ∧ digitVal hex b = none := by
  rcases h with ⟨-, rfl, -⟩ | ⟨e, sign, neg, d, n, rfl, he, -⟩
  · cases hb
  · cases hex
    · simp only [Bool.false_eq_true, if_false] at he
      rcases he with rfl | rfl <;> (cases hb; decide)
    · simp only [if_true] at he
      rcases he with rfl | rfl <;> (cases hb; decide)

end Verif
