import Verif.Proofs.Preproc

/-! What the fitting loops compute. -/

namespace Verif
variable {F : Type}

theorem foldlM_ok {α σ : Type} {f : σ → α → Except Abort σ} {g : σ → α → σ} (l : List α)
    (hf : ∀ a ∈ l, ∀ s, f s a = .ok (g s a)) (s : σ) : l.foldlM f s = .ok (l.foldl g s) := by
  induction l generalizing s with
  | nil => rfl
  | cons a l ih =>
    rw [List.foldlM_cons, hf a (by simp)]
    exact ih (fun b hb => hf b (by simp [hb])) _

theorem runQueue_ok {σ : Type} {keys order : List GoStr} {mw : Int} {job : GoStr → σ → Except Abort σ} {g : σ → GoStr → σ}
    (hw : keys = [] ∨ 0 < mw) (hne : [] ∉ keys) (hp : order.Perm keys) (hj : ∀ c ∈ keys, ∀ s, job c s = .ok (g s c)) (s : σ) :
    runQueue keys order mw job s = .ok (order.foldl g s) := by
  unfold runQueue
  split
  · rename_i hk; subst hk; rw [hp.eq_nil]; rfl
  · rename_i hk
    rw [if_neg (by rintro (h | h)
                   · rcases hw with h' | h'
                     · exact hk h'
                     · omega
                   · exact hne h)]
    exact foldlM_ok order (fun c hc s => hj c (hp.mem_iff.1 hc) s) s

/-- Filling a map key by key. -/
theorem get_foldl_set {α : Type} (v : GoStr → α) (l : List GoStr) (m : AMap GoStr α) (c : GoStr) :
    AMap.get (l.foldl (fun m c => AMap.set m c (v c)) m) c = if c ∈ l then some (v c) else AMap.get m c := by
  induction l generalizing m with
  | nil => simp
  | cons d l ih =>
    simp only [List.foldl_cons]
    rw [ih, AMap.get_set]
    simp only [List.mem_cons]
    by_cases h1 : c ∈ l
    · simp [h1]
    · by_cases h2 : c = d
      · subst h2; simp [h1]
      · simp [h1, h2, Ne.symm h2]

theorem nodup_foldl_set {α : Type} (v : GoStr → α) (l : List GoStr) (m : AMap GoStr α) (nd : (AMap.keys m).Nodup) :
    (AMap.keys (l.foldl (fun m c => AMap.set m c (v c)) m)).Nodup := by
  induction l generalizing m with
  | nil => exact nd
  | cons d l ih => exact ih _ (AMap.nodup_set nd d (v d))

theorem get_foldl_setOpt {α : Type} (v : GoStr → Option α) (l : List GoStr) (m : AMap GoStr α) (c : GoStr) :
    AMap.get (l.foldl (fun m c => setOpt m c (v c)) m) c = if c ∈ l then (v c).or (AMap.get m c) else AMap.get m c := by
  induction l generalizing m with
  | nil => simp
  | cons d l ih =>
    simp only [List.foldl_cons]
    rw [ih]
    cases hd : v d with
    | none =>
      simp only [setOpt, List.mem_cons]
      by_cases h2 : c = d
      · subst h2; simp [hd]
      · simp [h2]
    | some x =>
      simp only [setOpt, AMap.get_set, List.mem_cons]
      by_cases h2 : c = d
      · subst h2; simp [hd]
      · simp [h2, Ne.symm h2]

theorem nodup_foldl_setOpt {α : Type} (v : GoStr → Option α) (l : List GoStr) (m : AMap GoStr α) (nd : (AMap.keys m).Nodup) :
    (AMap.keys (l.foldl (fun m c => setOpt m c (v c)) m)).Nodup := by
  induction l generalizing m with
  | nil => exact nd
  | cons d l ih =>
    refine ih _ ?_
    show (AMap.keys (setOpt m d (v d))).Nodup
    cases v d with
    | none => exact nd
    | some x => exact AMap.nodup_set nd d x

theorem imputerSum_eq [GoFloat F] (vals : List F) : imputerSum vals = (fsum (present vals), (present vals).length) := by
  unfold imputerSum fsum present
  suffices H : ∀ (s : F) (n : Nat), vals.foldl (fun a v => if GoFloat.isNaN v then a else (GoFloat.add a.1 v, a.2 + 1)) (s, n)
      = ((vals.filter (fun x => !GoFloat.isNaN x)).foldl GoFloat.add s, n + (vals.filter (fun x => !GoFloat.isNaN x)).length) by
    rw [H]; simp
  induction vals with
  | nil => intro s n; rfl
  | cons v vs ih =>
    intro s n
    simp only [List.foldl_cons]
    by_cases hv : GoFloat.isNaN v
    · simp only [hv, if_true, List.filter_cons, Bool.not_true, Bool.false_eq_true, if_false]; exact ih s n
    · simp only [Bool.not_eq_true] at hv
      simp only [hv, List.filter_cons, Bool.not_false, if_true, List.foldl_cons, List.length_cons, Bool.false_eq_true, if_false]
      rw [ih]; simp; omega

theorem imputerMean_eq [GoFloat F] (vals : List F) : imputerMean vals = fmean vals := by
  simp [imputerMean, imputerSum_eq, fmean]

/-- What `df.Floats(c)` reads. -/
theorem floatVals_of_floats [GoFloat F] {df : DF} {h : Heap F} {c : GoStr} {vals : List F}
    (hv : (abs h df).floats c = some vals) : df.floatVals h c = .ok vals := by
  simp only [ADF.floats, abs] at hv
  unfold DF.floatVals
  cases hs : AMap.get (h.tab df.tab) (.float, c) with
  | none => rw [hs] at hv; cases hv
  | some s =>
    rw [hs] at hv
    simp only [Option.map_some] at hv
    have : ∀ (rows : List Nat) (vals : List F),
        (rows.map (h.cell s)).mapM (fun v => match v with | some (.float x) => some x | _ => none) = some vals →
        gather h s rows = .ok (vals.map .float) := by
      intro rows
      induction rows with
      | nil => intro vals hv; simp at hv; subst hv; rfl
      | cons r rows ih =>
        intro vals hv
        simp only [List.map_cons, List.mapM_cons] at hv
        cases hc : h.cell s r with
        | none => rw [hc] at hv; cases hv
        | some v =>
          rw [hc] at hv
          cases v with
          | float x =>
            simp only [Option.pure_def, Option.bind_eq_bind, Option.bind_some, Option.bind_eq_some_iff] at hv
            obtain ⟨ys, h1, h2⟩ := hv
            cases h2
            simp only [gather, hc, ih ys h1, List.map_cons]
          | _ => cases hv
    simp only [this _ _ hv, List.map_map]
    congr 1
    induction vals with
    | nil => rfl
    | cons x xs _ => simp [Function.comp_def, asFloat]

theorem mem_namesOf_iff {h : Heap F} {df : DF} {c : GoStr} :
    c ∈ namesOf (h.tab df.tab) .float ↔ ((abs h df).col .float c).isSome := by
  rw [show ((abs h df).col .float c).isSome = (AMap.get (h.tab df.tab) (.float, c)).isSome from by simp [abs],
    AMap.get_isSome_iff]
  simp only [namesOf, AMap.keys, List.mem_map, List.mem_filter]
  constructor
  · rintro ⟨x, ⟨h1, h2⟩, rfl⟩
    refine ⟨x, h1, ?_⟩
    simp at h2
    exact Prod.ext h2 rfl
  · rintro ⟨x, h1, h2⟩
    exact ⟨x, ⟨h1, by simp [h2]⟩, by rw [h2]⟩

/-- The float columns, with their numbers. -/
def FloatCols (a : ADF (Val F)) (vals : GoStr → List F) : Prop :=
  ∀ c, (a.col .float c).isSome → a.floats c = some (vals c)

end Verif
