import Verif.Props.StrconvShortest
import Verif.Props.Float64Demo

/-! C84: dataframes of floats survive being written to CSV and read again. -/

namespace Verif
namespace Float64
open FP

theorem fmtFloat64_chars (x : Float64) : fmtFloat64 x ≠ [] ∧ 13 ∉ fmtFloat64 x := by
  have key : ∀ t s n e, DecText t s n e → t ≠ [] ∧ 13 ∉ t := by
    intro t s n e h
    constructor
    · rintro rfl
      obtain ⟨sign, ip, frac, fp, exp, x, he, -, -, hf, hne, -⟩ := h
      have he := he.symm
      simp only [List.append_eq_nil_iff] at he
      obtain ⟨rfl, rfl, rfl, rfl⟩ := he
      rcases hf with ⟨-, rfl⟩ | ⟨h, -⟩
      · exact hne rfl
      · cases h
    · intro hm
      have := h.chars _ hm
      revert this; decide
  cases x with
  | nan => decide
  | inf s => cases s <;> decide
  | fin s m e h =>
    by_cases hm : m = 0
    · unfold fmtFloat64
      simp only [if_pos hm]
      cases s <;> decide
    · unfold fmtFloat64
      simp only [if_neg hm]
      exact key _ _ _ _ (decFixed_text s _ _)

theorem not_infix_of_not_mem {f : GoStr} (h : 13 ∉ f) : ∀ crlf, TextSafe crlf f := by
  intro crlf
  unfold TextSafe
  split
  · exact h
  · rintro ⟨a, b, e⟩
    apply h
    rw [← e]
    simp

/-- **C84** (a dataframe of floats). Take any dataframe with float columns only, with names that are not empty and without carriage
returns. It is written with `To1CSV`, in whatever order, with any separator, and the text is read with `FromCSV`, by however many
goroutines. If no missing value is the text of a float, and every column has a number that is not whole (NaN or an infinity will do), the
result has the same columns with the same floats: NaN where there was NaN, the same infinities, the same zeros. -/
theorem C84_floats_roundtrip {df : DF} {h : Heap Float64} {opt : CSVWritingSpec}
    (wf : df.WF h) {ord : Kind → List GoStr → List GoStr} (ho : ∀ k l, (ord k l).Perm l)
    (hm : opt.maintainOrder = true ∨ df.indexViewed = false) (full : Nat → Bool)
    {jobs : List GoStr → List GoStr} (hj : ∀ l, (jobs l).Perm l) (who : GoStr → Nat)
    {spec : CSVReadingSpec} (hd : spec.Default) (hh : spec.header = []) (he : spec.exclude = [])
    (hmiss : ∀ s ∈ spec.missingValues, parseFloat64 s = none)
    {t : CSVTextSpec} (ht : TextFits opt.comma t) (ht0 : t.comment = 0) (crlf : Bool)
    (hcols : ∀ k c l, (abs h df).col k c = some l → k = .float ∧ c ≠ [] ∧ 13 ∉ c ∧
      ∃ xs : List Float64, l = xs.map (fun x => some (.float x)) ∧ ∃ x ∈ xs, ¬ Whole x)
    (hstr : ∀ c, (abs h df).isStr c = false) (hsome : ∃ c, ((abs h df).col .float c).isSome) :
    ∃ w h1 r h2 df2 h3, df.to1CSV fmtFloat64 ord (newCsvSink none full) opt h = .ok ((true, w), h1) ∧
      fromCSV parseFloat64 jobs who (csvRead t (csvText opt.comma crlf w.written)) spec h1 = .ok (some r, h2) ∧
      r.toDataFrame h2 = .ok (df2, h3) ∧ df2.WF h3 ∧
      (abs h3 df2).nRows = (abs h df).nRows ∧ (∀ k c, (abs h3 df2).col k c = (abs h df).col k c) ∧
      (∀ c, (abs h3 df2).isStr c = false) := by
  have hwr : ∀ k c, (abs h df).Written k c → k = .float ∧ ∃ l, (abs h df).col .float c = some l := by
    intro k c hw
    unfold ADF.Written at hw
    split at hw
    · rw [hstr] at hw; cases hw
    · obtain ⟨l, hl⟩ := Option.isSome_iff_exists.1 hw
      obtain ⟨rfl, -⟩ := hcols k c l hl
      exact ⟨rfl, l, hl⟩
  have hwr' : ∀ k c, ((abs h df).col k c).isSome → (abs h df).Written k c := by
    intro k c hs
    obtain ⟨l, hl⟩ := Option.isSome_iff_exists.1 hs
    obtain ⟨rfl, -⟩ := hcols k c l hl
    exact hs
  obtain ⟨w, h1, r, h2, df2, h3, e1, e2, e3, wf3, e4, e5, e6, e7⟩ := C84_roundtrip_partial wf ho hm full hj who hd hh he ht ht0 crlf
    (by
      intro k c hw
      obtain ⟨rfl, l, hl⟩ := hwr k c hw
      obtain ⟨-, -, -, xs, rfl, x, hx, hnw⟩ := hcols _ _ _ hl
      refine ⟨xs.map .float, by rw [hl, List.map_map]; rfl, ?_, x, List.mem_map_of_mem hx, hnw⟩
      intro v hv
      obtain ⟨y, -, rfl⟩ := List.mem_map.1 hv
      refine ⟨y, rfl, fun hy => ?_⟩
      have := hmiss _ hy
      rw [C84_back] at this
      cases this)
    (fun k k' c g g' => (hwr k c g).1.trans (hwr k' c g').1.symm)
    (fun k hk => by
      obtain ⟨rfl, l, hl⟩ := hwr k _ hk
      exact (hcols _ _ _ hl).2.1 rfl)
    (by
      obtain ⟨c, hc⟩ := hsome
      exact ⟨.float, c, hwr' _ _ hc⟩)
    (by
      intro k c hw
      obtain ⟨rfl, l, hl⟩ := hwr k _ hw
      refine ⟨not_infix_of_not_mem (hcols _ _ _ hl).2.2.1 _, ?_⟩
      intro r v x hv hx
      cases hx
      exact not_infix_of_not_mem (fmtFloat64_chars _).2 _)
    (Or.inr (by
      intro k c hw r v hv hx
      obtain ⟨rfl, l, hl⟩ := hwr k _ hw
      generalize hx2 : ([] : GoStr) = s at hx
      cases hx
      exact (fmtFloat64_chars _).1 hx2.symm))
  refine ⟨w, h1, r, h2, df2, h3, e1, e2, e3, wf3, e4, ?_, fun c => by rw [e7, hstr]⟩
  intro k c
  by_cases hw : (abs h df).Written k c
  · exact e5 k c hw
  · rw [e6 k c hw]
    cases hc : (abs h df).col k c with
    | none => rfl
    | some l => exact absurd (hwr' k c (by rw [hc]; rfl)) hw

/-- An instance: 1/10 and -0, NaN and 5e-324 survive. -/
example : ∃ (df : DF) (h : Heap Float64), df.WF h ∧ (abs h df).floats b!"p" = some [dec 1 10, FP.zero _ true] ∧
    ∃ w h1 r h2 df2 h3, df.to1CSV fmtFloat64 (fun _ l => l) (newCsvSink none fun _ => false) Demo.csvOpt h = .ok ((true, w), h1) ∧
      fromCSV parseFloat64 List.reverse List.length (csvRead Demo.plainText (csvText Demo.csvOpt.comma true w.written)) Demo.rtSpec h1 = .ok (some r, h2) ∧
      r.toDataFrame h2 = .ok (df2, h3) ∧ (abs h3 df2).col .float b!"p" = some [some (.float (dec 1 10)), some (.float (FP.zero _ true))] ∧
      (abs h3 df2).col .float b!"t" = some [some (.float .nan), some (.float (.fin false 1 (-1074) (by decide)))] := by
  obtain ⟨ops, hops⟩ : ∃ ops : List (BOp Float64), ops = [.add .float b!"p" [.float (dec 1 10), .float (FP.zero _ true)],
    .add .float b!"t" [.float .nan, .float (.fin false 1 (-1074) (by decide))]] := ⟨_, rfl⟩
  have hcol : ∀ k c, specCol ops k c = if Kind.float = k ∧ b!"t" = c then some [.float .nan, .float (.fin false 1 (-1074) (by decide))]
      else if Kind.float = k ∧ b!"p" = c then some [.float (dec 1 10), .float (FP.zero _ true)] else none := by
    intro k c; subst hops
    simp only [specCol, BOp.stepCol, List.foldl_cons, List.foldl_nil]
    by_cases h1 : Kind.float = k ∧ b!"t" = c
    · have h2 : ¬ (Kind.float = k ∧ b!"p" = c) := by rintro ⟨-, e⟩; rw [← h1.2] at e; exact absurd e (by decide)
      rw [if_neg h2, if_pos h1, if_pos h1]; rfl
    · rw [if_neg h1, if_neg h1]; simp
  obtain ⟨df, h, -, wf, -, hn, hc, hs, -⟩ := C20_toDataFrame_ok ops heap0 2
    (by
      intro k c l h1
      rw [hcol] at h1
      split at h1
      · cases h1; rfl
      · split at h1
        · cases h1; rfl
        · cases h1)
    ⟨.float, b!"p", by rw [hcol]; simp⟩
  have e1 : (abs h df).col .float b!"p" = some [some (.float (dec 1 10)), some (.float (FP.zero _ true))] := by rw [hc, hcol]; simp
  have e2 : (abs h df).col .float b!"t" = some [some (.float .nan), some (.float (.fin false 1 (-1074) (by decide)))] := by rw [hc, hcol]; simp
  have hfl : (abs h df).floats b!"p" = some [dec 1 10, FP.zero _ true] := by unfold ADF.floats; rw [e1]; rfl
  have hw1 : ¬ Whole (dec 1 10) := by
    rintro ⟨-, n, hn⟩
    have hlt : FP.lt (FP.zero _ false) (dec 1 10) = true ∧ FP.lt (dec 1 10) (FP.ofInt 1) = true := by decide +kernel
    have hf : (dec 1 10).Finite := (finite_iff64 _).1 (by decide +kernel)
    have h1 := (lt_iff (zero_finite false) hf).1 hlt.1
    have h2 := (lt_iff hf (ofInt_exact (f := binary64) (n := 1) (by decide) (by decide) (by norm_num [binary64])).1).1 hlt.2
    rw [(ofInt_exact (f := binary64) (n := 1) (by decide) (by decide) (by norm_num [binary64])).2, hn] at h2
    rw [zero_val, hn] at h1
    have h1 : 0 < n := by exact_mod_cast h1
    have h2 : n < 1 := by exact_mod_cast h2
    omega
  obtain ⟨w, h1, r, h2, df2, h3, a, b, c, -, -, d, -⟩ := C84_floats_roundtrip (df := df) (h := h) (opt := Demo.csvOpt) wf (ord := fun _ l => l) (fun _ _ => .refl _)
    (Or.inl rfl) (fun _ => false) (jobs := List.reverse) (fun l => List.reverse_perm l) List.length (spec := Demo.rtSpec) ⟨rfl, rfl, rfl⟩ rfl rfl
    (by decide +kernel) (t := Demo.plainText) Demo.plainText_fits rfl true
    (by
      intro k c l hl
      rw [hc, hcol] at hl
      split at hl
      · rename_i hk
        obtain ⟨rfl, rfl⟩ := hk
        cases hl
        exact ⟨rfl, by decide, by decide, [.nan, .fin false 1 (-1074) (by decide)], rfl, .nan, by simp, fun h => h.1⟩
      · split at hl
        · rename_i hk
          obtain ⟨rfl, rfl⟩ := hk
          cases hl
          exact ⟨rfl, by decide, by decide, [dec 1 10, FP.zero _ true], rfl, dec 1 10, by simp, hw1⟩
        · cases hl)
    (by
      intro c
      cases hb : (abs h df).isStr c with
      | false => rfl
      | true =>
        exfalso
        have := (hs c).1 hb
        subst hops
        simp [specMark] at this)
    ⟨b!"p", by rw [e1]; rfl⟩
  exact ⟨df, h, wf, hfl, w, h1, r, h2, df2, h3, a, b, c, by rw [d, e1], by rw [d, e2]⟩

end Float64
end Verif
