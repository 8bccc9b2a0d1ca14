import Verif.Proofs.Strconv
import Verif.Props.CSVText
import Verif.Props.Json

/-! C84: the numbers in CSV and JSON texts, with Go's own `float64`, `strconv.ParseFloat` and `strconv.FormatFloat`. -/

namespace Verif
namespace Float64
open FP

/-- **C84** (reading). The text of a decimal number is read as the nearest `float64`; if that would be infinite it is not read as a
number. -/
theorem C84_reads {s : GoStr} {q : ℚ} (h : DecValue s q) :
    (|q| < binary64.top → ∃ x : Float64, parseFloat64 s = some x ∧ x.Finite ∧ IsRounded q x) ∧
    (binary64.top ≤ |q| → parseFloat64 s = none) := by
  obtain ⟨neg, n, e, ht, rfl⟩ := h
  have hr := ofDec_isRounded (f := binary64) neg n e
  rw [parseFloat64_dec ht]
  cases hx : ofDec binary64 neg n e with
  | nan => rw [hx] at hr; exact hr.elim
  | inf s =>
    rw [hx] at hr
    exact ⟨fun h => absurd h (not_lt.2 hr.1), fun _ => rfl⟩
  | fin s m e' hc =>
    rw [hx] at hr
    exact ⟨fun _ => ⟨_, rfl, trivial, hr⟩, fun h => absurd hr.1 (not_lt.2 h)⟩

/-- An instance: "-12.50e-2" is -1/8. -/
example : DecValue b!"-12.50e-2" (-1 / 8) :=
  ⟨true, 1250, -4, ⟨b!"-", b!"12", b!".50", b!"50", b!"e-2", -2, rfl, Or.inr ⟨rfl, rfl⟩, by unfold DigitsOrNone; decide,
    Or.inr ⟨rfl, by unfold DigitsOrNone; decide⟩, by decide,
    Or.inr ⟨b!"e", b!"-", true, b!"2", rfl, Or.inl rfl, Or.inr ⟨rfl, rfl⟩, ⟨by decide, by decide⟩, by decide, by decide⟩, by decide, by decide⟩,
    by norm_num⟩

/-- **C84** (writing). Every `float64`, NaN, infinities and the negative zero included, is read as itself after it was written. -/
theorem C84_back (x : Float64) : parseFloat64 (fmtFloat64 x) = some x := parse_fmtFloat64 x

/-- **C84**: different numbers have different texts. -/
theorem C84_injective {x y : Float64} (h : fmtFloat64 x = fmtFloat64 y) : x = y :=
  Option.some.inj ((C84_back x).symm.trans ((congrArg parseFloat64 h).trans (C84_back y)))

/-- **C84**: also taken for numbers are infinities and NaN in any case, underscores between digits and hexadecimal
numbers with an exponent; not: numbers that are too large, a hexadecimal number without exponent, an empty text, spaces. -/
theorem C84_quirks :
    parseFloat64 b!"Inf" = some (.inf false) ∧ parseFloat64 b!"-INFINITY" = some (.inf true) ∧ parseFloat64 b!"nAn" = some .nan ∧
    parseFloat64 b!"1_000" = some (FP.ofInt 1000) ∧ parseInt b!"1_000" = none ∧ parseFloat64 b!"0x1p4" = some (FP.ofInt 16) ∧
    parseFloat64 b!"1e400" = none ∧ parseFloat64 b!"1e-400" = some (FP.zero _ false) ∧ parseFloat64 b!"0x10" = none ∧
    parseFloat64 [] = none ∧ parseFloat64 b!" 1" = none ∧ parseFloat64 b!"1,5" = none := by
  decide +kernel

/-! ### CSV -/

/-- The number is a whole one. -/
def Whole (x : Float64) : Prop := x.Finite ∧ ∃ n : ℤ, x.val = n

/-- A number that reads as `x` when it is written with no digits after the point: then `x` is whole. -/
theorem whole_of_ofDec {m : ℕ} {e : ℤ} {h : binary64.Canon m e} {c : ℕ} {k : ℤ} (hk : 0 ≤ k)
    (hx : ofDec binary64 false c k = .fin false m e h) : Whole (.fin false m e h) := by
  refine ⟨trivial, ?_⟩
  have hval : (FP.fin false m e h).val = (m : ℚ) * 2 ^ e := by simp [val]
  by_cases he : 0 ≤ e
  · exact ⟨m * 2 ^ e.toNat, by rw [hval, zpow_toNat he]; push_cast; rfl⟩
  -- the number is less than 2 ^ 53
  obtain ⟨N, hN⟩ : ∃ N : ℕ, N = c * 10 ^ k.toNat := ⟨_, rfl⟩
  have hofInt : ofDec binary64 false c k = FP.ofInt (N : ℤ) := by
    unfold ofDec
    rw [if_pos hk]
    unfold FP.ofInt
    rw [← hN, decide_eq_false (by omega), Int.natAbs_natCast]
  rw [hofInt] at hx
  by_cases hle : N ≤ 2 ^ 53
  · have := (FP.ofInt_exact (f := binary64) (n := (N : ℤ)) (by decide) (by decide) (by rw [abs_of_nonneg (by omega)]; exact_mod_cast hle)).2
    rw [hx] at this
    exact ⟨N, this⟩
  · exfalso
    have h53 := FP.ofInt_exact (f := binary64) (n := (2 ^ 53 : ℤ)) (by decide) (by decide) (by norm_num [binary64])
    have hmono := rnd_mono_val (f := binary64) (q := ((2 ^ 53 : ℤ) : ℚ)) (q' := ((N : ℤ) : ℚ)) (by push_cast; exact_mod_cast (by omega : 2 ^ 53 ≤ N))
      (by rw [← ofInt_eq_rnd]; exact h53.1) (by rw [← ofInt_eq_rnd, hx]; trivial)
    rw [← ofInt_eq_rnd, ← ofInt_eq_rnd, hx, h53.2, hval] at hmono
    have h1 : (m : ℚ) < 2 ^ 53 := by exact_mod_cast h.1
    have h2 : (2 : ℚ) ^ e ≤ 2 ^ (-1 : ℤ) := zpow_le_zpow_right₀ (by norm_num) (by omega)
    have h3 : (m : ℚ) * 2 ^ e ≤ 2 ^ 53 * 2 ^ (-1 : ℤ) := mul_le_mul h1.le h2 (two_zpow_pos e).le (by norm_num)
    norm_num at h3 hmono
    linarith

theorem point_in {x : Float64} (hf : x.Finite) (hw : ¬ Whole x) : 46 ∈ fmtFloat64 x := by
  cases x with
  | nan => cases hf
  | inf s => cases hf
  | fin s m e h =>
    have hw' : ¬ Whole (.fin false m e h) := by
      rintro ⟨-, n, hn⟩
      apply hw
      refine ⟨trivial, if s then -n else n, ?_⟩
      cases s
      · simpa using hn
      · simp only [val, Bool.false_eq_true, if_false, one_mul, if_true, neg_mul] at hn ⊢
        push_cast
        rw [hn]
    have hm : m ≠ 0 := by
      rintro rfl
      exact hw' ⟨trivial, 0, by simp [val]⟩
    obtain ⟨h1, -⟩ := shortestDec_spec h hm
    have hk : ¬ 0 ≤ (shortestDec m e h).2 := fun hk => hw' (whole_of_ofDec hk h1)
    unfold fmtFloat64
    simp only [if_neg hm]
    unfold decFixed
    rw [if_neg hk]
    simp

/-- The text of a number that is not whole looks neither like an int nor like a bool. -/
theorem not_whole_text {x : Float64} (hw : ¬ Whole x) : (∀ b, ¬ BoolLit (fmtFloat64 x) b) ∧ ∀ n, ¬ IntLit (fmtFloat64 x) n := by
  by_cases hf : x.Finite
  · have h := point_in hf hw
    obtain ⟨t, ht⟩ : ∃ t, t = fmtFloat64 x := ⟨_, rfl⟩
    rw [← ht] at h ⊢
    constructor
    · intro b hb
      revert h
      cases hb <;> decide
    · rintro n ⟨-, ds, -, hd, hv⟩
      have key : (46 : UInt8) ∉ asciiDigits ds := by
        unfold asciiDigits
        intro hm
        obtain ⟨d, hd1, hd2⟩ := List.mem_map.1 hm
        have := hd d hd1
        clear hv hm
        interval_cases d <;> revert hd2 <;> decide
      rcases hv with ⟨hv, -⟩ | ⟨hv, -⟩ | ⟨hv, -⟩ <;> rw [hv] at h
      · exact key h
      · rcases List.mem_append.1 h with h | h
        · revert h; decide
        · exact key h
      · rcases List.mem_append.1 h with h | h
        · revert h; decide
        · exact key h
  · cases x with
    | nan => exact ⟨no_boolLit (by decide +kernel), no_intLit (by decide +kernel)⟩
    | inf s => cases s <;> exact ⟨no_boolLit (by decide +kernel), no_intLit (by decide +kernel)⟩
    | fin s m e h => exact absurd trivial hf

/-- When a column that is written can be read back (see `ReadsBack`). Floats: no text is declared missing, and there is a number that
is not whole (NaN and infinities are not). -/
def ReadsBack64 (marker : GoStr) (missing : List GoStr) : Kind → List (Val Float64) → Prop
  | .bool, vs => ∀ v ∈ vs, ∃ b, v = .bool b
  | .int, vs => (∀ v ∈ vs, ∃ n : Int, v = .int n ∧ -2 ^ 63 ≤ n ∧ n < 2 ^ 63 ∧ fmtInt n ∉ missing) ∧
      ∃ n : Int, .int n ∈ vs ∧ n ≠ 0 ∧ n ≠ 1
  | .float, vs => (∀ v ∈ vs, ∃ x : Float64, v = .float x ∧ fmtFloat64 x ∉ missing) ∧ ∃ x : Float64, .float x ∈ vs ∧ ¬ Whole x
  | .obj, vs => (∀ v ∈ vs, (v = .nil ∧ marker ∈ missing) ∨ ∃ s, v = .str s ∧ s ∉ missing) ∧
      ∃ s, .str s ∈ vs ∧ (∀ b, ¬ BoolLit s b) ∧ (∀ n, ¬ IntLit s n) ∧ parseFloat64 s = none

theorem ReadsBack64.readsBack {marker : GoStr} {missing : List GoStr} {k : Kind} {vs : List (Val Float64)} (h : ReadsBack64 marker missing k vs) :
    ReadsBack parseFloat64 fmtFloat64 marker missing k vs := by
  cases k with
  | bool => exact h
  | int => exact h
  | obj => exact h
  | float =>
    obtain ⟨h1, x, hx, hw⟩ := h
    refine ⟨fun v hv => ?_, x, hx, not_whole_text hw⟩
    obtain ⟨y, rfl, hy⟩ := h1 v hv
    exact ⟨y, rfl, C84_back y, hy⟩

/-- **C33**, **C84**. The round trip of `C33_text_partial` with Go's own floats: nothing is asked of the conversions. -/
theorem C84_roundtrip_partial {df : DF} {h : Heap Float64} {opt : CSVWritingSpec}
    (wf : df.WF h) {ord : Kind → List GoStr → List GoStr} (ho : ∀ k l, (ord k l).Perm l)
    (hm : opt.maintainOrder = true ∨ df.indexViewed = false) (full : Nat → Bool)
    {jobs : List GoStr → List GoStr} (hj : ∀ l, (jobs l).Perm l) (who : GoStr → Nat)
    {spec : CSVReadingSpec} (hd : spec.Default) (hh : spec.header = []) (he : spec.exclude = [])
    {t : CSVTextSpec} (ht : TextFits opt.comma t) (ht0 : t.comment = 0) (crlf : Bool)
    (hcols : ∀ k c, (abs h df).Written k c → ∃ vs, (abs h df).col k c = some (vs.map some) ∧
      ReadsBack64 opt.missingMarker spec.missingValues k vs)
    (hone : ∀ k k' c, (abs h df).Written k c → (abs h df).Written k' c → k = k') (hname : ∀ k, ¬ (abs h df).Written k [])
    (hsome : ∃ k c, (abs h df).Written k c)
    (hsafe : ∀ k c, (abs h df).Written k c → TextSafe crlf c ∧ ∀ r v x, (abs h df).cell k c r = some v →
      TextOf fmtFloat64 opt.missingMarker k v x → TextSafe crlf x)
    (hblank : (∃ k c k' c', (abs h df).Written k c ∧ (abs h df).Written k' c' ∧ c ≠ c') ∨
      ∀ k c, (abs h df).Written k c → ∀ r v, (abs h df).cell k c r = some v → ¬ TextOf fmtFloat64 opt.missingMarker k v []) :
    ∃ w h1 r h2 df2 h3, df.to1CSV fmtFloat64 ord (newCsvSink none full) opt h = .ok ((true, w), h1) ∧
      fromCSV parseFloat64 jobs who (csvRead t (csvText opt.comma crlf w.written)) spec h1 = .ok (some r, h2) ∧
      r.toDataFrame h2 = .ok (df2, h3) ∧ df2.WF h3 ∧
      (abs h3 df2).nRows = (abs h df).nRows ∧
      (∀ k c, (abs h df).Written k c → (abs h3 df2).col k c = (abs h df).col k c) ∧
      (∀ k c, ¬ (abs h df).Written k c → (abs h3 df2).col k c = none) ∧
      (∀ c, (abs h3 df2).isStr c = (abs h df).isStr c) :=
  C33_text_partial wf ho hm full hj who hd hh he ht ht0 crlf
    (fun k c hw => by obtain ⟨vs, h1, h2⟩ := hcols k c hw; exact ⟨vs, h1, h2.readsBack⟩) hone hname hsome hsafe hblank

/-- **C84** (a column). A column of decimal numbers, not all of them ints and not all of them bools, is read as the floats nearest to
them. -/
theorem C84_column {missing cells : List GoStr} {qs : List ℚ}
    (hq : List.Forall₂ (fun s q => DecValue s q ∧ |q| < binary64.top ∧ s ∉ missing) cells qs)
    (hb : ¬ ∀ v ∈ cells, BoolCell v) (hi : ¬ ∀ v ∈ cells, IntCell missing v) :
    ∃ xs : List Float64, Inferred parseFloat64 missing cells .float (xs.map .float) ∧
      List.Forall₂ (fun q x => FP.Finite x ∧ IsRounded q x) qs xs := by
  have key : ∃ xs : List Float64, (∀ v ∈ cells, FloatCell parseFloat64 missing v) ∧ RowByRow (AsFloat parseFloat64 missing) cells (xs.map .float) ∧
      List.Forall₂ (fun q x => FP.Finite x ∧ IsRounded q x) qs xs := by
    clear hb hi
    induction hq with
    | nil => exact ⟨[], by simp, .nil, .nil⟩
    | cons h _ ih =>
      obtain ⟨xs, h1, h2, h3⟩ := ih
      obtain ⟨x, e, hf, hr⟩ := (C84_reads h.1).1 h.2.1
      refine ⟨x :: xs, ?_, .cons (Or.inr ⟨h.2.2, x, e, rfl⟩) h2, .cons ⟨hf, hr⟩ h3⟩
      intro v hv
      rcases List.mem_cons.1 hv with rfl | hv
      · exact Or.inr ⟨x, e⟩
      · exact h1 v hv
  obtain ⟨xs, h1, h2, h3⟩ := key
  exact ⟨xs, .float hb hi h1 h2, h3⟩

/-- **C84** (the file). Such a column of a CSV text becomes a float column of the dataframe, with the nearest numbers. -/
theorem C84_fromCSV {jobs : List GoStr → List GoStr} (hj : ∀ l, (jobs l).Perm l)
    (who : GoStr → Nat) {inp : CsvInput} {spec : CSVReadingSpec} (hd : spec.Default) {header : List GoStr}
    {records : List (List GoStr)} (hh : Holds spec inp header records) (hemp : [] ∈ header → [] ∈ spec.exclude)
    (h : Heap Float64) {c : GoStr} (hc : c ∈ header) (hx : c ∉ spec.exclude) {qs : List ℚ}
    (hq : List.Forall₂ (fun s q => DecValue s q ∧ |q| < binary64.top ∧ s ∉ spec.missingValues) (cellsUnder header records c) qs)
    (hb : ¬ ∀ v ∈ cellsUnder header records c, BoolCell v) (hi : ¬ ∀ v ∈ cellsUnder header records c, IntCell spec.missingValues v) :
    ∃ r h1 df h2 xs, fromCSV parseFloat64 jobs who inp spec h = .ok (some r, h1) ∧ r.toDataFrame h1 = .ok (df, h2) ∧ df.WF h2 ∧
      (abs h2 df).col .float c = some (xs.map fun x => some (.float x)) ∧
      List.Forall₂ (fun q x => FP.Finite x ∧ IsRounded q x) qs xs := by
  obtain ⟨xs, hi, hr⟩ := C84_column hq hb hi
  obtain ⟨r, h1, df, h2, e1, e2, wf, -, -, col, -⟩ := C30_dataframe parseFloat64 hj who hd hh hemp ⟨c, hc, hx⟩ h
  refine ⟨r, h1, df, h2, xs, e1, e2, wf, ?_, hr⟩
  rw [(col c hc hx .float _).2 hi, List.map_map]
  rfl

/-- **C33** at `float64`: a float column of whole numbers comes back as an int column, and the ints may be others: 2^60 is written
"1152921504606847000", the fewest digits that tell it from other floats. -/
theorem C33_float64_refuted : fmtFloat64 (FP.ofInt (2 ^ 60)) = b!"1152921504606847000" ∧
    (FP.ofInt (2 ^ 60) : Float64).val = 1152921504606846976 ∧
    Inferred parseFloat64 [] [fmtFloat64 (FP.ofInt (2 ^ 60))] .int [.int 1152921504606847000] := by
  have h1 : fmtFloat64 (FP.ofInt (2 ^ 60)) = b!"1152921504606847000" := by decide +kernel
  have h2 : (FP.ofInt (2 ^ 60) : Float64) = .fin false (2 ^ 52) 8 (by decide) := by decide +kernel
  have h3 : parseInt b!"1152921504606847000" = some 1152921504606847000 := by decide +kernel
  have h4 : parseBool b!"1152921504606847000" = none := by decide +kernel
  refine ⟨h1, by rw [h2]; norm_num [val], ?_⟩
  rw [h1]
  refine .int ?_ ?_ (.cons (Or.inr ⟨by simp, _, parseInt_iff.1 h3, rfl⟩) .nil)
  · intro hall
    obtain ⟨b, hb⟩ := hall _ List.mem_cons_self
    exact no_boolLit h4 b hb
  · intro v hv
    rw [List.mem_singleton] at hv
    subst hv
    exact Or.inr ⟨_, parseInt_iff.1 h3⟩

/-! ### JSON -/

/-- The floats of `encoding/json`. -/
def jsonFloat64 : JsonFloats Float64 where
  fmt := fmtJson64
  parse := parseFloat64
  valid x hx := (C77_numbers _).2 (fmtJson64_valid ((finite_iff64 x).1 hx))
  back x hx := parse_fmtJson64 ((finite_iff64 x).1 hx)

/-- **C77** with Go's own floats: a regressor whose weights and scales are finite can be saved, and what is restored predicts the same. -/
theorem C77_linreg64_partial {r : LinearRegressor Float64} (hn : r.Named) (hf : r.Finite) :
    ∃ s r', marshal (LinearRegressor.enc jsonFloat64) r = some s ∧ unmarshal (LinearRegressor.dec jsonFloat64) s = some r' ∧
      r'.weights = r.weights ∧ r'.features = r.features ∧
      ∀ (dot : List Float64 → List Float64 → Float64) (df : DF) (resultColumn : GoStr) (order : List GoStr) (h : Heap Float64),
        r'.predict dot df resultColumn order h = r.predict dot df resultColumn order h :=
  C77_linreg_partial jsonFloat64 hn hf

/-- **C77** with Go's own floats: the scaler. -/
theorem C77_scaler64_partial {sc : Scaler Float64} (hn : sc.Named) (hf : sc.Finite) :
    ∃ s sc', marshal (Scaler.enc jsonFloat64) sc = some s ∧ unmarshal (Scaler.dec jsonFloat64) s = some sc' ∧
      SameMap sc.shift sc'.shift ∧ SameMap sc.scale sc'.scale ∧
      ∀ (df : DF) (order : List GoStr) (h : Heap Float64), sc'.transformInplace df order h = sc.transformInplace df order h ∧
        sc'.inverseTransformInplace df order h = sc.inverseTransformInplace df order h :=
  C77_scaler_partial jsonFloat64 hn hf

/-- How a number is written in JSON: 1/10, 10^-7, 10^21, the largest number below it. -/
theorem C77_texts64 : fmtJson64 (ofDec _ false 1 (-1)) = b!"0.1" ∧ fmtJson64 (ofDec _ true 1 (-7)) = b!"-1e-7" ∧
    fmtJson64 (ofDec _ false 1 21) = b!"1e+21" ∧ fmtJson64 (ofDec _ false 9999999999999999 5) = b!"999999999999999900000" := by
  decide +kernel

end Float64
end Verif
