import Verif.Model.DataFrame
import Mathlib.Data.Nat.Digits.Defs
import Mathlib.Data.List.Dedup

/-! Model of preprocessing/one_hot.go. -/

namespace Verif
variable {F : Type}

/-- `strconv.Itoa(n)` / `fmt.Sprintf("%d", n)` for `n ≥ 0`: decimal digits, most significant first. -/
def natDec (n : Nat) : GoStr :=
  if n = 0 then [48] else (Nat.digits 10 n).reverse.map fun d => UInt8.ofNat (48 + d)

/-- The int an int column's element is. -/
def asInt : Val F → Int
  | .int n => n
  | _ => 0

/-- one_hot.go:26-44 `CategoryPolicy`. -/
inductive CategoryPolicy where
  | separateIfSeen | sharedSeparate | separate | imputeMostFrequent | returnError
  deriving DecidableEq, Repr

/-- one_hot.go:9-13 `OneHotOptions`. -/
structure OneHotOptions where
  missing : CategoryPolicy
  unknown : CategoryPolicy
  keep : Bool
  deriving DecidableEq, Repr

/-- one_hot.go:231-247 `fix`. -/
def OneHotOptions.fix (o : OneHotOptions) : OneHotOptions :=
  let o :=
    if o.missing = .sharedSeparate then
      if o.unknown ≠ .sharedSeparate then { o with missing := o.unknown, unknown := .sharedSeparate }
      else { o with missing := .separateIfSeen }
    else o
  if o.unknown = .separateIfSeen then { o with unknown := .separate } else o

/-- one_hot.go:18-24 `OneHotEncoder`. The two elements of a `Fallback` entry are a pair. -/
structure OneHotEncoder where
  catCols : List GoStr
  newCols : List GoStr
  categories : AMap GoStr (AMap Int GoStr)
  fallback : AMap GoStr (GoStr × GoStr)
  options : OneHotOptions

/-- one_hot.go:47-53 `NewOneHotEncoder`. -/
def newOneHotEncoder (o : OneHotOptions) : OneHotEncoder := ⟨[], [], [], [], o.fix⟩

/-- The choices the Go runtime makes during `Fit`: the iteration orders of the two `range freqs` loops (per
column) and of `range newCols`, and the order in which the workers take the columns. -/
structure OneHotSched where
  common : GoStr → List Int → List Int
  number : GoStr → List Int → List Int
  news : List GoStr → List GoStr
  jobs : List GoStr → List GoStr
  common_perm : ∀ c l, (common c l).Perm l
  number_perm : ∀ c l, (number c l).Perm l
  news_perm : ∀ l, (news l).Perm l
  jobs_perm : ∀ l, (jobs l).Perm l

/-- `df.Ints(col)` followed by `Get` for every row (column_access.go:45-54, 157-159). -/
def DF.intVals (df : DF) (h : Heap F) (c : GoStr) : Except Abort (List Int) :=
  match AMap.get (h.tab df.tab) (.int, c) with
  | none => .error .panic
  | some s =>
    match gather h s df.rows with
    | .error e => .error e
    | .ok vs => .ok (vs.map asInt)

/-- one_hot.go:61-67: the keys of `freqs` once -1 is deleted. The frequency of `v` is `vals.count v`. -/
def freqKeys (vals : List Int) : List Int := (vals.filter (fun v => decide (v ≠ -1))).dedup

/-- one_hot.go:70-79: `mostCommon`, the keys being visited in the order `ks`. -/
def mostCommon (vals ks : List Int) : Int :=
  (ks.foldl (fun (a : Int × Int) v => if (vals.count v : Int) > a.2 then (v, (vals.count v : Int)) else a) (0, -1)).1

/-- one_hot.go:84 `fmt.Sprintf("%s_onehot%d", col, i)`. -/
def onehotName (col : GoStr) (i : Nat) : GoStr := col ++ b!"_onehot" ++ natDec i

/-- one_hot.go:90, 95 `fmt.Sprintf("%s_missing", col)`. -/
def missingName (col : GoStr) : GoStr := col ++ b!"_missing"

/-- one_hot.go:100 `fmt.Sprintf("%s_unk", col)`. -/
def unkName (col : GoStr) : GoStr := col ++ b!"_unk"

/-- one_hot.go:81-86: the categories numbered from `i` on in the order `ks`. -/
def numberCats (col : GoStr) : Nat → List Int → AMap Int GoStr → AMap Int GoStr
  | _, [], m => m
  | i, v :: vs, m => numberCats col (i + 1) vs (AMap.set m v (onehotName col i))

/-- one_hot.go:55-107 `workerFits`, one column: the categories and the fallbacks. -/
def oneHotFitCol (o : OneHotOptions) (sch : OneHotSched) (col : GoStr) (vals : List Int) :
    AMap Int GoStr × (GoStr × GoStr) :=
  let common := if o.missing ≠ .returnError ∨ o.unknown ≠ .returnError then
    mostCommon vals (sch.common col (freqKeys vals)) else 0
  let cats := numberCats col 0 (sch.number col (freqKeys vals)) []
  let frequent := (AMap.get cats common).getD []
  let fb0 :=
    match o.missing with
    | .separateIfSeen => if (-1 : Int) ∈ vals then missingName col else frequent
    | .separate => missingName col
    | .imputeMostFrequent => frequent
    | _ => []
  let fb1 :=
    match o.unknown with
    | .separate => unkName col
    | .imputeMostFrequent => frequent
    | .sharedSeparate => fb0
    | _ => []
  (cats, (fb0, fb1))

/-- The maps `Categories` and `Fallback` while `Fit` runs. -/
abbrev OneHotMaps := AMap GoStr (AMap Int GoStr) × AMap GoStr (GoStr × GoStr)

/-- one_hot.go:55-107: the job of one column. -/
def oneHotFitJob (o : OneHotOptions) (sch : OneHotSched) (df : DF) (h : Heap F) (c : GoStr) (m : OneHotMaps) :
    Except Abort OneHotMaps :=
  match df.intVals h c with
  | .error e => .error e
  | .ok vals => .ok (AMap.set m.1 c (oneHotFitCol o sch c vals).1, AMap.set m.2 c (oneHotFitCol o sch c vals).2)

/-- one_hot.go:115-122: the maps before the workers start. -/
def oneHotInit (cols : List GoStr) : OneHotMaps :=
  cols.foldl (fun m c => (AMap.set m.1 c [], AMap.set m.2 c ([], []))) ([], [])

/-- one_hot.go:137-152: is there an empty fallback although the policy wants one? Then `Fit` panics. -/
def fallbackMissing (o : OneHotOptions) (fb : GoStr × GoStr) : Bool :=
  (decide (fb.1 = []) && decide (o.missing ≠ .returnError)) || (decide (fb.2 = []) && decide (o.unknown ≠ .returnError))

/-- one_hot.go:131-152: the names collected in `newCols`. -/
def newColumnNames (m : OneHotMaps) : List GoStr :=
  ((m.1.flatMap (fun e => e.2.map (·.2))) ++
    (m.2.flatMap (fun e => [e.2.1, e.2.2].filter (fun n => decide (n ≠ []))))).dedup

/-- one_hot.go:110-160 `Fit`. -/
def OneHotEncoder.fit (enc : OneHotEncoder) (sch : OneHotSched) (df : DF) (h : Heap F) :
    Except Abort OneHotEncoder :=
  let cols := namesOf (h.tab df.tab) .int
  match runQueue cols (sch.jobs cols) df.maxCPU (oneHotFitJob enc.options sch df h) (oneHotInit cols) with
  | .error e => .error e
  | .ok m =>
    if m.2.any (fun e => fallbackMissing enc.options e.2) then .error .panic
    else .ok { catCols := cols, newCols := sch.news (newColumnNames m), categories := m.1, fallback := m.2,
               options := enc.options }

/-- one_hot.go:178-194: the column that gets `true` for the value `v` of column `c`; `none` is an error. -/
def OneHotEncoder.target (enc : OneHotEncoder) (c : GoStr) (v : Int) : Option GoStr :=
  if v = -1 then
    if enc.options.missing = .returnError then none else some ((AMap.get enc.fallback c).getD ([], [])).1
  else
    match AMap.get ((AMap.get enc.categories c).getD []) v with
    | some n => some n
    | none => if enc.options.unknown = .returnError then none else some ((AMap.get enc.fallback c).getD ([], [])).2

/-- `df.Bools(col).Set(i, true)`, for raw position `i` (column_access.go:57-66, 172-174). -/
def DF.setTrue (r : DF) (n : GoStr) (i : Nat) (h : Heap F) : Except Abort (Heap F) :=
  match AMap.get (h.tab r.tab) (.bool, n) with
  | none => .error .panic
  | some s => h.write s i (.bool true)

/-- one_hot.go:177-195: the loop over the rows; the flag is raised when it stops with an error. -/
def oneHotLoop (enc : OneHotEncoder) (r : DF) (c : GoStr) (src : Slice) :
    List Nat → Heap F × Bool → Except Abort (Heap F × Bool)
  | [], s => .ok s
  | i :: is, s =>
    match s.1.cell src i with
    | none => .error .panic
    | some v =>
      match enc.target c (asInt v) with
      | none => .ok (s.1, true)
      | some n =>
        match r.setTrue n i s.1 with
        | .error e => .error e
        | .ok h => oneHotLoop enc r c src is (h, s.2)

/-- one_hot.go:171-176: `df.Bools` of the fallback columns, before the loop. -/
def fallbackThere (t : Table) (o : OneHotOptions) (fb : GoStr × GoStr) : Bool :=
  (decide (o.missing = .returnError) || (AMap.get t (.bool, fb.1)).isSome) &&
  (decide (o.unknown = .returnError) || (AMap.get t (.bool, fb.2)).isSome)

/-- one_hot.go:162-198 `workerTransforms`, one column. -/
def oneHotJob (enc : OneHotEncoder) (r : DF) (c : GoStr) (s : Heap F × Bool) : Except Abort (Heap F × Bool) :=
  match AMap.get (s.1.tab r.tab) (.int, c) with
  | none => .error .panic
  | some src =>
    match AMap.get enc.fallback c with
    | none =>
      if enc.options.missing = .returnError ∧ enc.options.unknown = .returnError then oneHotLoop enc r c src r.rows s
      else .error .panic
    | some fb =>
      if fallbackThere (s.1.tab r.tab) enc.options fb then oneHotLoop enc r c src r.rows s
      else .error .panic

/-- one_hot.go:201-224 `TransformView`. `none` stands for a returned error. The heap is the one after the
call in both cases. `order` is the order in which the workers take the columns. -/
def OneHotEncoder.transformView [GoFloat F] (enc : OneHotEncoder) (order : List GoStr) (df : DF) (h : Heap F) :
    Except Abort (Option DF × Heap F) :=
  let r := df.view
  if enc.catCols = [] then .ok (some r, h)
  else
    let (r, h) := r.withRaw (r.toRaw.alloc .bool enc.newCols h)
    match runQueue enc.catCols order df.maxCPU (oneHotJob enc r) (h, false) with
    | .error e => .error e
    | .ok (h, true) => .ok (none, h)
    | .ok (h, false) =>
      if enc.options.keep then .ok (some r, h) else .ok (some r, r.toRaw.drop enc.catCols h)

/-- one_hot.go:227-229 `TransformedColumns`. -/
def OneHotEncoder.transformedColumns (enc : OneHotEncoder) : List GoStr := enc.catCols

end Verif
