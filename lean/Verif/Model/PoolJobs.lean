import Verif.Model.Pool
import Verif.Model.Preproc
import Verif.Model.OneHot

/-! The jobs that the scaler, the imputer and the one-hot encoder hand to the worker pool, cut into
individual memory accesses. The memory is the heap together with the local variables (`L`) of each job. -/

namespace Verif
variable {F : Type}

/-- Store `v` in the cell at location `l`. -/
def Heap.putAt (g : Heap F) (l : Nat × Nat) (v : Val F) : Heap F := g.setArr l.1 ((g.arr l.1).set l.2 v)

/-- One access of a job: it reads a cell of a column into its local variables, or stores something that
depends on its local variables, or computes. -/
inductive Atom (F L : Type) where
  | rd (s : Slice) (i : Nat) (k : Option (Val F) → L → L)
  | wr (k : L → Option ((Nat × Nat) × Val F))
  | comp (k : L → L)

/-- What an access does, seen from its job. -/
def Atom.run {L : Type} : Atom F L → Heap F × L → Heap F × L
  | .rd s i k, m => (m.1, k (m.1.cell s i) m.2)
  | .wr k, m => match k m.2 with
    | none => m
    | some (l, v) => (m.1.putAt l v, m.2)
  | .comp k, m => (m.1, k m.2)

/-- What an access of the job of column `c` does to the memory of the pool. -/
def Atom.op {L : Type} (c : GoStr) (a : Atom F L) (m : Heap F × (GoStr → L)) : Heap F × (GoStr → L) :=
  ((a.run (m.1, m.2 c)).1, fun x => if x = c then (a.run (m.1, m.2 c)).2 else m.2 x)

/-- A pool whose jobs are lists of accesses. -/
def atomPool {L : Type} (deferred : Bool) (prog : GoStr → List (Atom F L)) : PoolCfg (Heap F × (GoStr → L)) where
  deferred := deferred
  prog c := (prog c).map (Atom.op c)

/-- scaler.go:116-130 `workerTransforms`, one column: for each row, `access.Get(i)` into a local variable, then
`access.Set(i, ...)`. -/
def scalerAtoms [GoFloat F] (sc : Scaler F) (df : DF) (h : Heap F) (c : GoStr) : List (Atom F (Val F)) :=
  df.rows.flatMap fun i =>
    [.rd (tabCol (h.tab df.tab) (.float, c)) i (fun v _ => v.getD .nil),
     .wr (fun v => if i < (tabCol (h.tab df.tab) (.float, c)).len then
        some (((tabCol (h.tab df.tab) (.float, c)).arr, (tabCol (h.tab df.tab) (.float, c)).off + i), .float (scaleVal sc c (asFloat v)))
        else none)]

/-- The local variables of scaler.go:39-94 `workerFits` and float_imputer.go:51-66 `workerFits`. -/
structure FitReg (F : Type) where
  /-- `min`, `max` -/
  mm : F × F
  /-- `mean` (while it is a sum) and `n` -/
  acc : F × Nat
  mean : F
  squaresum : F
  /-- `result.shift`, `result.scale` -/
  out : Option F × Option F

/-- scaler.go:39-94 `workerFits`, one column. -/
def scalerFitAtoms [GoFloat F] (opt : ScalerOptions) (df : DF) (h : Heap F) (c : GoStr) : List (Atom F (FitReg F)) :=
  let s := tabCol (h.tab df.tab) (.float, c)
  let get (o : Option (Val F)) : F := asFloat (o.getD .nil)
  if opt.minMax then
    .comp (fun l => { l with mm := (GoFloat.posInf, GoFloat.negInf) }) ::
    df.rows.map (fun i => .rd s i (fun o l => { l with
      mm := (if GoFloat.lt (get o) l.mm.1 then get o else l.mm.1, if GoFloat.lt l.mm.2 (get o) then get o else l.mm.2) })) ++
    [.comp (fun l => { l with out := (some (GoFloat.neg l.mm.1), some (GoFloat.sub l.mm.2 l.mm.1)) })]
  else if opt.scaling || opt.centering then
    .comp (fun l => { l with acc := (GoFloat.zero, 0), out := (none, none) }) ::
    df.rows.map (fun i => .rd s i (fun o l => { l with
      acc := if GoFloat.isNaN (get o) then l.acc else (GoFloat.add l.acc.1 (get o), l.acc.2 + 1) })) ++
    .comp (fun l => { l with mean := GoFloat.div l.acc.1 (GoFloat.ofInt l.acc.2), squaresum := GoFloat.zero }) ::
    .comp (fun l => { l with out := (if opt.centering then some (GoFloat.neg l.mean) else none, l.out.2) }) ::
    (if opt.scaling then
      df.rows.map (fun i => .rd s i (fun o l => { l with
        squaresum := if GoFloat.isNaN (get o) then l.squaresum else
          GoFloat.add l.squaresum (GoFloat.mul (GoFloat.sub (get o) l.mean) (GoFloat.sub (get o) l.mean)) })) ++
      [.comp (fun l => { l with out := (l.out.1, if GoFloat.eq l.squaresum GoFloat.zero then
          some (GoFloat.sqrt (GoFloat.div (GoFloat.ofInt ((l.acc.2 + 1 : Nat) : Int)) (GoFloat.add l.squaresum GoFloat.one)))
        else some (GoFloat.sqrt (GoFloat.div (GoFloat.ofInt (l.acc.2 : Int)) l.squaresum))) })]
    else [])
  else [.comp (fun l => { l with out := (none, none) })]

/-- float_imputer.go:51-66 `workerFits`, one column. -/
def imputerFitAtoms [GoFloat F] (df : DF) (h : Heap F) (c : GoStr) : List (Atom F (FitReg F)) :=
  let s := tabCol (h.tab df.tab) (.float, c)
  let get (o : Option (Val F)) : F := asFloat (o.getD .nil)
  .comp (fun l => { l with acc := (GoFloat.zero, 0) }) ::
  df.rows.map (fun i => .rd s i (fun o l => { l with
    acc := if GoFloat.isNaN (get o) then l.acc else (GoFloat.add l.acc.1 (get o), l.acc.2 + 1) })) ++
  [.comp (fun l => { l with mean := GoFloat.div l.acc.1 (GoFloat.ofInt l.acc.2) })]

/-- one_hot.go:55-107 `workerFits`, one column: the values are read one by one (the model keeps them in a list
instead of the table of frequencies), then the entries of the column in `Categories` and `Fallback`, which no other
job uses, are filled. -/
def oneHotFitAtoms (o : OneHotOptions) (sch : OneHotSched) (df : DF) (h : Heap F) (c : GoStr) :
    List (Atom F (List Int × (AMap Int GoStr × (GoStr × GoStr)))) :=
  .comp (fun _ => ([], ([], ([], [])))) ::
  df.rows.map (fun i => .rd (tabCol (h.tab df.tab) (.int, c)) i (fun v l => (l.1 ++ [asInt (v.getD .nil)], l.2))) ++
  [.comp (fun l => (l.1, oneHotFitCol o sch c l.1))]

/-- one_hot.go:177-195: the accesses for one row. Local variables: the last value read, and whether the loop was left
with an error. -/
def oneHotRow (enc : OneHotEncoder) (r : DF) (h1 : Heap F) (c : GoStr) (i : Nat) : List (Atom F (Int × Bool)) :=
  [.rd (tabCol (h1.tab r.tab) (.int, c)) i (fun v l => if l.2 then l else (asInt (v.getD .nil), false)),
   .comp (fun l => if l.2 then l else (l.1, (enc.target c l.1).isNone)),
   .wr (fun l => if l.2 then none else
     match enc.target c l.1 with
     | none => none
     | some n => if i < (tabCol (h1.tab r.tab) (.bool, n)).len then
         some (((tabCol (h1.tab r.tab) (.bool, n)).arr, (tabCol (h1.tab r.tab) (.bool, n)).off + i), .bool true)
       else none)]

/-- one_hot.go:162-198 `workerTransforms`, one column; `r` is the view with the new columns, `h1` the heap where they
have been allocated. -/
def oneHotAtoms (enc : OneHotEncoder) (r : DF) (h1 : Heap F) (c : GoStr) : List (Atom F (Int × Bool)) :=
  .comp (fun _ => (0, false)) :: r.rows.flatMap (oneHotRow enc r h1 c)

end Verif
