import Verif.Go.Float64
open Verif
def ofBits (b : UInt64) : Float64 :=
  let n := b.toNat
  let s := n / 2^63 == 1
  let ex : Nat := n / 2^52 % 2048
  let fr := n % 2^52
  if ex = 2047 then (if fr = 0 then .inf s else .nan)
  else if ex = 0 then FP.pack _ s fr (-1074) else FP.pack _ s (2^52+fr) ((ex:Int) - 1075)
def toBits : Float64 → UInt64
  | .nan => (0.0/0.0 : Float).toBits
  | .inf s => UInt64.ofNat ((if s then 2^63 else 0) + 2047*2^52)
  | .fin s m e _ => UInt64.ofNat ((if s then 2^63 else 0) + (if m < 2^52 then m else ((e+1075).toNat)*2^52 + (m-2^52)))
def norm (b : UInt64) : UInt64 := toBits (ofBits b)
def main : IO Unit := do
  let mut bad := 0
  let mut g := mkStdGen 5
  for i in [0:20000] do
    let (a,g1) := randNat g 0 (2^64-1)
    let (b,g2) := randNat g1 0 (2^64-1)
    let (c,g3) := randNat g2 0 10
    g := g3
    let a := if c < 2 then a % 2^54 else a
    let b := if c % 3 == 0 then (a / 2^52 * 2^52 + b % 2^52) else if c == 5 then b % 2^53 else if c==7 then (a + b % 2^54)%2^64 else b
    let x := UInt64.ofNat a; let y := UInt64.ofNat b
    let fx := Float.ofBits x; let fy := Float.ofBits y
    let mx := ofBits x; let my := ofBits y
    let chk (nm : String) (r : Float64) (h : Float) : IO Nat := do
      if toBits r != norm h.toBits then IO.println s!"{nm} {fx} {fy}"; return 1
      else return 0
    bad := bad + (← chk "add" (FP.add mx my) (fx+fy)) + (← chk "sub" (FP.sub mx my) (fx-fy)) + (← chk "mul" (FP.mul mx my) (fx*fy)) + (← chk "div" (FP.div mx my) (fx/fy)) + (← chk "sqrt" (FP.sqrt mx) fx.sqrt) + (← chk "abs" (FP.abs mx) fx.abs)
    if FP.lt mx my != (fx < fy) then bad := bad+1; IO.println s!"lt {fx} {fy}"
    if FP.eq mx my != (fx == fy) then bad := bad+1; IO.println s!"eq {fx} {fy}"
    let z : Int := (if c % 2 == 0 then (a:Int) else -(a:Int)) / (2^(b%64):Nat)
    if toBits (FP.ofInt z) != norm (Float.ofInt z).toBits then bad := bad+1; IO.println s!"ofInt {z}"
  IO.println s!"bad {bad}"
#eval main
#eval toBits (FP.mul (FP.ofInt 3 : Float64) (FP.div (FP.ofInt 1) (FP.ofInt 10)))
#eval (3.0*0.1 : Float).toBits
