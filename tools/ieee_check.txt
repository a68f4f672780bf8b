import Verif.Model.Ieee
open Verif Verif.Ieee
def rnd (s : UInt64) : UInt64 := 
  let s := s ^^^ (s <<< 13); let s := s ^^^ (s >>> 7); s ^^^ (s <<< 17)
def near (k : UInt64) (s : UInt64) : UInt64 := -- choose exponents near special ranges
  match (k % 5).toNat with
  | 0 => s
  | 1 => (s &&& 0x800FFFFFFFFFFFFF) -- subnormal
  | 2 => (s &&& 0x801FFFFFFFFFFFFF) ||| 0x3FF0000000000000
  | 3 => (s &&& 0x801FFFFFFFFFFFFF) ||| 0x7FC0000000000000
  | _ => (s &&& 0x8030000000000003) ||| 0x7FC0000000000000
def dec (f : Float) := f64.decode f.toBits.toNat
def test : IO Unit := do
  let mut s : UInt64 := 88172645463325252
  let mut bad := 0
  for _ in [0:20000] do
    s := rnd s; let k1 := s; s := rnd s; let a := Float.ofBits (near k1 s)
    s := rnd s; let k2 := s; s := rnd s; let b := Float.ofBits (near k2 s)
    for (nm, x, y) in [("add", dec (a+b), add (dec a) (dec b)), ("mul", dec (a*b), mul (dec a) (dec b)), ("sub", dec (a-b), add (dec a) (neg (dec b)))] do
      if x ≠ y then bad := bad + 1; if bad < 10 then IO.println s!"{nm} {a} {b} {repr x} {repr y}"
    if ¬ (b == 0) then
      if dec (a/b) ≠ div (dec a) (dec b) then bad := bad + 1; if bad < 10 then IO.println s!"div {a} {b}"
    if dec a ≠ .nan ∧ ¬(a==0) ∧ f64.encode (dec a) ≠ a.toBits.toNat then bad := bad+1; if bad < 10 then IO.println s!"enc {a}"
    let f := a.toFloat32
    if f32.decode f.toBits.toNat ≠ convert f32 (dec a) then bad := bad+1; if bad < 10 then IO.println s!"f32 {a}"
    if dec f.toFloat ≠ convert f64 (f32.decode f.toBits.toNat) then bad := bad+1; if bad < 10 then IO.println s!"f64 {a}"
  IO.println s!"bad {bad}"
#eval test
