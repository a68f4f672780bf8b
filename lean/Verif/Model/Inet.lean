import Verif.Model.EndPoint

/-!
# Model of `inet_aton`

`EndPoint(std::string, int)` (EndPoint.cpp:36) gives the text of the host to the C library.  The rest of the model takes
`inet_aton` as a parameter; here is the function of the GNU C library (resolv/inet_addr.c, `inet_aton_end`, with
`strtoul`, base 0), which is not part of the repository and is modelled from its documentation.  `strtoul` is without
bound: a number that does not fit `unsigned long` is beyond the limit of the next test in any case.
-/

namespace Verif

namespace Inet

/-- The value of a digit for `strtoul`. -/
def digit (c : Char) : Option Nat :=
  if '0' ≤ c ∧ c ≤ '9' then some (c.toNat - 48)
  else if 'a' ≤ c ∧ c ≤ 'f' then some (c.toNat - 87)
  else if 'A' ≤ c ∧ c ≤ 'F' then some (c.toNat - 55)
  else none

/-- The digits at the beginning, after digits with value `v`: the value, and the text that follows. -/
def number (b : Nat) (v : Nat) : List Char → Nat × List Char
  | [] => (v, [])
  | c :: cs =>
    match digit c with
    | some d => if d < b then number b (v * b + d) cs else (v, c :: cs)
    | none => (v, c :: cs)

/-- Is a hexadecimal digit the first character? -/
def startsHex : List Char → Bool
  | [] => false
  | c :: _ => (digit c).isSome

/-- `strtoul(cp, &endp, 0)` where the first character is a decimal digit. -/
def strtoul : List Char → Nat × List Char
  | '0' :: 'x' :: t => if startsHex t then number 16 0 t else (0, 'x' :: t)
  | '0' :: 'X' :: t => if startsHex t then number 16 0 t else (0, 'X' :: t)
  | '0' :: t => number 8 0 t
  | t => number 10 0 t

/-- `isspace` in the C locale. -/
def isSpace (c : Char) : Bool := c = ' ' || ('\t' ≤ c && c ≤ '\r')

/-- The loop: numbers separated by dots, of which `k` may still come; those before a dot fit a byte.  The end of the text
or a space must follow the last. -/
def parts : Nat → List Char → Option (List Nat)
  | k, cs =>
    match cs with
    | [] => none
    | c :: _ =>
      if c.isDigit then
        let r := strtoul cs
        if r.1 > 0xFFFFFFFF then none
        else
          match r.2 with
          | [] => some [r.1]
          | x :: t =>
            if x = '.' then
              match k with
              | 0 => none
              | k + 1 => if r.1 > 0xFF then none else (parts k t).map (r.1 :: ·)
            else if isSpace x then some [r.1] else none
      else none

/-- `res.word | htonl(val)`: the bytes before the last number in the order of memory, and the last number in network order. -/
def word (init : List Nat) (val : Nat) : BitVec 32 :=
  BitVec.ofNat 32 (init.getD 0 0) ||| (BitVec.ofNat 32 (init.getD 1 0) <<< 8) ||| (BitVec.ofNat 32 (init.getD 2 0) <<< 16) |||
    (let v := BitVec.ofNat 32 val
     ((v &&& 0xFF#32) <<< 24) ||| (((v >>> 8) &&& 0xFF#32) <<< 16) ||| (((v >>> 16) &&& 0xFF#32) <<< 8) ||| (v >>> 24))

/-- The limit of the last number. -/
def limit : Nat → Nat
  | 0 => 0xFFFFFFFF
  | 1 => 0xFFFFFF
  | 2 => 0xFFFF
  | _ => 0xFF

/-- `inet_aton`: `none` when it returns 0. -/
def aton (cs : List Char) : Option (BitVec 32) :=
  match parts 3 cs with
  | none => none
  | some vs =>
    let init := vs.dropLast
    let val := vs.getLastD 0
    if val > limit init.length then none else some (word init val)

/-- `_host.c_str()`: the text ends at the first zero character. -/
def cstr (s : String) : List Char := s.toList.takeWhile (· ≠ '\x00')

/-- `inet_aton(_host.c_str(), …)` (EndPoint.cpp:36). -/
def host (s : String) : Option (BitVec 32) := aton (cstr s)

end Inet

end Verif
