/-
Independent description of the Lawicel text form of a CAN frame: a letter (t standard, T extended, r and R the remote requests),
the identifier as 3 or 8 hexadecimal digits, one digit for the length (0 to 8), two hexadecimal digits per data byte.
-/
set_option autoImplicit false
namespace Spec.Lawicel

/-- value of a hexadecimal digit (ASCII) -/
def digit (c : BitVec 8) : Option Nat :=
  if 48 ≤ c.toNat ∧ c.toNat ≤ 57 then some (c.toNat - 48)
  else if 65 ≤ c.toNat ∧ c.toNat ≤ 70 then some (c.toNat - 55)
  else if 97 ≤ c.toNat ∧ c.toNat ≤ 102 then some (c.toNat - 87)
  else none

/-- value of a number written in hexadecimal digits, most significant first; `v` is the value of the digits already read -/
def number (v : Nat) : List (BitVec 8) → Option Nat
  | [] => some v
  | c :: cs => (digit c).bind fun d => number (16 * v + d) cs

/-- bytes written as pairs of digits -/
def bytes : List (BitVec 8) → Option (List (BitVec 8))
  | [] => some []
  | [_] => none
  | a :: b :: cs => (number 0 [a, b]).bind fun v => (bytes cs).map fun r => BitVec.ofNat 8 v :: r

structure Frame where
  extended : Bool
  rtr : Bool
  identifier : Nat
  length : Nat
  data : List (BitVec 8)

/-- 11-bit or 29-bit identifier, at most 8 bytes, no data in a remote request -/
def Frame.Valid (f : Frame) : Prop :=
  f.identifier < (if f.extended then 2 ^ 29 else 2 ^ 11) ∧ f.length ≤ 8 ∧ f.data.length = (if f.rtr then 0 else f.length)

/-- the letter -/
def letter (extended rtr : Bool) : Char := if extended then (if rtr then 'R' else 'T') else (if rtr then 'r' else 't')

/-- `s`, after its first character, is the text of frame `f` -/
def Tail (s : List (BitVec 8)) (f : Frame) : Prop :=
  f.Valid ∧ ∃ ids l ds, s = ids ++ [l] ++ ds ∧ ids.length = (if f.extended then 8 else 3) ∧ number 0 ids = some f.identifier ∧
    l.toNat = 48 + f.length ∧ bytes ds = some f.data

/-- `s` is the text of frame `f` -/
def Denotes (s : List (BitVec 8)) (f : Frame) : Prop :=
  ∃ t, s = BitVec.ofNat 8 (letter f.extended f.rtr).toNat :: t ∧ Tail t f

end Spec.Lawicel
