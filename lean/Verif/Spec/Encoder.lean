import Verif.Model.Encoder

set_option autoImplicit false

/-! Quadrature encoders without the drivers. -/

namespace Spec.Encoder

open Modm.Encoder

/-- The two signals of an encoder at a position: they go through 00, 01, 11, 10 and again. -/
def signals (position : Int) : Pins :=
  if position % 4 = 0 then ⟨false, false⟩
  else if position % 4 = 1 then ⟨false, true⟩
  else if position % 4 = 2 then ⟨true, true⟩
  else ⟨true, false⟩

/-- What happens to an input: it samples the encoder, or the user takes the delta. -/
inductive Op where
  | sample (position : Int)
  | take

/-- The ideal counter with a prescaler of `2 ^ k`: position and pending steps. -/
structure Ideal where
  position : Int
  pending : Int

/-- What the ideal counter returns for a sequence. -/
def ideal (k : Nat) : List Op → Ideal → List Int
  | [], _ => []
  | .sample p :: ops, s => ideal k ops ⟨p, s.pending + (p - s.position)⟩
  | .take :: ops, s => s.pending / 2 ^ k :: ideal k ops ⟨s.position, s.pending % 2 ^ k⟩

/-- The ideal counter at the end. -/
def idealEnd (k : Nat) : List Op → Ideal → Ideal
  | [], s => s
  | .sample p :: ops, s => idealEnd k ops ⟨p, s.pending + (p - s.position)⟩
  | .take :: ops, s => idealEnd k ops ⟨s.position, s.pending % 2 ^ k⟩

/-- The encoder is sampled often enough (it moves by at most one step between two samples) and the
delta taken often enough (the pending steps fit into `w` bits). -/
def Fast (k w : Nat) : List Op → Ideal → Prop
  | [], _ => True
  | .sample p :: ops, s => (-1 ≤ p - s.position ∧ p - s.position ≤ 1) ∧
      (-2 ^ (w - 1) ≤ s.pending + (p - s.position) ∧ s.pending + (p - s.position) < 2 ^ (w - 1)) ∧
      Fast k w ops ⟨p, s.pending + (p - s.position)⟩
  | .take :: ops, s => Fast k w ops ⟨s.position, s.pending % 2 ^ k⟩

/-- What the driver returns for a sequence. -/
def real {w : Nat} (k : Nat) : List Op → Input w → List Int
  | [], _ => []
  | .sample p :: ops, s => real k ops (s.update (signals p))
  | .take :: ops, s => (s.getDelta k).2.toInt :: real k ops (s.getDelta k).1

/-- A decoder of the signals of the output: it follows the cycle 11, 01, 00, 10 forwards or
backwards and ignores anything else. -/
def step (before after : Pins) : Int :=
  if after = ⟨before.b, !before.a⟩ then -1
  else if after = ⟨!before.b, before.a⟩ then 1
  else 0

/-- The steps that a decoder sees while the output ticks `n` times. -/
def decoded : Nat → Output → Int
  | 0, _ => 0
  | n + 1, o => step o.pins o.tick.pins + decoded n o.tick

def ticks : Nat → Output → Output
  | 0, o => o
  | n + 1, o => ticks n o.tick

/-- The number of ones. -/
def ones (x : BitVec 16) : Nat := ((List.range 16).filter fun i => x.getLsbD i).length

end Spec.Encoder
