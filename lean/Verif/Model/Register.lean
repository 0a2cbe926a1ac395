set_option autoImplicit false

/-!
Model of the typed registers of modm (src/modm/architecture/interface/register.hpp): flags,
configurations and values inside a register of `w` bits.

`UnderlyingType` is `BitVec w` (`w` = 8, 16 or 32 in the code).  The code computes `&`, `|`, `^`, `~` and `<<` of
the promoted operands and stores the low `w` bits, which is the operation on `w` bits.  The promoted
mask of `get` may have bits above the register (`Mask << Position`), but it is and-ed with the register.
`1 << Width` is an `int`; the constant expression does not compile for `Width ≥ 31`.
-/

namespace Modm.Register

variable {w : Nat}

/-! ### Flags -/

/-- `Flags::set`, register.hpp:332-336, over `operator|=` -/
def setFlags (r f : BitVec w) : BitVec w := r ||| f

/-- `Flags::reset`, register.hpp:339-343: `*this &= ~o` -/
def reset (r f : BitVec w) : BitVec w := r &&& ~~~f

/-- `Flags::toggle`, register.hpp:346-350 -/
def toggle (r f : BitVec w) : BitVec w := r ^^^ f

/-- `Flags::update`, register.hpp:353-363 -/
def update (r f : BitVec w) (valueToCompare : Bool) : BitVec w :=
  if valueToCompare then setFlags r f else reset r f

/-- `Flags::all(Enum)`, `any(Enum)`, register.hpp:369-373: `bool(*this & flag)` -/
def allBit (r f : BitVec w) : Bool := decide (r &&& f ≠ 0)

/-- `Flags::none(Enum)`, register.hpp:375-376: `!(*this & flag)` -/
def noneBit (r f : BitVec w) : Bool := !decide (r &&& f ≠ 0)

/-- `Flags::all(Flags)`, register.hpp:382-383 -/
def all (r o : BitVec w) : Bool := decide (r &&& o = o)

/-- `Flags::any(Flags)`, register.hpp:385-386 -/
def any (r o : BitVec w) : Bool := decide (r &&& o ≠ 0)

/-- `Flags::none(Flags)`, register.hpp:388-389 -/
def noneOf (r o : BitVec w) : Bool := decide (r &&& o = 0)

/-! ### Configurations -/

/-- `Configuration<Parent, Enum, Mask, Position>` -/
structure Configuration (w : Nat) where
  mask : BitVec w
  position : Nat

/-- `Configuration::set`, register.hpp:586-587 -/
def Configuration.set (c : Configuration w) (parent config : BitVec w) : BitVec w :=
  (parent &&& ~~~(c.mask <<< c.position)) ||| (config <<< c.position)

/-- `Configuration::reset`, register.hpp:590-591 -/
def Configuration.reset (c : Configuration w) (parent : BitVec w) : BitVec w :=
  parent &&& ~~~(c.mask <<< c.position)

/-- `Configuration::get`, register.hpp:594-595 -/
def Configuration.get (c : Configuration w) (parent : BitVec w) : BitVec w :=
  (parent &&& (c.mask <<< c.position)) >>> c.position

/-! ### Values -/

/-- `Value<Parent, Width, Position>` -/
structure Value where
  width : Nat
  position : Nat

/-- `Mask`, register.hpp:637 -/
def Value.mask (w : Nat) (v : Value) : BitVec w :=
  BitVec.ofNat w ((1 <<< v.width - 1) <<< v.position)

/-- `Value::Value(config)`, register.hpp:640-641 -/
def Value.make (v : Value) (config : BitVec w) : BitVec w := (config <<< v.position) &&& v.mask w

/-- `Value::set`, register.hpp:651-652 -/
def Value.set (v : Value) (parent config : BitVec w) : BitVec w :=
  (parent &&& ~~~(v.mask w)) ||| ((config <<< v.position) &&& v.mask w)

/-- `Value::reset`, register.hpp:655-656 -/
def Value.reset (v : Value) (parent : BitVec w) : BitVec w := parent &&& ~~~(v.mask w)

/-- `Value::get`, register.hpp:659-660 -/
def Value.get (v : Value) (parent : BitVec w) : BitVec w := (parent &&& v.mask w) >>> v.position

end Modm.Register
