/-
Model of `modm::pt::Semaphore` (/repo/src/modm/processing/protothread/semaphore.hpp). The counter is a `uint16_t`.
-/
set_option autoImplicit false
namespace Modm.PtSemaphore

/-- semaphore.hpp:68-71: the counter after construction (the argument is converted to `uint16_t` by the caller) -/
def create (initial : Nat) : Nat := initial % 65536

/-- semaphore.hpp:90-101 -/
def acquire (count : Nat) : Bool × Nat := if count > 0 then (true, count - 1) else (false, count)

/-- semaphore.hpp:110-114 -/
def release (count : Nat) : Nat := (count + 1) % 65536

end Modm.PtSemaphore
