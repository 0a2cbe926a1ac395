set_option autoImplicit false

/-!
# Initialisation of function statics, assertions

Model of the functions `__cxa_guard_acquire`, `__cxa_guard_release` of
`/repo/ext/gcc/cxxabi.cpp.in` (without exceptions) and of `modm_assert_report`
of `/repo/src/modm/platform/core/cortex/assert.cpp.in` with the macros of
`/repo/src/modm/architecture/interface/assert.h.in`.
-/

namespace Model.StaticGuard

/-! ## Function statics -/

/-- Where a call of the function with the static object is: before the test of
the first byte that the compiler adds, before the load and the exchange of
`__cxa_guard_acquire`, in the constructor, before the store of
`__cxa_guard_release`, behind the initialisation, or in the failed assertion. -/
inductive Pc where
  | byte
  | load
  | xchg
  | ctor
  | rel
  | done
  | failed
  deriving DecidableEq, Repr

/-- The guard, the calls (the innermost handler first), and how often the
constructor began and ended. -/
structure St where
  guard : Nat
  frames : List Pc
  began : Nat
  ended : Nat
  deriving DecidableEq, Repr

/-- The enumeration of `cxxabi.cpp.in:34-39`. -/
def uninitialized : Nat := 0
/-- See `uninitialized`. -/
def initialized : Nat := 1
/-- See `uninitialized`. -/
def initializing : Nat := 0x100

/-- One access of the call that runs; `l` are the others.  Generated code, then
`cxxabi.cpp.in:42-53` and `56-60`. -/
def exec (s : St) (pc : Pc) (l : List Pc) : St :=
  match pc with
  | .byte => { s with frames := (if s.guard % 2 = 1 then .done else .load) :: l }
  | .load => { s with frames := (if s.guard = initialized then .done else .xchg) :: l }
  | .xchg =>
    if s.guard = initializing then { s with frames := .failed :: l }
    else { s with guard := initializing, frames := .ctor :: l, began := s.began + 1 }
  | .ctor => { s with frames := .rel :: l, ended := s.ended + 1 }
  | .rel => { s with guard := initialized, frames := .done :: l }
  | .done => { s with frames := .byte :: l }
  | .failed => s

/-- Steps: an access (after a call the next one may follow), an interrupt whose
handler calls the function as well, its return.  With `whole` no interrupt
comes between the two accesses of `__cxa_guard_acquire`. -/
inductive Step (whole : Bool) : St → St → Prop where
  | exec (s : St) (pc : Pc) (l : List Pc) (h : s.frames = pc :: l) : Step whole s (exec s pc l)
  | irq (s : St) (pc : Pc) (l : List Pc) (h : s.frames = pc :: l) (hf : pc ≠ .failed) (hw : whole = true → pc ≠ .xchg) :
      Step whole s { s with frames := .byte :: pc :: l }
  | ret (s : St) (pc : Pc) (l : List Pc) (h : s.frames = .done :: pc :: l) : Step whole s { s with frames := pc :: l }

/-- What can be reached. -/
inductive Reach (whole : Bool) : St → Prop where
  | init : Reach whole ⟨uninitialized, [.byte], 0, 0⟩
  | step {s s' : St} : Reach whole s → Step whole s s' → Reach whole s'

/-! ## Assertions -/

/-- `Abandonment`, `assert.hpp.in:30-37`. -/
inductive Abandonment where
  | dontCare
  | ignore
  | fail
  deriving DecidableEq, Repr

/-- The bits of `Abandonment`. -/
def Abandonment.bits : Abandonment → Nat
  | .dontCare => 1
  | .ignore => 2
  | .fail => 4

/-- The macros, `assert.h.in:84-107` (the last two in debug builds). -/
inductive Kind where
  | assert
  | continueIgnore
  | continueFail
  | continueIgnoreDebug
  | continueFailDebug
  deriving DecidableEq, Repr

/-- The behavior passed to `modm_assert_report`. -/
def Kind.bits : Kind → Nat
  | .assert => 0x04
  | .continueIgnore => 0x02
  | .continueFail => 0x01
  | .continueIgnoreDebug => 0x82
  | .continueFailDebug => 0x81

/-- `modm_assert_report`, `assert.cpp.in:57-86`: the new `info.behavior`, and
whether the execution is abandoned. -/
def report (behavior : Nat) (handlers : List Abandonment) : Nat × Bool :=
  let b := handlers.foldl (fun b h => b ||| h.bits) behavior
  let b' := b &&& 0x7F
  (b, b' = 1 ∨ b' &&& 4 ≠ 0)

/-- What a macro does. -/
inductive Outcome where
  | value (b : Bool)
  | abandoned
  | undefined
  deriving DecidableEq, Repr

/-- `_modm_assert5`, `assert.h.in:53-80`: if the condition is false it is
reported; then `__builtin_unreachable()` for behavior 4. -/
def evaluate (k : Kind) (condition : Bool) (handlers : List Abandonment) : Outcome :=
  if condition then .value true
  else if (report k.bits handlers).2 then .abandoned
  else if k.bits &&& 4 ≠ 0 then .undefined
  else .value false

end Model.StaticGuard
