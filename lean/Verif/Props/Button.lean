import Verif.Model.Button
import Verif.Spec.Button
import Mathlib.Tactic.ByContra
import Mathlib.Tactic.Ring
import Mathlib.Data.List.Induction

set_option autoImplicit false

/-! Properties C80, C81 and C82: debounced buttons. -/

namespace Props.Button

open Modm.Button Spec.Button

variable {w : Nat}

/-- A sequence of updates. -/
def updates (g : Group w) (inputs : List (BitVec w)) : Group w := inputs.foldl Group.update g

/-- The samples of one button, the newest first; the inputs are inverted. -/
def samples (k : Nat) (inputs : List (BitVec w)) : List Bool := (inputs.map fun x => !x.getLsbD k).reverse

/-- `ct0` and `ct1` of a button as a counter. -/
def code : Nat → Bool × Bool
  | 0 => (true, true)
  | 1 => (false, true)
  | 2 => (true, false)
  | _ => (false, false)

theorem repetition_fields (g : Group w) :
    g.repetition.debounced = g.debounced ∧ g.repetition.ct0 = g.ct0 ∧ g.repetition.ct1 = g.ct1 ∧
      g.repetition.pressed = g.pressed ∧ g.repetition.released = g.released ∧
      g.repetition.repeatmask = g.repeatmask ∧ g.repetition.timeout = g.timeout ∧
      g.repetition.interval = g.interval := by
  unfold Group.repetition
  generalize (if g.debounced &&& g.repeatmask = 0 then g.timeout else g.repeatCounter) - 1 = c
  by_cases h : c = 0
  · simp only [if_pos h, and_self]
  · simp only [if_neg h, and_self]

/-- One update of one button. -/
theorem update_bit (g : Group w) (x : BitVec w) (k : Nat) (hk : k < w) :
    let d := g.debounced.getLsbD k
    let s := !x.getLsbD k
    let i := d != s
    let c0 := !(g.ct0.getLsbD k && i)
    let c1 := c0 != (g.ct1.getLsbD k && i)
    let j := i && (c0 && c1)
    (g.update x).ct0.getLsbD k = c0 ∧ (g.update x).ct1.getLsbD k = c1 ∧
      (g.update x).debounced.getLsbD k = (d != j) ∧
      (g.update x).pressed.getLsbD k = (g.pressed.getLsbD k || ((d != j) && j)) ∧
      (g.update x).released.getLsbD k = (g.released.getLsbD k || (!(d != j) && j)) := by
  obtain ⟨h1, h2, h3, h4, h5, -⟩ := repetition_fields (g.debounce x)
  simp only [Group.update, h1, h2, h3, h4, h5]
  simp only [Group.debounce, BitVec.getLsbD_not, BitVec.getLsbD_and, BitVec.getLsbD_xor, BitVec.getLsbD_or,
    hk, decide_true, Bool.true_and, Bool.bne_eq_xor]
  simp only [and_self]

/-- The state of a button: `c` samples in a row that differ from the debounced state. -/
structure Inv (first : Bool) (h : List Bool) (d c0 c1 : Bool) : Prop where
  state : d = debounced first h
  count : ∃ c rest, c < 4 ∧ h = List.replicate c (!d) ++ rest ∧ (rest = [] ∨ ∃ r, rest = d :: r) ∧
    (c0, c1) = code c

theorem inv_step (first : Bool) (h : List Bool) (d c0 c1 s : Bool) (hi : Inv first h d c0 c1) :
    let i := d != s
    let c0' := !(c0 && i)
    let c1' := c0' != (c1 && i)
    Inv first (s :: h) (d != (i && (c0' && c1'))) c0' c1' := by
  obtain ⟨hs, c, rest, hc, hh, hr, hcode⟩ := hi
  by_cases hds : s = d
  · have e : (d != s) = false := by simp [hds]
    simp only [e, Bool.and_false, Bool.not_false, Bool.false_and, Bool.bne_false]
    refine ⟨?_, 0, s :: h, by omega, rfl, Or.inr ⟨h, by rw [hds]⟩, rfl⟩
    rw [debounced]
    split
    · exact hds.symm
    · exact hs
  · have hsd : s = !d := by clear hs hh hr; revert hds; cases s <;> cases d <;> simp
    have e : (d != s) = true := by rw [hsd]; clear hs hh hr; cases d <;> rfl
    have hc4 : c = 0 ∨ c = 1 ∨ c = 2 ∨ c = 3 := by omega
    have htake : c < 3 → ¬ h.take 3 = [s, s, s] := by
      intro hc3 ht
      rw [hh, hsd] at ht
      rcases hr with hr | ⟨r, hr⟩ <;> subst hr <;> rcases hc4 with h | h | h | h <;> subst h <;>
        cases d <;> simp [List.replicate_succ] at ht hc3
    rcases hc4 with h0 | h0 | h0 | h0
    · subst h0
      obtain ⟨rfl, rfl⟩ : c0 = true ∧ c1 = true := by simpa [code] using hcode
      simp only [e]
      refine ⟨?_, 1, rest, by omega, by simp [hh, hsd, List.replicate_succ], by simpa using hr, rfl⟩
      rw [debounced, if_neg (htake (by omega)), ← hs]; simp
    · subst h0
      obtain ⟨rfl, rfl⟩ : c0 = false ∧ c1 = true := by simpa [code] using hcode
      simp only [e]
      refine ⟨?_, 2, rest, by omega, by simp [hh, hsd, List.replicate_succ], by simpa using hr, rfl⟩
      rw [debounced, if_neg (htake (by omega)), ← hs]; simp
    · subst h0
      obtain ⟨rfl, rfl⟩ : c0 = true ∧ c1 = false := by simpa [code] using hcode
      simp only [e]
      refine ⟨?_, 3, rest, by omega, by simp [hh, hsd, List.replicate_succ], by simpa using hr, rfl⟩
      rw [debounced, if_neg (htake (by omega)), ← hs]; simp
    · subst h0
      obtain ⟨rfl, rfl⟩ : c0 = false ∧ c1 = false := by simpa [code] using hcode
      simp only [e]
      refine ⟨?_, 0, s :: h, by omega, rfl, Or.inr ⟨h, by simp [hsd]⟩, rfl⟩
      rw [debounced, if_pos (by simp [hh, hsd, List.replicate_succ]), hsd]; simp

theorem samples_snoc (k : Nat) (xs : List (BitVec w)) (x : BitVec w) :
    samples k (xs ++ [x]) = (!x.getLsbD k) :: samples k xs := by simp [samples]

theorem updates_snoc (g : Group w) (xs : List (BitVec w)) (x : BitVec w) :
    updates g (xs ++ [x]) = (updates g xs).update x := by simp [updates]

theorem inv_updates (g : Group w) (k : Nat) (hk : k < w) (h0 : g.ct0.getLsbD k = true)
    (h1 : g.ct1.getLsbD k = true) (xs : List (BitVec w)) :
    Inv (g.debounced.getLsbD k) (samples k xs) ((updates g xs).debounced.getLsbD k)
      ((updates g xs).ct0.getLsbD k) ((updates g xs).ct1.getLsbD k) := by
  induction xs using List.reverseRecOn with
  | nil =>
    refine ⟨rfl, 0, [], by omega, rfl, Or.inl rfl, ?_⟩
    simp only [updates, List.foldl_nil, h0, h1]
    rfl
  | append_singleton xs x ih =>
    rw [samples_snoc, updates_snoc]
    obtain ⟨e0, e1, e2, -⟩ := update_bit (updates g xs) x k hk
    rw [e0, e1, e2]
    exact inv_step _ _ _ _ _ _ ih

/-- The first update takes the sample as it is. -/
theorem first_update (mask : BitVec w) (t i : BitVec 16) (x : BitVec w) (k : Nat) (hk : k < w) :
    ((Group.init mask t i).update x).debounced.getLsbD k = !x.getLsbD k ∧
      ((Group.init mask t i).update x).ct0.getLsbD k = true ∧
      ((Group.init mask t i).update x).ct1.getLsbD k = true := by
  obtain ⟨e0, e1, e2, -⟩ := update_bit (Group.init mask t i) x k hk
  rw [e0, e1, e2]
  cases x.getLsbD k <;> simp [Group.init]

/-- C80: after any samples the state of every button is the debounced history of its own samples: the
first sample is taken as it is, and afterwards the state changes exactly when four consecutive
samples agree. -/
theorem C80_debounce (mask : BitVec w) (t i : BitVec 16) (x : BitVec w) (xs : List (BitVec w)) (k : Nat)
    (hk : k < w) :
    (updates (Group.init mask t i) (x :: xs)).debounced.getLsbD k =
      debounced (!x.getLsbD k) (samples k xs) := by
  obtain ⟨h1, h2, h3⟩ := first_update mask t i x k hk
  have := (inv_updates ((Group.init mask t i).update x) k hk h2 h3 xs).state
  rw [h1] at this
  exact this

example : (updates (Group.init (0 : BitVec 8) 50 20) [0xff, 0xfe, 0xfe, 0xff, 0xfe, 0xfc, 0xfc, 0xfc]).debounced
    = 0x01 ∧ debounced false [true, true, true, true, false, true, true] = true := by decide +kernel

/-- C80: the state that can be asked for is the debounced state of the buttons in the mask. -/
theorem C80_getState (g : Group w) (mask : BitVec w) :
    g.getState mask = true ↔ ∃ k, k < w ∧ mask.getLsbD k = true ∧ g.debounced.getLsbD k = true := by
  rw [Group.getState, decide_eq_true_iff]
  constructor
  · intro h
    by_contra hn
    apply h
    apply BitVec.eq_of_getLsbD_eq
    intro i hi
    simp only [BitVec.getLsbD_and, BitVec.ofNat_eq_ofNat, BitVec.getLsbD_zero]
    by_contra hc
    have : (mask.getLsbD i && g.debounced.getLsbD i) = true := by simpa using hc
    rw [Bool.and_eq_true] at this
    exact hn ⟨i, hi, this⟩
  · rintro ⟨i, _, h1, h2⟩ h
    have := congrArg (fun x => x.getLsbD i) h
    simp [h1, h2] at this

/-! ### C81: events -/

/-- What a program does with a group. -/
inductive Op (w : Nat) where
  | update (x : BitVec w)
  | isPressed (mask : BitVec w)
  | isReleased (mask : BitVec w)
  | isRepeated (mask : BitVec w)

def step (g : Group w) : Op w → Group w
  | .update x => g.update x
  | .isPressed m => (g.isPressed m).2
  | .isReleased m => (g.isReleased m).2
  | .isRepeated m => (g.isRepeated m).2

def run (g : Group w) (ops : List (Op w)) : Group w := ops.foldl step g

theorem run_snoc (g : Group w) (ops : List (Op w)) (o : Op w) : run g (ops ++ [o]) = step (run g ops) o := by
  simp [run]

/-- There is a press of button `k` in the history that no later `isPressed` asked for. -/
def PressPending (g : Group w) (k : Nat) (ops : List (Op w)) : Prop :=
  ∃ a x b, ops = a ++ .update x :: b ∧ (run g a).debounced.getLsbD k = false ∧
    (run g (a ++ [.update x])).debounced.getLsbD k = true ∧
    ∀ m, Op.isPressed m ∈ b → m.getLsbD k = false

/-- There is a release of button `k` in the history that no later `isReleased` asked for. -/
def ReleasePending (g : Group w) (k : Nat) (ops : List (Op w)) : Prop :=
  ∃ a x b, ops = a ++ .update x :: b ∧ (run g a).debounced.getLsbD k = true ∧
    (run g (a ++ [.update x])).debounced.getLsbD k = false ∧
    ∀ m, Op.isReleased m ∈ b → m.getLsbD k = false

theorem clear_bit (v m : BitVec w) (k : Nat) :
    (readAndClear v m).2.getLsbD k = (v.getLsbD k && !m.getLsbD k) := by
  simp only [readAndClear, BitVec.getLsbD_xor, BitVec.getLsbD_and]
  cases v.getLsbD k <;> cases m.getLsbD k <;> rfl

theorem pressed_iff (g : Group w) (hg : g.pressed = 0) (k : Nat) (hk : k < w) (ops : List (Op w)) :
    (run g ops).pressed.getLsbD k = true ↔ PressPending g k ops := by
  induction ops using List.reverseRecOn with
  | nil =>
    simp only [run, List.foldl_nil, hg, BitVec.ofNat_eq_ofNat, BitVec.getLsbD_zero]
    constructor
    · intro h; exact absurd h (by decide)
    · rintro ⟨a, x, b, h, -⟩; simp at h
  | append_singleton ops o ih =>
    have old : ∀ P : Prop, (∀ m, o = Op.isPressed m → m.getLsbD k = false) →
        ((∃ x, o = .update x ∧ (run g ops).debounced.getLsbD k = false ∧
          (run g (ops ++ [.update x])).debounced.getLsbD k = true) ↔ P) →
        (PressPending g k (ops ++ [o]) ↔ PressPending g k ops ∨ P) := by
      intro P hm hP
      rw [← hP]
      constructor
      · rintro ⟨a, x, b, h1, h2, h3, h4⟩
        rcases List.eq_nil_or_concat b with hb | ⟨b', z, hb⟩
        · subst hb
          obtain ⟨ha, hx⟩ := List.append_inj' h1 rfl
          subst ha
          simp only [List.cons.injEq, and_true] at hx
          exact Or.inr ⟨x, hx, h2, h3⟩
        · rw [List.concat_eq_append] at hb
          subst hb
          have h1' : ops ++ [o] = (a ++ Op.update x :: b') ++ [z] := by simpa using h1
          obtain ⟨ha, hx⟩ := List.append_inj' h1' rfl
          exact Or.inl ⟨a, x, b', ha, h2, h3, fun m hmb => h4 m (List.mem_append_left _ hmb)⟩
      · rintro (⟨a, x, b, h1, h2, h3, h4⟩ | ⟨x, hx, h2, h3⟩)
        · refine ⟨a, x, b ++ [o], by rw [h1]; simp, h2, h3, ?_⟩
          intro m hmb
          rcases List.mem_append.1 hmb with h | h
          · exact h4 m h
          · exact hm m (List.mem_singleton.1 h).symm
        · exact ⟨ops, x, [], by rw [hx], h2, h3, by simp⟩
    rw [run_snoc]
    cases o with
    | update x =>
      rw [old ((run g ops).debounced.getLsbD k = false ∧
        ((run g ops).update x).debounced.getLsbD k = true) (by simp) (by
          constructor
          · rintro ⟨y, hy, h⟩; cases hy; rw [run_snoc] at h; exact h
          · intro h; exact ⟨x, rfl, by rw [run_snoc]; exact h⟩), ← ih]
      obtain ⟨-, -, e2, e3, -⟩ := update_bit (run g ops) x k hk
      simp only [step]
      rw [e2, e3]
      generalize (((run g ops).debounced.getLsbD k != !x.getLsbD k) && _) = j
      cases (run g ops).debounced.getLsbD k <;> cases (run g ops).pressed.getLsbD k <;> cases j <;> simp
    | isPressed m =>
      have e : (step (run g ops) (.isPressed m)).pressed.getLsbD k =
          ((run g ops).pressed.getLsbD k && !m.getLsbD k) := clear_bit _ _ _
      rw [e]
      by_cases hm : m.getLsbD k = true
      · rw [hm]
        simp only [Bool.not_true, Bool.and_false]
        constructor
        · intro h; exact absurd h (by decide)
        · rintro ⟨a, x, b, h1, -, -, h4⟩
          rcases List.eq_nil_or_concat b with hb | ⟨b', z, hb⟩
          · subst hb
            have := (List.append_inj' h1 rfl).2
            simp at this
          · rw [List.concat_eq_append] at hb
            subst hb
            have h1' : ops ++ [.isPressed m] = (a ++ Op.update x :: b') ++ [z] := by simpa using h1
            have hz := (List.append_inj' h1' rfl).2
            simp only [List.cons.injEq, and_true] at hz
            have := h4 m (by rw [← hz]; simp)
            rw [hm] at this
            exact absurd this (by decide)
      · have hm' : m.getLsbD k = false := by simpa using hm
        rw [old False (by rintro n ⟨⟩; exact hm') (by simp), hm', ← ih]
        simp
    | isReleased m =>
      rw [old False (by simp) (by simp), or_false, ← ih]
      exact Iff.rfl
    | isRepeated m =>
      rw [old False (by simp) (by simp), or_false, ← ih]
      exact Iff.rfl

theorem released_iff (g : Group w) (hg : g.released = 0) (k : Nat) (hk : k < w) (ops : List (Op w)) :
    (run g ops).released.getLsbD k = true ↔ ReleasePending g k ops := by
  induction ops using List.reverseRecOn with
  | nil =>
    simp only [run, List.foldl_nil, hg, BitVec.ofNat_eq_ofNat, BitVec.getLsbD_zero]
    constructor
    · intro h; exact absurd h (by decide)
    · rintro ⟨a, x, b, h, -⟩; simp at h
  | append_singleton ops o ih =>
    have old : ∀ P : Prop, (∀ m, o = Op.isReleased m → m.getLsbD k = false) →
        ((∃ x, o = .update x ∧ (run g ops).debounced.getLsbD k = true ∧
          (run g (ops ++ [.update x])).debounced.getLsbD k = false) ↔ P) →
        (ReleasePending g k (ops ++ [o]) ↔ ReleasePending g k ops ∨ P) := by
      intro P hm hP
      rw [← hP]
      constructor
      · rintro ⟨a, x, b, h1, h2, h3, h4⟩
        rcases List.eq_nil_or_concat b with hb | ⟨b', z, hb⟩
        · subst hb
          obtain ⟨ha, hx⟩ := List.append_inj' h1 rfl
          subst ha
          simp only [List.cons.injEq, and_true] at hx
          exact Or.inr ⟨x, hx, h2, h3⟩
        · rw [List.concat_eq_append] at hb
          subst hb
          have h1' : ops ++ [o] = (a ++ Op.update x :: b') ++ [z] := by simpa using h1
          obtain ⟨ha, hx⟩ := List.append_inj' h1' rfl
          exact Or.inl ⟨a, x, b', ha, h2, h3, fun m hmb => h4 m (List.mem_append_left _ hmb)⟩
      · rintro (⟨a, x, b, h1, h2, h3, h4⟩ | ⟨x, hx, h2, h3⟩)
        · refine ⟨a, x, b ++ [o], by rw [h1]; simp, h2, h3, ?_⟩
          intro m hmb
          rcases List.mem_append.1 hmb with h | h
          · exact h4 m h
          · exact hm m (List.mem_singleton.1 h).symm
        · exact ⟨ops, x, [], by rw [hx], h2, h3, by simp⟩
    rw [run_snoc]
    cases o with
    | update x =>
      rw [old ((run g ops).debounced.getLsbD k = true ∧
        ((run g ops).update x).debounced.getLsbD k = false) (by simp) (by
          constructor
          · rintro ⟨y, hy, h⟩; cases hy; rw [run_snoc] at h; exact h
          · intro h; exact ⟨x, rfl, by rw [run_snoc]; exact h⟩), ← ih]
      obtain ⟨-, -, e2, -, e3⟩ := update_bit (run g ops) x k hk
      simp only [step]
      rw [e2, e3]
      generalize (((run g ops).debounced.getLsbD k != !x.getLsbD k) && _) = j
      cases (run g ops).debounced.getLsbD k <;> cases (run g ops).released.getLsbD k <;> cases j <;> simp
    | isReleased m =>
      have e : (step (run g ops) (.isReleased m)).released.getLsbD k =
          ((run g ops).released.getLsbD k && !m.getLsbD k) := clear_bit _ _ _
      rw [e]
      by_cases hm : m.getLsbD k = true
      · rw [hm]
        simp only [Bool.not_true, Bool.and_false]
        constructor
        · intro h; exact absurd h (by decide)
        · rintro ⟨a, x, b, h1, -, -, h4⟩
          rcases List.eq_nil_or_concat b with hb | ⟨b', z, hb⟩
          · subst hb
            have := (List.append_inj' h1 rfl).2
            simp at this
          · rw [List.concat_eq_append] at hb
            subst hb
            have h1' : ops ++ [.isReleased m] = (a ++ Op.update x :: b') ++ [z] := by simpa using h1
            have hz := (List.append_inj' h1' rfl).2
            simp only [List.cons.injEq, and_true] at hz
            have := h4 m (by rw [← hz]; simp)
            rw [hm] at this
            exact absurd this (by decide)
      · have hm' : m.getLsbD k = false := by simpa using hm
        rw [old False (by rintro n ⟨⟩; exact hm') (by simp), hm', ← ih]
        simp
    | isPressed m =>
      rw [old False (by simp) (by simp), or_false, ← ih]
      exact Iff.rfl
    | isRepeated m =>
      rw [old False (by simp) (by simp), or_false, ← ih]
      exact Iff.rfl

theorem readAndClear_iff (v m : BitVec w) :
    (readAndClear v m).1 = true ↔ ∃ k, k < w ∧ m.getLsbD k = true ∧ v.getLsbD k = true := by
  have := C80_getState ({ (Group.init 0 0 0 : Group w) with debounced := v }) m
  simpa [Group.getState, readAndClear] using this

/-- C81: `isPressed` reports a press exactly if one of the buttons asked for was pressed since it was asked
for the last time: no press is lost and none is reported twice.  The same for `isReleased`. -/
theorem C81_events (mask : BitVec w) (t i : BitVec 16) (ops : List (Op w)) (m : BitVec w) :
    (((run (Group.init mask t i) ops).isPressed m).1 = true ↔
      ∃ k, k < w ∧ m.getLsbD k = true ∧ PressPending (Group.init mask t i) k ops) ∧
    (((run (Group.init mask t i) ops).isReleased m).1 = true ↔
      ∃ k, k < w ∧ m.getLsbD k = true ∧ ReleasePending (Group.init mask t i) k ops) := by
  constructor
  · rw [Group.isPressed, readAndClear_iff]
    constructor
    · rintro ⟨k, h1, h2, h3⟩; exact ⟨k, h1, h2, (pressed_iff _ rfl k h1 ops).1 h3⟩
    · rintro ⟨k, h1, h2, h3⟩; exact ⟨k, h1, h2, (pressed_iff _ rfl k h1 ops).2 h3⟩
  · rw [Group.isReleased, readAndClear_iff]
    constructor
    · rintro ⟨k, h1, h2, h3⟩; exact ⟨k, h1, h2, (released_iff _ rfl k h1 ops).1 h3⟩
    · rintro ⟨k, h1, h2, h3⟩; exact ⟨k, h1, h2, (released_iff _ rfl k h1 ops).2 h3⟩

example : ((run (Group.init (0 : BitVec 8) 50 20) [.update 0xff, .update 0xfe, .update 0xfe, .update 0xfe,
    .update 0xfe]).isPressed 0x03).1 = true ∧
    ((run (Group.init (0 : BitVec 8) 50 20) [.update 0xff, .update 0xfe, .update 0xfe, .update 0xfe,
      .update 0xfe, .isPressed 0x01]).isPressed 0x03).1 = false := by decide +kernel

/-! ### C82: long presses -/

/-- C82: while a button of the mask is held (`held`), the buttons repeat at the update number `timeout - 1` after the last
update without a button, and then after every `interval` updates; all buttons of the mask that are down at that
time are repeated, and nothing at any other time. -/
theorem C82_repeat (g : Group w) (x0 : BitVec w) (xs : List (BitVec w)) (x : BitVec w)
    (ht : 2 ≤ g.timeout.toNat) (hi : 1 ≤ g.interval.toNat)
    (hidle : (g.update x0).debounced &&& g.repeatmask = 0)
    (hheld : ∀ ys, ys <+: xs ++ [x] → ys ≠ [] →
      (updates (g.update x0) ys).debounced &&& g.repeatmask ≠ 0) :
    (repeats (g.timeout.toNat - 1) g.interval.toNat (xs.length + 1) →
      (updates (g.update x0) (xs ++ [x])).repeated = (updates (g.update x0) xs).repeated |||
        ((updates (g.update x0) (xs ++ [x])).debounced &&& g.repeatmask)) ∧
    (¬ repeats (g.timeout.toNat - 1) g.interval.toNat (xs.length + 1) →
      (updates (g.update x0) (xs ++ [x])).repeated = (updates (g.update x0) xs).repeated) := by
  have hmask : ∀ (h : Group w) (y : BitVec w), (h.update y).repeatmask = h.repeatmask ∧
      (h.update y).timeout = h.timeout ∧ (h.update y).interval = h.interval := by
    intro h y
    obtain ⟨-, -, -, -, -, e1, e2, e3⟩ := repetition_fields (h.debounce y)
    exact ⟨e1, e2, e3⟩
  have hconst : ∀ ys, (updates (g.update x0) ys).repeatmask = g.repeatmask ∧
      (updates (g.update x0) ys).timeout = g.timeout ∧ (updates (g.update x0) ys).interval = g.interval := by
    intro ys
    induction ys using List.reverseRecOn with
    | nil => exact hmask g x0
    | append_singleton ys y ih =>
      rw [updates_snoc]
      obtain ⟨e1, e2, e3⟩ := hmask (updates (g.update x0) ys) y
      exact ⟨e1.trans ih.1, e2.trans ih.2.1, e3.trans ih.2.2⟩
  have hrep : ∀ h : Group w, (h.repetition).debounced = h.debounced := fun h => (repetition_fields h).1
  -- the counter before an update
  have hcount : ∀ ys, ys <+: xs ++ [x] →
      ((ys.length < g.timeout.toNat - 1 ∧
        (updates (g.update x0) ys).repeatCounter.toNat = g.timeout.toNat - 1 - ys.length) ∨
      (∃ k r, ys.length = g.timeout.toNat - 1 + k * g.interval.toNat + r ∧ r < g.interval.toNat ∧
        (updates (g.update x0) ys).repeatCounter.toNat = g.interval.toNat - r)) := by
    intro ys
    induction ys using List.reverseRecOn with
    | nil =>
      intro _
      refine Or.inl ⟨by simp only [List.length_nil]; omega, ?_⟩
      have hd : (g.debounce x0).debounced &&& (g.debounce x0).repeatmask = 0 := by
        rw [← hrep]; exact hidle
      have hne : ¬ (g.timeout - 1 = 0) := by
        intro h
        have := congrArg BitVec.toNat h
        simp at this
        omega
      simp only [updates, List.foldl_nil, Group.update, Group.repetition, if_pos hd]
      rw [show (g.debounce x0).timeout = g.timeout from rfl, if_neg hne]
      simp
      omega
    | append_singleton ys y ih =>
      intro hp
      have ih := ih ((List.prefix_append ys [y]).trans hp)
      have hh := hheld _ hp (by simp)
      obtain ⟨m1, m2, m3⟩ := hconst ys
      rw [updates_snoc] at hh ⊢
      obtain ⟨u, hu⟩ : ∃ u, u = updates (g.update x0) ys := ⟨_, rfl⟩
      rw [← hu] at hh ih m1 m2 m3 ⊢
      have hd : ¬ ((u.debounce y).debounced &&& (u.debounce y).repeatmask = 0) := by
        have : (u.debounce y).repeatmask = g.repeatmask := m1
        rw [this, ← hrep]
        exact hh
      have hc : (u.update y).repeatCounter =
          if u.repeatCounter - 1 = 0 then u.interval else u.repeatCounter - 1 := by
        simp only [Group.update, Group.repetition, if_neg hd]
        rw [show (u.debounce y).repeatCounter = u.repeatCounter from rfl]
        split <;> rfl
      have hsub : 1 ≤ u.repeatCounter.toNat → (u.repeatCounter - 1).toNat = u.repeatCounter.toNat - 1 := by
        intro h; simp; omega
      have h0 : (u.repeatCounter - 1 = 0) ↔ u.repeatCounter.toNat = 1 := by
        constructor
        · intro h
          have := congrArg BitVec.toNat h
          simp at this
          omega
        · intro h
          apply BitVec.eq_of_toNat_eq
          rw [hsub (by omega), h]; rfl
      rw [hc, m3]
      simp only [List.length_append, List.length_singleton]
      rcases ih with ⟨h1, h2⟩ | ⟨k, r, h1, h2, h3⟩
      · by_cases hz : u.repeatCounter.toNat = 1
        · rw [if_pos (h0.2 hz)]
          refine Or.inr ⟨0, 0, by omega, by omega, by omega⟩
        · rw [if_neg (fun h => hz (h0.1 h)), hsub (by omega)]
          refine Or.inl ⟨by omega, by omega⟩
      · by_cases hz : u.repeatCounter.toNat = 1
        · rw [if_pos (h0.2 hz)]
          refine Or.inr ⟨k + 1, 0, by rw [Nat.succ_mul]; omega, by omega, by omega⟩
        · rw [if_neg (fun h => hz (h0.1 h)), hsub (by omega)]
          refine Or.inr ⟨k, r + 1, by omega, by omega, by omega⟩
  have hc := hcount xs (List.prefix_append _ _)
  have hh := hheld _ (List.prefix_refl _) (by simp)
  obtain ⟨m1, m2, m3⟩ := hconst xs
  rw [updates_snoc] at hh ⊢
  obtain ⟨u, hu⟩ : ∃ u, u = updates (g.update x0) xs := ⟨_, rfl⟩
  rw [← hu] at hh hc m1 m2 m3 ⊢
  have hd : ¬ ((u.debounce x).debounced &&& (u.debounce x).repeatmask = 0) := by
    have : (u.debounce x).repeatmask = g.repeatmask := m1
    rw [this, ← hrep]
    exact hh
  have hfire : u.repeatCounter.toNat = 1 ↔
      repeats (g.timeout.toNat - 1) g.interval.toNat (xs.length + 1) := by
    rcases hc with ⟨h1, h2⟩ | ⟨k, r, h1, h2, h3⟩
    · constructor
      · intro h; exact ⟨0, by omega⟩
      · rintro ⟨j, hj⟩; omega
    · constructor
      · intro h; exact ⟨k + 1, by rw [Nat.succ_mul]; omega⟩
      · rintro ⟨j, hj⟩
        have hjk : k < j := by
          by_contra hn
          have := Nat.mul_le_mul_right g.interval.toNat (show j ≤ k by omega)
          omega
        have hjk2 : j ≤ k + 1 := by
          by_contra hn
          have := Nat.mul_le_mul_right g.interval.toNat (show k + 2 ≤ j by omega)
          rw [Nat.add_mul] at this
          omega
        have : j = k + 1 := by omega
        subst this
        rw [Nat.succ_mul] at hj
        omega
  have h0 : (u.repeatCounter - 1 = 0) ↔ u.repeatCounter.toNat = 1 := by
    constructor
    · intro h
      have := congrArg BitVec.toNat h
      simp at this
      omega
    · intro h
      apply BitVec.eq_of_toNat_eq
      simp [h]
  have hu2 : (u.update x).repeated = if u.repeatCounter - 1 = 0 then
      u.repeated ||| ((u.update x).debounced &&& g.repeatmask) else u.repeated := by
    have e : (u.update x).debounced = (u.debounce x).debounced := hrep _
    rw [e]
    simp only [Group.update, Group.repetition, if_neg hd]
    rw [show (u.debounce x).repeatCounter = u.repeatCounter from rfl,
      show (u.debounce x).repeatmask = g.repeatmask from m1]
    split <;> rfl
  rw [hu2]
  refine ⟨fun hf => ?_, fun hf => ?_⟩
  · rw [if_pos (h0.2 (hfire.2 hf))]
  · rw [if_neg (fun h => hf (hfire.1 (h0.1 h)))]

example : let g : Group 8 := Group.init 0x01 5 2
    (updates (g.update 0xff) [0xfe, 0xfe, 0xfe, 0xfe]).repeated = 0 ∧
    (updates (g.update 0xff) (List.replicate 6 0xfe)).repeated = 0 ∧
    (updates (g.update 0xff) (List.replicate 7 0xfe)).repeated = 1 := by decide +kernel

/-- The updates in which button `k` goes down. -/
def presses (g : Group w) (k : Nat) : List (BitVec w ⊕ Bool) → Nat
  | [] => 0
  | .inl x :: r => presses (g.update x) k r +
      if g.debounced.getLsbD k = false ∧ (g.update x).debounced.getLsbD k = true then 1 else 0
  | .inr b :: r => presses (if b then (g.isPressedLong (BitVec.twoPow w k)).2
      else (g.isPressedShort (BitVec.twoPow w k)).2) k r

/-- The number of reports of button `k` as a long (`true`) or short (`false`) press. -/
def reports (g : Group w) (k : Nat) : List (BitVec w ⊕ Bool) → Nat
  | [] => 0
  | .inl x :: r => reports (g.update x) k r
  | .inr true :: r => reports (g.isPressedLong (BitVec.twoPow w k)).2 k r +
      if (g.isPressedLong (BitVec.twoPow w k)).1 then 1 else 0
  | .inr false :: r => reports (g.isPressedShort (BitVec.twoPow w k)).2 k r +
      if (g.isPressedShort (BitVec.twoPow w k)).1 then 1 else 0

theorem ne_zero_iff (v : BitVec w) : v ≠ 0 ↔ ∃ k, k < w ∧ v.getLsbD k = true := by
  constructor
  · intro h
    by_contra hn
    apply h
    apply BitVec.eq_of_getLsbD_eq
    intro i hi
    simp only [BitVec.ofNat_eq_ofNat, BitVec.getLsbD_zero]
    by_contra hc
    exact hn ⟨i, hi, by simpa using hc⟩
  · rintro ⟨i, _, h1⟩ h
    rw [h] at h1
    simp at h1

theorem short_bit (g : Group w) (k : Nat) (hk : k < w) :
    ((g.isPressedShort (BitVec.twoPow w k)).1 = true → g.pressed.getLsbD k = true ∧
      (g.isPressedShort (BitVec.twoPow w k)).2.pressed.getLsbD k = false) ∧
    ((g.isPressedShort (BitVec.twoPow w k)).2.pressed.getLsbD k = true → g.pressed.getLsbD k = true) := by
  unfold Group.isPressedShort
  simp only [decide_eq_true_eq]
  rw [ne_zero_iff]
  constructor
  · rintro ⟨j, hj, h⟩
    simp only [BitVec.getLsbD_and, BitVec.getLsbD_twoPow, BitVec.getLsbD_not, Bool.and_eq_true,
      decide_eq_true_eq] at h
    obtain ⟨⟨⟨-, rfl⟩, h2⟩, h3⟩ := h
    refine ⟨h2, ?_⟩
    simp [-BitVec.getLsbD_eq_getElem, BitVec.getLsbD_twoPow, hk, h2]
    simpa [hk] using h3.2
  · simp [-BitVec.getLsbD_eq_getElem, BitVec.getLsbD_twoPow, hk]
    cases g.pressed.getLsbD k <;> simp

theorem long_bit (g : Group w) (k : Nat) (hk : k < w) :
    ((g.isPressedLong (BitVec.twoPow w k)).1 = true → g.pressed.getLsbD k = true ∧
      (g.isPressedLong (BitVec.twoPow w k)).2.pressed.getLsbD k = false) ∧
    ((g.isPressedLong (BitVec.twoPow w k)).2.pressed.getLsbD k = true → g.pressed.getLsbD k = true) := by
  unfold Group.isPressedLong
  simp only [decide_eq_true_eq]
  rw [ne_zero_iff]
  constructor
  · rintro ⟨j, hj, h⟩
    simp only [BitVec.getLsbD_and, BitVec.getLsbD_twoPow, Bool.and_eq_true, decide_eq_true_eq] at h
    obtain ⟨⟨⟨-, rfl⟩, h2⟩, h3⟩ := h
    refine ⟨h3, ?_⟩
    simp [-BitVec.getLsbD_eq_getElem, BitVec.getLsbD_twoPow, hk, h2, h3]
  · simp [-BitVec.getLsbD_eq_getElem, BitVec.getLsbD_twoPow, hk]
    cases g.pressed.getLsbD k <;> simp

/-- C82: however the updates and questions are mixed, a press is reported at most once, as short or as long. -/
theorem C82_reported_once (g : Group w) (k : Nat) (hk : k < w) (h : List (BitVec w ⊕ Bool)) :
    reports g k h ≤ presses g k h + if g.pressed.getLsbD k then 1 else 0 := by
  induction h generalizing g with
  | nil => simp [reports]
  | cons o r ih =>
    cases o with
    | inl x =>
      rw [reports, presses]
      have := ih (g.update x)
      obtain ⟨-, -, e2, e3, -⟩ := update_bit g x k hk
      rw [e3] at this
      rw [e2]
      generalize ((g.debounced.getLsbD k != !x.getLsbD k) && _) = j at *
      revert this
      cases g.debounced.getLsbD k <;> cases g.pressed.getLsbD k <;> cases j <;> simp <;> omega
    | inr b =>
      cases b with
      | true =>
        rw [reports, presses, if_pos rfl]
        have := ih (g.isPressedLong (BitVec.twoPow w k)).2
        obtain ⟨h1, h2⟩ := long_bit g k hk
        by_cases hr : (g.isPressedLong (BitVec.twoPow w k)).1 = true
        · obtain ⟨h3, h4⟩ := h1 hr
          rw [if_pos hr, if_pos h3]
          rw [h4] at this
          simp at this
          omega
        · rw [if_neg hr]
          refine le_trans this ?_
          apply Nat.add_le_add_left
          by_cases hp : (g.isPressedLong (BitVec.twoPow w k)).2.pressed.getLsbD k = true
          · rw [if_pos hp, if_pos (h2 hp)]
          · rw [if_neg hp]; omega
      | false =>
        rw [reports, presses, if_neg (show ¬ (false = true) by decide)]
        have := ih (g.isPressedShort (BitVec.twoPow w k)).2
        obtain ⟨h1, h2⟩ := short_bit g k hk
        by_cases hr : (g.isPressedShort (BitVec.twoPow w k)).1 = true
        · obtain ⟨h3, h4⟩ := h1 hr
          rw [if_pos hr, if_pos h3]
          rw [h4] at this
          simp at this
          omega
        · rw [if_neg hr]
          refine le_trans this ?_
          apply Nat.add_le_add_left
          by_cases hp : (g.isPressedShort (BitVec.twoPow w k)).2.pressed.getLsbD k = true
          · rw [if_pos hp, if_pos (h2 hp)]
          · rw [if_neg hp]; omega

example : reports (Group.init (0x01 : BitVec 8) 5 2) 0
    ([.inl 0xff] ++ List.replicate 4 (.inl 0xfe) ++ [.inr false, .inr true] ++ List.replicate 4 (.inl 0xff) ++
      [.inr false, .inr true]) = 1 := by decide +kernel

/-- C82 is false of several buttons: they share one counter, so that a button that is pressed just before another one
repeats is repeated at once, and counts as a long press. -/
theorem C82_shared_counter_counterexample :
    let g : Group 8 := Group.init 0x03 50 20
    let h := updates (g.update 0xff) (List.replicate 48 0xfe ++ List.replicate 4 0xfc)
    h.debounced = 0x03 ∧ (updates (g.update 0xff) (List.replicate 48 0xfe ++ List.replicate 3 0xfc)).debounced = 1 ∧
      (h.isPressedLong 0x02).1 = true := by decide +kernel

end Props.Button
