import Verif.Model.StaticGuard
set_option autoImplicit false

/-! # Properties of function statics and assertions -/

namespace Props.StaticGuard
open Model.StaticGuard

/-! ## C244: function statics -/

/-- Not yet in the constructor, not behind it. -/
def Early (pc : Pc) : Prop := pc = .byte ∨ pc = .load

/-- `top` (the call that runs) and `l` while the constructor has not begun. -/
def Before (s : St) : Prop :=
  s.guard = 0 ∧ s.began = 0 ∧ s.ended = 0 ∧ ∃ pc l, s.frames = pc :: l ∧ (Early pc ∨ pc = .xchg) ∧ ∀ x ∈ l, Early x

/-- The constructor runs, in one call. -/
def During (s : St) : Prop :=
  s.guard = 0x100 ∧ s.began = 1 ∧ ∃ c l1 l2, s.frames = l1 ++ c :: l2
    ∧ ((c = .ctor ∧ s.ended = 0) ∨ (c = .rel ∧ s.ended = 1))
    ∧ (∀ x ∈ l2, Early x) ∧ (l1 = [] ∨ ∃ pc l3, l1 = pc :: l3 ∧ (Early pc ∨ pc = .xchg ∨ pc = .failed) ∧ ∀ x ∈ l3, Early x)

/-- It has run. -/
def After (s : St) : Prop :=
  s.guard = 1 ∧ s.began = 1 ∧ s.ended = 1 ∧ s.frames ≠ [] ∧ ∀ x ∈ s.frames, Early x ∨ x = .done

def Inv (s : St) : Prop := Before s ∨ During s ∨ After s

theorem inv_step (s s' : St) (hst : Step true s s') (h : Inv s) : Inv s' := by
  rcases h with h | h | h
  · obtain ⟨g, b, e, pc0, l0, hf0, hp, hl⟩ := h
    cases hst with
    | exec pc l hf =>
      rw [hf] at hf0
      obtain ⟨rfl, rfl⟩ := List.cons.inj hf0
      rcases hp with (hp | hp) | hp
      · rw [hp]
        exact Or.inl ⟨g, b, e, _, _, rfl, by simp [g, Early], hl⟩
      · rw [hp]
        exact Or.inl ⟨g, b, e, _, _, rfl, by simp [g, initialized], hl⟩
      · rw [hp]
        refine Or.inr (Or.inl ?_)
        have : exec s .xchg l = { s with guard := initializing, frames := .ctor :: l, began := s.began + 1 } := by
          simp [exec, g, initializing]
        rw [this]
        exact ⟨rfl, by simp [b], .ctor, [], l, rfl, Or.inl ⟨rfl, e⟩, hl, Or.inl rfl⟩
    | irq pc l hf hfl hw =>
      rw [hf] at hf0
      obtain ⟨rfl, rfl⟩ := List.cons.inj hf0
      refine Or.inl ⟨g, b, e, _, _, rfl, Or.inl (Or.inl rfl), ?_⟩
      intro x hx
      rcases List.mem_cons.1 hx with hx | hx
      · rw [hx]
        rcases hp with hp | hp
        · exact hp
        · exact absurd hp (hw rfl)
      · exact hl x hx
    | ret pc l hf =>
      rw [hf] at hf0
      obtain ⟨rfl, _⟩ := List.cons.inj hf0
      rcases hp with (hp | hp) | hp <;> cases hp
  · obtain ⟨g, b, c, l1, l2, hf0, hc, h2, h1⟩ := h
    rcases h1 with rfl | ⟨pc0, l3, rfl, hp, h3⟩
    · cases hst with
      | exec pc l hf =>
        rw [hf] at hf0
        obtain ⟨rfl, rfl⟩ := List.cons.inj hf0
        rcases hc with ⟨rfl, e⟩ | ⟨rfl, e⟩
        · exact Or.inr (Or.inl ⟨g, b, .rel, [], l, rfl, Or.inr ⟨rfl, by simp [exec, e]⟩, h2, Or.inl rfl⟩)
        · refine Or.inr (Or.inr ⟨rfl, b, e, by simp [exec], ?_⟩)
          intro x hx
          rcases List.mem_cons.1 hx with hx | hx
          · exact Or.inr hx
          · exact Or.inl (h2 x hx)
      | irq pc l hf hfl hw =>
        rw [hf] at hf0
        obtain ⟨rfl, rfl⟩ := List.cons.inj hf0
        exact Or.inr (Or.inl ⟨g, b, pc, [.byte], l, rfl, hc, h2, Or.inr ⟨.byte, [], rfl, Or.inl (Or.inl rfl), by simp⟩⟩)
      | ret pc l hf =>
        rw [hf] at hf0
        obtain ⟨rfl, _⟩ := List.cons.inj hf0
        rcases hc with ⟨hc, _⟩ | ⟨hc, _⟩ <;> cases hc
    · cases hst with
      | exec pc l hf =>
        rw [hf, List.cons_append] at hf0
        obtain ⟨rfl, rfl⟩ := List.cons.inj hf0
        rcases hp with (hp | hp) | hp | hp
        · rw [hp]
          exact Or.inr (Or.inl ⟨g, b, c, .load :: l3, l2, by simp [exec, g], hc, h2, Or.inr ⟨.load, l3, rfl, Or.inl (Or.inr rfl), h3⟩⟩)
        · rw [hp]
          exact Or.inr (Or.inl ⟨g, b, c, .xchg :: l3, l2, by simp [exec, g, initialized], hc, h2,
            Or.inr ⟨.xchg, l3, rfl, Or.inr (Or.inl rfl), h3⟩⟩)
        · rw [hp]
          have : exec s .xchg (l3 ++ c :: l2) = { s with frames := .failed :: (l3 ++ c :: l2) } := by
            simp [exec, g, initializing]
          rw [this]
          exact Or.inr (Or.inl ⟨g, b, c, .failed :: l3, l2, rfl, hc, h2, Or.inr ⟨.failed, l3, rfl, Or.inr (Or.inr rfl), h3⟩⟩)
        · rw [hp]
          rw [hp] at hf
          exact Or.inr (Or.inl ⟨g, b, c, .failed :: l3, l2, hf, hc, h2, Or.inr ⟨.failed, l3, rfl, Or.inr (Or.inr rfl), h3⟩⟩)
      | irq pc l hf hfl hw =>
        rw [hf, List.cons_append] at hf0
        obtain ⟨rfl, rfl⟩ := List.cons.inj hf0
        refine Or.inr (Or.inl ⟨g, b, c, .byte :: pc :: l3, l2, rfl, hc, h2, Or.inr ⟨.byte, pc :: l3, rfl, Or.inl (Or.inl rfl), ?_⟩⟩)
        intro x hx
        rcases List.mem_cons.1 hx with hx | hx
        · rw [hx]
          rcases hp with hp | hp | hp
          · exact hp
          · exact absurd hp (hw rfl)
          · exact absurd hp hfl
        · exact h3 x hx
      | ret pc l hf =>
        rw [hf, List.cons_append] at hf0
        obtain ⟨rfl, _⟩ := List.cons.inj hf0
        rcases hp with (hp | hp) | hp | hp <;> cases hp
  · obtain ⟨g, b, e, hne, hx⟩ := h
    refine Or.inr (Or.inr ?_)
    cases hst with
    | exec pc l hf =>
      rw [hf] at hx
      have hl : ∀ x ∈ l, Early x ∨ x = .done := fun x h => hx x (by simp [h])
      have done_l : ∀ q : Pc, (Early q ∨ q = .done) → ∀ x ∈ q :: l, Early x ∨ x = .done := by
        intro q hq x h
        rcases List.mem_cons.1 h with h | h
        · rw [h]; exact hq
        · exact hl x h
      rcases hx pc (by simp) with (hp | hp) | hp
      · rw [hp]
        exact ⟨g, b, e, by simp [exec], done_l _ (by simp [g])⟩
      · rw [hp]
        exact ⟨g, b, e, by simp [exec], done_l _ (by simp [g, initialized])⟩
      · rw [hp]
        exact ⟨g, b, e, by simp [exec], done_l _ (Or.inl (Or.inl rfl))⟩
    | irq pc l hf hfl hw =>
      refine ⟨g, b, e, by simp, ?_⟩
      intro x h
      rcases List.mem_cons.1 h with h | h
      · exact Or.inl (Or.inl h)
      · exact hx x (by rw [hf]; exact h)
    | ret pc l hf =>
      exact ⟨g, b, e, by simp, fun x h => hx x (by rw [hf]; exact List.mem_cons_of_mem _ h)⟩

theorem inv_reach (s : St) (h : Reach true s) : Inv s := by
  induction h with
  | init => exact Or.inl ⟨rfl, rfl, rfl, _, _, rfl, Or.inl (Or.inl rfl), by simp⟩
  | step _ hs ih => exact inv_step _ _ hs ih

/-- **C244** If no interrupt comes between the two accesses of
`__cxa_guard_acquire`, the constructor runs at most once, and a call gets behind
the initialisation only after the constructor has ended. -/
theorem C244_once_partial (s : St) (h : Reach true s) :
    s.began ≤ 1 ∧ (.done ∈ s.frames → s.began = 1 ∧ s.ended = 1) := by
  rcases inv_reach s h with h | h | h
  · obtain ⟨g, b, e, pc, l, hf, hp, hl⟩ := h
    refine ⟨by omega, ?_⟩
    intro hd
    rw [hf] at hd
    rcases List.mem_cons.1 hd with hd | hd
    · rw [← hd] at hp
      rcases hp with (hp | hp) | hp <;> cases hp
    · rcases hl _ hd with hd | hd <;> cases hd
  · obtain ⟨g, b, c, l1, l2, hf, hc, h2, h1⟩ := h
    refine ⟨by omega, ?_⟩
    intro hd
    rw [hf] at hd
    rcases List.mem_append.1 hd with hd | hd
    · rcases h1 with rfl | ⟨pc, l3, rfl, hp, h3⟩
      · simp at hd
      · rcases List.mem_cons.1 hd with hd | hd
        · rw [← hd] at hp
          rcases hp with (hp | hp) | hp | hp <;> cases hp
        · rcases h3 _ hd with hd | hd <;> cases hd
    · rcases List.mem_cons.1 hd with hd | hd
      · rw [← hd] at hc
        rcases hc with ⟨hc, _⟩ | ⟨hc, _⟩ <;> cases hc
      · rcases h2 _ hd with hd | hd <;> cases hd
  · obtain ⟨g, b, e, _⟩ := h
    exact ⟨by omega, fun _ => ⟨b, e⟩⟩

/-- **C244** The assertion fails only if the object is being constructed in a
call that was interrupted (or calls itself). -/
theorem C244_recursive_partial (s : St) (h : Reach true s) (l : List Pc) (hf : s.frames = .failed :: l) :
    .ctor ∈ l ∨ .rel ∈ l := by
  rcases inv_reach s h with h | h | h
  · obtain ⟨_, _, _, pc, l', hf', hp, _⟩ := h
    rw [hf] at hf'
    obtain ⟨rfl, _⟩ := List.cons.inj hf'
    rcases hp with (hp | hp) | hp <;> cases hp
  · obtain ⟨_, _, c, l1, l2, hf', hc, _, h1⟩ := h
    rw [hf] at hf'
    rcases h1 with rfl | ⟨pc, l3, rfl, hp, h3⟩
    · obtain ⟨rfl, _⟩ := List.cons.inj hf'
      rcases hc with ⟨hc, _⟩ | ⟨hc, _⟩ <;> cases hc
    · rw [List.cons_append] at hf'
      obtain ⟨_, rfl⟩ := List.cons.inj hf'
      rcases hc with ⟨rfl, _⟩ | ⟨rfl, _⟩
      · exact Or.inl (by simp)
      · exact Or.inr (by simp)
  · obtain ⟨_, _, _, _, hx⟩ := h
    rcases hx .failed (by rw [hf]; simp) with (h | h) | h <;> cases h

/-- A run of accesses without interrupts. -/
def run : Nat → St → St
  | 0, s => s
  | n + 1, s => match s.frames with
    | pc :: l => run n (exec s pc l)
    | [] => s

theorem reach_run (w : Bool) : ∀ (n : Nat) (s : St), Reach w s → Reach w (run n s) := by
  intro n
  induction n with
  | zero => intro s h; exact h
  | succ n ih =>
    intro s h
    unfold run
    split
    · rename_i pc l hf
      exact ih _ (Reach.step h (Step.exec s pc l hf))
    · exact h

/-- First call, an interrupt before the constructor is entered, its end, the
rest of the call: initialised once. -/
example : Reach true ⟨1, [.done], 1, 1⟩ :=
  reach_run true 1 _ (Reach.step (reach_run true 5 _ (Reach.step (reach_run true 1 _ Reach.init)
    (Step.irq _ .load [] rfl (by decide) (fun _ => by decide)))) (Step.ret _ .load [] rfl))

/-- An interrupt in the constructor that needs the object: the assertion. -/
example : Reach true ⟨0x100, [.failed, .ctor], 1, 0⟩ :=
  reach_run true 3 _ (Reach.step (reach_run true 3 _ Reach.init) (Step.irq _ .ctor [] rfl (by decide) (fun _ => by decide)))

/-- **C244** If the interrupt comes between the load and the exchange, its
handler initialises the object, and the interrupted call does it again. -/
theorem C244_twice_counterexample : Reach false ⟨1, [.done], 2, 2⟩ :=
  reach_run false 3 _ (Reach.step (reach_run false 5 _ (Reach.step (reach_run false 2 _ Reach.init)
    (Step.irq _ .xchg [] rfl (by decide) (fun h => by cases h)))) (Step.ret _ .xchg [] rfl))

/-- **C244** And a handler that comes during this second construction runs into
the assertion, though it has used the object before. -/
theorem C244_assert_counterexample : Reach false ⟨0x100, [.failed, .ctor], 2, 1⟩ :=
  reach_run false 3 _ (Reach.step (reach_run false 1 _ (Reach.step (reach_run false 5 _ (Reach.step (reach_run false 2 _ Reach.init)
    (Step.irq _ .xchg [] rfl (by decide) (fun h => by cases h)))) (Step.ret _ .xchg [] rfl)))
    (Step.irq _ .ctor [] rfl (by decide) (fun h => by cases h)))

/-! ## C245: assertions -/

/-- The decision as documented in `assert.md`: what the type of the assertion
says, if no handler wants to fail or to ignore. -/
def decision (k : Kind) (handlers : List Abandonment) : Bool :=
  match k with
  | .assert => true
  | _ =>
    if .fail ∈ handlers then true
    else if .ignore ∈ handlers then false
    else k = .continueFail ∨ k = .continueFailDebug

theorem fold_bits : ∀ (l : List Abandonment) (b : Nat) (i : Nat),
    (l.foldl (fun b h => b ||| h.bits) b).testBit i = (b.testBit i || l.any fun h => h.bits.testBit i) := by
  intro l
  induction l with
  | nil => intro b i; simp
  | cons x l ih => intro b i; rw [List.foldl_cons, ih, Nat.testBit_or, List.any_cons, Bool.or_assoc]

/-- The bits in terms of the results of the handlers. -/
def mask (k : Kind) (d g f : Bool) : Nat := k.bits ||| (if d then 1 else 0) ||| (if g then 2 else 0) ||| (if f then 4 else 0)

theorem fold_mask (k : Kind) (l : List Abandonment) :
    l.foldl (fun b h => b ||| h.bits) k.bits = mask k (decide (.dontCare ∈ l)) (decide (.ignore ∈ l)) (decide (.fail ∈ l)) := by
  apply Nat.eq_of_testBit_eq
  intro i
  rw [fold_bits]
  unfold mask
  simp only [Nat.testBit_or]
  have key : (l.any fun h => h.bits.testBit i)
      = ((if decide (Abandonment.dontCare ∈ l) = true then 1 else 0).testBit i
        || ((if decide (Abandonment.ignore ∈ l) = true then 2 else 0).testBit i
        || (if decide (Abandonment.fail ∈ l) = true then 4 else 0).testBit i)) := by
    induction l with
    | nil => simp
    | cons x l ih =>
      rw [List.any_cons, ih]
      cases x <;> simp only [List.mem_cons, Abandonment.bits, reduceCtorEq, false_or, true_or, decide_true, if_true, true_and, eq_self]
      · by_cases h : Abandonment.dontCare ∈ l <;> by_cases h' : Abandonment.ignore ∈ l <;> by_cases h'' : Abandonment.fail ∈ l <;>
          simp [h, h', h''] <;> cases Nat.testBit 1 i <;> cases Nat.testBit 2 i <;> cases Nat.testBit 4 i <;> simp
      · by_cases h : Abandonment.dontCare ∈ l <;> by_cases h' : Abandonment.ignore ∈ l <;> by_cases h'' : Abandonment.fail ∈ l <;>
          simp [h, h', h''] <;> cases Nat.testBit 1 i <;> cases Nat.testBit 2 i <;> cases Nat.testBit 4 i <;> simp
      · by_cases h : Abandonment.dontCare ∈ l <;> by_cases h' : Abandonment.ignore ∈ l <;> by_cases h'' : Abandonment.fail ∈ l <;>
          simp [h, h', h''] <;> cases Nat.testBit 1 i <;> cases Nat.testBit 2 i <;> cases Nat.testBit 4 i <;> simp
  rw [key, Bool.or_assoc, Bool.or_assoc]

/-- **C245** A failed assertion is abandoned exactly if the documentation says
so, for any number of handlers in any order. -/
theorem C245_decision (k : Kind) (handlers : List Abandonment) : (report k.bits handlers).2 = decision k handlers := by
  unfold report decision
  simp only [fold_mask]
  generalize hd : decide (Abandonment.dontCare ∈ handlers) = d
  by_cases hg : Abandonment.ignore ∈ handlers <;> by_cases hf : Abandonment.fail ∈ handlers <;>
    cases d <;> cases k <;> simp [hg, hf, mask, Kind.bits]

/-- **C245** The value of the macro is that of the condition, unless the
execution is abandoned; code behind `__builtin_unreachable` is never reached. -/
theorem C245_value (k : Kind) (condition : Bool) (handlers : List Abandonment) :
    evaluate k condition handlers = if condition = false ∧ decision k handlers = true then .abandoned else .value condition := by
  unfold evaluate
  cases condition with
  | true => simp
  | false =>
    simp only [Bool.false_eq_true, if_false, true_and]
    rw [C245_decision]
    by_cases h : decision k handlers = true
    · rw [if_pos h, if_pos h]
    · rw [if_neg h, if_neg h]
      cases k with
      | assert => exact absurd rfl h
      | _ => simp [Kind.bits]

/-- **C245** The handlers' results do not depend on their order. -/
theorem C245_order (k : Kind) (l l' : List Abandonment) (h : ∀ a, a ∈ l ↔ a ∈ l') : report k.bits l = report k.bits l' := by
  unfold report
  simp only [fold_mask]
  rw [decide_eq_decide.2 (h .dontCare), decide_eq_decide.2 (h .ignore), decide_eq_decide.2 (h .fail)]

example : evaluate .continueFail false [.dontCare, .ignore] = .value false ∧ evaluate .continueFail false [.dontCare] = .abandoned
    ∧ evaluate .continueIgnoreDebug false [.dontCare, .ignore] = .value false
    ∧ evaluate .continueIgnore false [.ignore, .fail] = .abandoned ∧ evaluate .assert false [.ignore] = .abandoned := by decide

end Props.StaticGuard
