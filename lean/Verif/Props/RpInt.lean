import Verif.Model.RpInt

set_option autoImplicit false

namespace Props.RpInt
open Model.RpInt

/-! ### Specification -/

/-- Trigger `t` of a pin is latched, is enabled. -/
def latched (s : St) (p t : Nat) : Bool := (s.intr (p / 8)).getLsbD (4 * (p % 8) + t)
def enabled (s : St) (p t : Nat) : Bool := (s.inte (p / 8)).getLsbD (4 * (p % 8) + t)

/-- The triggers for which an interrupt of the pin is wanted. -/
def pending (s : St) (p : Nat) : BitVec 32 := ((s.intr (p / 8) &&& s.inte (p / 8)) >>> (4 * (p % 8))) &&& 0b1111#32

/-- An edge has happened and the handler has not been called with it since. -/
def owed (p t : Nat) : List Ev → Bool → Bool
  | [], o => o
  | .edge p' t' :: l, o => owed p t l (o || decide (p = p' ∧ t = t'))
  | .call p' tr :: l, o => owed p t l (o && !(decide (p = p') && tr.getLsbD t))

/-- No edge of a pin with a handler is forgotten. -/
def Kept (s : St) : Prop := ∀ p t, t < 4 → (s.handlers p).isSome = true → owed p t s.log false = true → latched s p t = true

theorem owed_append (p t : Nat) (a b : List Ev) : ∀ o, owed p t (a ++ b) o = owed p t b (owed p t a o) := by
  induction a with
  | nil => intro o; rfl
  | cons e a ih => intro o; cases e <;> simp only [List.cons_append, owed, ih]

/-! ### Bits -/

theorem one_shift (n k : Nat) (hn : n < 32) : (1#32 <<< n).getLsbD k = decide (k = n) := by
  rw [BitVec.getLsbD_shiftLeft]
  by_cases e : k = n
  · subst e; simp [hn]
  · by_cases lt : k < n
    · simp [lt, e]
    · by_cases b : k < 32
      · have : ¬ (k - n = 0) := by omega
        simp [lt, e, b, this]
      · simp [b, e]

theorem low_bit (t : Nat) : (0b1111#32).getLsbD t = decide (t < 4) := by
  by_cases h : t < 32
  · have : ∀ t < 32, (0b1111#32).getLsbD t = decide (t < 4) := by decide +kernel
    exact this t h
  · rw [BitVec.getLsbD_of_ge _ _ (by omega)]
    have : ¬ t < 4 := by omega
    simp [this]

theorem edge_bit (p t : Nat) (h : t < 4) : edges.getLsbD (4 * (p % 8) + t) = decide (2 ≤ t) := by
  have : ∀ q < 8, ∀ t < 4, edges.getLsbD (4 * q + t) = decide (2 ≤ t) := by decide +kernel
  exact this (p % 8) (Nat.mod_lt _ (by omega)) t h

/-- The value for a pin has its triggers and nothing for other pins of the group. -/
theorem value_bit (p p' t : Nat) (tr : BitVec 32) (h : t < 4) (htr : ∀ k, tr.getLsbD k = true → k < 4) (g : p' / 8 = p / 8) :
    (value p tr).getLsbD (4 * (p' % 8) + t) = (decide (p' = p) && tr.getLsbD t) := by
  unfold value
  rw [BitVec.getLsbD_shiftLeft]
  have b : 4 * (p' % 8) + t < 32 := by omega
  by_cases e : p' = p
  · subst e
    have : ¬ (4 * (p' % 8) + t < 4 * (p' % 8)) := by omega
    have z : 4 * (p' % 8) + t - 4 * (p' % 8) = t := by omega
    simp [b, z]
  · have ne : p' % 8 ≠ p % 8 := by omega
    simp only [e, decide_false, Bool.false_and, b, decide_true, Bool.true_and]
    by_cases lt : 4 * (p' % 8) + t < 4 * (p % 8)
    · simp [lt]
    · cases q : tr.getLsbD (4 * (p' % 8) + t - 4 * (p % 8)) with
      | false => simp
      | true => have := htr _ q; omega

theorem low_of (x : BitVec 32) : ∀ k, (x &&& 0b1111#32).getLsbD k = true → k < 4 := by
  intro k h
  rw [BitVec.getLsbD_and, low_bit] at h
  simp at h
  exact h.2

theorem ack_latched (s : St) (p p' t : Nat) (tr : BitVec 32) (h : t < 4) (htr : ∀ k, tr.getLsbD k = true → k < 4) :
    latched (acknowledge s p tr) p' t = (latched s p' t && !(decide (p' = p) && tr.getLsbD t && decide (2 ≤ t))) := by
  unfold latched acknowledge
  simp only
  by_cases g : p' / 8 = p / 8
  · rw [g, Function.update_self, BitVec.getLsbD_and, BitVec.getLsbD_not, BitVec.getLsbD_and, value_bit p p' t tr h htr g, edge_bit p' t h]
    have b : 4 * (p' % 8) + t < 32 := by omega
    simp [b]
  · have : p' ≠ p := fun e => g (by rw [e])
    rw [Function.update_of_ne g]
    simp [this]

theorem edge_latched (s : St) (e : Nat × Nat) (p t : Nat) (h : t < 4) (he : e.2 < 4) :
    latched (edge s e) p t = (latched s p t || decide (p = e.1 ∧ t = e.2)) := by
  unfold latched edge
  simp only
  by_cases g : p / 8 = e.1 / 8
  · rw [g, Function.update_self, BitVec.getLsbD_or, one_shift _ _ (by omega)]
    congr 1
    rw [decide_eq_decide]
    omega
  · have : ¬ (p = e.1 ∧ t = e.2) := fun q => g (by rw [q.1])
    rw [Function.update_of_ne g]
    simp [this]

/-! ### No edge is forgotten -/

theorem edge_kept (s : St) (e : Nat × Nat) (he : e.2 < 4) (k : Kept s) : Kept (edge s e) := by
  intro p t h hs o
  rw [edge_latched s e p t h he]
  have o' : owed p t (s.log ++ [.edge e.1 e.2]) false = true := o
  rw [owed_append] at o'
  simp only [owed, Bool.or_eq_true] at o'
  rcases o' with o' | o'
  · rw [k p t h hs o']; rfl
  · rw [o']; simp

theorem edges_kept (es : List (Nat × Nat)) : ∀ s, (∀ e ∈ es, e.2 < 4) → Kept s → Kept (es.foldl edge s) := by
  induction es with
  | nil => intro s _ k; exact k
  | cons e es ih =>
    intro s he k
    exact ih (edge s e) (fun x hx => he x (List.mem_cons_of_mem _ hx)) (edge_kept s e (he e (by simp)) k)

theorem step_kept (s : St) (p : Nat) (tr : BitVec 32) (htr : ∀ k, tr.getLsbD k = true → k < 4) (k : Kept s) :
    Kept (call (acknowledge s p tr) p tr) := by
  intro q t h hs o
  have hl : ∀ x, latched (call x p tr) q t = latched x q t := by intro x; unfold call; split <;> rfl
  have hh : ∀ x, (call x p tr).handlers = x.handlers := by intro x; unfold call; split <;> rfl
  rw [hl, ack_latched s p q t tr h htr]
  rw [hh] at hs
  have hs' : (s.handlers q).isSome = true := hs
  unfold call at o
  split at o
  · have o' : owed q t (s.log ++ [.call p tr]) false = true := o
    rw [owed_append] at o'
    simp only [owed, Bool.and_eq_true, Bool.not_eq_true'] at o'
    rw [k q t h hs' o'.1, o'.2]; rfl
  · rename_i no
    have ne : q ≠ p := fun e => no (by rw [← e]; exact hs)
    rw [k q t h hs' o]; simp [ne]

theorem pins_kept (env : Nat → List (Nat × Nat)) (he : ∀ p, ∀ e ∈ env p, e.2 < 4) (n : Nat) :
    ∀ s pin status, Kept s → Kept (pins env n s pin status) := by
  induction n with
  | zero => intro s _ _ k; exact k
  | succ n ih =>
    intro s pin status k
    simp only [pins]
    split
    · exact k
    · apply ih
      split
      · exact edges_kept _ _ (he pin) (step_kept s pin _ (low_of status) k)
      · exact k

theorem groups_kept (env : Nat → List (Nat × Nat)) (he : ∀ p, ∀ e ∈ env p, e.2 < 4) (gs : List Nat) :
    ∀ s, Kept s → Kept (groups env gs s) := by
  induction gs with
  | nil => intro s k; exact k
  | cons g gs ih => intro s k; exact ih _ (pins_kept env he 8 s _ _ k)

/-- What happens to the pins: an edge, or the interrupt with edges while the handlers run. -/
inductive Step where
  | edge (e : Nat × Nat)
  | irq (env : Nat → List (Nat × Nat))

def Step.ok : Step → Prop
  | .edge e => e.2 < 4
  | .irq env => ∀ p, ∀ e ∈ env p, e.2 < 4

def run (num : Nat) (s : St) : Step → St
  | .edge e => edge s e
  | .irq env => irq env num s

/-- C340: in all sequences of edges and interrupts, with all edges at all pins while the handlers run: an edge at a
pin with a handler is followed by a call of the handler with this edge, or it is still latched. -/
theorem C340_not_lost (num : Nat) (steps : List Step) (s : St) (hs : s.log = []) (h : ∀ x ∈ steps, x.ok) :
    Kept (steps.foldl (run num) s) := by
  have base : Kept s := by intro p t _ _ o; rw [hs] at o; simp [owed] at o
  clear hs
  induction steps generalizing s with
  | nil => exact base
  | cons x xs ih =>
    refine ih (run num s x) (fun y hy => h y (List.mem_cons_of_mem _ hy)) ?_
    have hx := h x (by simp)
    cases x with
    | edge e => exact edge_kept s e hx base
    | irq env => exact groups_kept env hx _ s base

/-- A button at pin 5, both edges. -/
def button : St := connect ⟨fun _ => 0, fun _ => 0, fun _ => none, []⟩ 5 0b1100#32 7

/-- Case: the button bounces while its handler runs. -/
example : let s := irq (fun p => if p = 5 then [(5, 2)] else []) 30 (edge button (5, 2))
    s.log = [.edge 5 2, .call 5 4, .edge 5 2] ∧ latched s 5 2 = true ∧
    (irq (fun _ => []) 30 s).log = [.edge 5 2, .call 5 4, .edge 5 2, .call 5 4] := by decide +kernel

/-! ### Which handlers are called -/

def quiet : Nat → List (Nat × Nat) := fun _ => []

theorem quiet_step (s : St) (p : Nat) (tr : BitVec 32) : (quiet p).foldl edge s = s := rfl

/-- The calls that the digits of a status lead to. -/
def wanted (s : St) (pin : Nat) (status : BitVec 32) (i : Nat) : Option Ev :=
  let tr := (status >>> (4 * i)) &&& 0b1111#32
  if tr ≠ 0#32 ∧ (s.handlers (pin + i)).isSome = true then some (.call (pin + i) tr) else none

theorem filterMap_same {α β : Type} (f g : α → Option β) (l : List α) (h : ∀ x ∈ l, f x = g x) : l.filterMap f = l.filterMap g := by
  induction l with
  | nil => rfl
  | cons a l ih =>
    rw [List.filterMap_cons, List.filterMap_cons, h a (by simp), ih fun x hx => h x (List.mem_cons_of_mem _ hx)]

theorem filterMap_none {α β : Type} (f : α → Option β) (l : List α) (h : ∀ x ∈ l, f x = none) : l.filterMap f = [] := by
  induction l with
  | nil => rfl
  | cons a l ih => rw [List.filterMap_cons, h a (by simp)]; exact ih fun x hx => h x (List.mem_cons_of_mem _ hx)

theorem pins_quiet (n : Nat) : ∀ s pin status,
    (pins quiet n s pin status).log = s.log ++ (List.range n).filterMap (wanted s pin status) ∧
    (pins quiet n s pin status).handlers = s.handlers ∧ (pins quiet n s pin status).inte = s.inte := by
  induction n with
  | zero => intro s pin status; simp [pins]
  | succ n ih =>
    intro s pin status
    simp only [pins]
    split
    · rename_i z
      refine ⟨?_, rfl, rfl⟩
      rw [filterMap_none, List.append_nil]
      intro i _
      simp [wanted, z]
    · obtain ⟨a, b, c⟩ := ih (if status &&& 0b1111#32 ≠ 0#32 then (quiet pin).foldl edge (call (acknowledge s pin (status &&& 0b1111#32)) pin (status &&& 0b1111#32)) else s) (pin + 1) (status >>> 4)
      have hh : (if status &&& 0b1111#32 ≠ 0#32 then (quiet pin).foldl edge (call (acknowledge s pin (status &&& 0b1111#32)) pin (status &&& 0b1111#32)) else s).handlers = s.handlers := by
        split
        · simp only [quiet_step _ pin 0, call]; split <;> rfl
        · rfl
      have hi : (if status &&& 0b1111#32 ≠ 0#32 then (quiet pin).foldl edge (call (acknowledge s pin (status &&& 0b1111#32)) pin (status &&& 0b1111#32)) else s).inte = s.inte := by
        split
        · simp only [quiet_step _ pin 0, call]; split <;> rfl
        · rfl
      refine ⟨?_, by rw [b, hh], by rw [c, hi]⟩
      rw [a, List.range_succ_eq_map, List.filterMap_cons, List.filterMap_map]
      have rest : (List.range n).filterMap (wanted (if status &&& 0b1111#32 ≠ 0#32 then (quiet pin).foldl edge (call (acknowledge s pin (status &&& 0b1111#32)) pin (status &&& 0b1111#32)) else s) (pin + 1) (status >>> 4)) =
          (List.range n).filterMap (wanted s pin status ∘ Nat.succ) := by
        apply filterMap_same
        intro i _
        simp only [wanted, Function.comp, hh]
        have e1 : pin + 1 + i = pin + i.succ := by omega
        have e2 : status >>> 4 >>> (4 * i) = status >>> (4 * i.succ) := by
          rw [← BitVec.shiftRight_add]; congr 1; omega
        rw [e1, e2]
      rw [rest]
      have first : wanted s pin status 0 = if status &&& 0b1111#32 ≠ 0#32 ∧ (s.handlers pin).isSome = true then some (.call pin (status &&& 0b1111#32)) else none := by
        simp [wanted]
      rw [first]
      by_cases z : status &&& 0b1111#32 = 0#32
      · simp [z]
      · have hq : (acknowledge s pin (status &&& 0b1111#32)).handlers = s.handlers := rfl
        by_cases hp : (s.handlers pin).isSome = true
        · simp only [z, ne_eq, not_false_eq_true, hp, and_self, if_true, quiet_step _ pin 0, call, hq]
          simp [acknowledge]
        · simp only [z, ne_eq, not_false_eq_true, hp, and_false, if_true, if_false, quiet_step _ pin 0, call, hq]
          simp [acknowledge]

theorem pins_other (n : Nat) (g g' : Nat) (ne : g' ≠ g) : ∀ s i status, i + n ≤ 8 →
    (pins quiet n s (g * 8 + i) status).intr g' = s.intr g' := by
  induction n with
  | zero => intro s i status _; rfl
  | succ n ih =>
    intro s i status h
    simp only [pins]
    split
    · rfl
    · have e : g * 8 + i + 1 = g * 8 + (i + 1) := by omega
      rw [e, ih _ (i + 1) _ (by omega)]
      split
      · have gi : (g * 8 + i) / 8 = g := by omega
        simp only [quiet_step _ (g * 8 + i) 0, call]
        have : (acknowledge s (g * 8 + i) (status &&& 0b1111#32)).intr g' = s.intr g' := by
          unfold acknowledge; simp only [gi]; rw [Function.update_of_ne ne]
        split
        · exact this
        · exact this
      · rfl

/-- The calls of a pin. -/
def due (s : St) (p : Nat) : Option Ev :=
  if pending s p ≠ 0#32 ∧ (s.handlers p).isSome = true then some (.call p (pending s p)) else none

theorem group_due (s : St) (g : Nat) :
    (List.range 8).filterMap (wanted s (g * 8) (s.intr g &&& s.inte g)) = (List.range 8).filterMap (fun i => due s (g * 8 + i)) := by
  apply filterMap_same
  intro i hi
  have h8 : i < 8 := List.mem_range.mp hi
  have a : (g * 8 + i) / 8 = g := by omega
  have b : (g * 8 + i) % 8 = i := by omega
  simp only [wanted, due, pending, a, b]

theorem groups_quiet (gs : List Nat) : ∀ s, gs.Nodup →
    (groups quiet gs s).log = s.log ++ gs.flatMap fun g => (List.range 8).filterMap fun i => due s (g * 8 + i) := by
  induction gs with
  | nil => intro s _; simp [groups]
  | cons g gs ih =>
    intro s nd
    rw [List.nodup_cons] at nd
    obtain ⟨a, b, c⟩ := pins_quiet 8 s (g * 8) (s.intr g &&& s.inte g)
    simp only [groups]
    rw [ih _ nd.2, a, group_due, List.flatMap_cons, List.append_assoc]
    congr 2
    have : ∀ g' ∈ gs, ((List.range 8).filterMap fun i => due (pins quiet 8 s (g * 8) (s.intr g &&& s.inte g)) (g' * 8 + i)) =
        (List.range 8).filterMap fun i => due s (g' * 8 + i) := by
      intro g' hg
      apply filterMap_same
      intro i hi
      have h8 : i < 8 := List.mem_range.mp hi
      have e : (g' * 8 + i) / 8 = g' := by omega
      have ne : g' ≠ g := fun q => nd.1 (q ▸ hg)
      have o := pins_other 8 g g' ne s 0 (s.intr g &&& s.inte g) (by omega)
      simp only [Nat.add_zero] at o
      simp only [due, pending, e, b, c, o]
    clear ih a b c nd
    induction gs with
    | nil => rfl
    | cons x xs ih =>
      rw [List.flatMap_cons, List.flatMap_cons, this x (by simp), ih fun y hy => this y (List.mem_cons_of_mem _ hy)]

theorem range_groups (f : Nat → Option Ev) (n : Nat) :
    ((List.range n).flatMap fun g => (List.range 8).filterMap fun i => f (g * 8 + i)) = (List.range (8 * n)).filterMap f := by
  induction n with
  | zero => rfl
  | succ n ih =>
    have e : 8 * (n + 1) = 8 * n + 8 := by omega
    rw [List.range_succ (n := n), List.flatMap_append, ih, e, List.range_add, List.filterMap_append, List.filterMap_map]
    congr 1
    rw [List.flatMap_cons, List.flatMap_nil, List.append_nil]
    apply filterMap_same
    intro i _
    simp only [Function.comp]
    congr 1
    omega

/-- C341: without edges while the handlers run, for all registers and handlers: the handlers of exactly the pins
with enabled and latched triggers are called, once each, in order, with these triggers — for the pins below
`8 * (num / 8)`, that is 24 of 30. -/
theorem C341_calls_partial (num : Nat) (s : St) :
    (irq quiet num s).log = s.log ++ (List.range (8 * (num / 8))).filterMap (due s) := by
  unfold irq
  rw [groups_quiet _ s List.nodup_range, range_groups]

/-- Case: two pins in two groups. -/
example : (irq quiet 30 (edge (edge (connect button 17 0b1000#32 9) (5, 3)) (17, 3))).log =
    [.edge 5 3, .edge 17 3, .call 5 8, .call 17 8] := by decide +kernel

/-- C341 (refuted): 30 pins are divided by eight without rounding up: the pins 24 to 29 are never looked at.  The
handler of pin 25 is not called, the edge stays latched and enabled, and the interrupt is raised again and again. -/
theorem C341_upper_counterexample :
    let s := edge (connect button 25 0b1000#32 9) (25, 3)
    (irq quiet 30 s).log = [.edge 25 3] ∧ latched (irq quiet 30 s) 25 3 = true ∧ enabled (irq quiet 30 s) 25 3 = true ∧
    (irq quiet 30 (irq quiet 30 s)).log = [.edge 25 3] := by decide +kernel

/-! ### Connecting -/

theorem enable_enabled (s : St) (p p' t : Nat) (tr : BitVec 32) (h : t < 4) (htr : ∀ k, tr.getLsbD k = true → k < 4) :
    enabled (enableIrq s p tr) p' t = (enabled s p' t || (decide (p' = p) && tr.getLsbD t)) := by
  unfold enabled enableIrq
  simp only
  by_cases g : p' / 8 = p / 8
  · rw [g, Function.update_self, BitVec.getLsbD_or, value_bit p p' t tr h htr g]
  · have : p' ≠ p := fun e => g (by rw [e])
    rw [Function.update_of_ne g]
    simp [this]

theorem disable_enabled (s : St) (p p' t : Nat) (tr : BitVec 32) (h : t < 4) (htr : ∀ k, tr.getLsbD k = true → k < 4) :
    enabled (disableIrq s p tr) p' t = (enabled s p' t && !(decide (p' = p) && tr.getLsbD t)) := by
  unfold enabled disableIrq
  simp only
  by_cases g : p' / 8 = p / 8
  · rw [g, Function.update_self, BitVec.getLsbD_and, BitVec.getLsbD_not, value_bit p p' t tr h htr g]
    have b : 4 * (p' % 8) + t < 32 := by omega
    simp [b]
  · have : p' ≠ p := fun e => g (by rw [e])
    rw [Function.update_of_ne g]
    simp [this]

/-- C342: for all states, pins and triggers: `connect()` sets the handler, enables exactly the triggers asked for and
forgets older edges of the pin; `disconnect()` disables all triggers and removes the handler; nothing changes for
other pins. -/
theorem C342_connect (s : St) (pin handler : Nat) (tr : BitVec 32) (htr : ∀ k, tr.getLsbD k = true → k < 4) :
    (∀ p, (connect s pin tr handler).handlers p = if p = pin then some handler else s.handlers p) ∧
    (∀ p t, t < 4 → enabled (connect s pin tr handler) p t = if p = pin then tr.getLsbD t else enabled s p t) ∧
    (∀ p t, t < 4 → latched (connect s pin tr handler) p t = (latched s p t && !(decide (p = pin) && decide (2 ≤ t)))) ∧
    (∀ p, (disconnect s pin).handlers p = if p = pin then none else s.handlers p) ∧
    (∀ p t, t < 4 → enabled (disconnect s pin) p t = if p = pin then false else enabled s p t) ∧
    (∀ p t, latched (disconnect s pin) p t = latched s p t) := by
  have l4 : ∀ k, (0b1111#32).getLsbD k = true → k < 4 := by intro k h; rw [low_bit] at h; simpa using h
  refine ⟨?_, ?_, ?_, ?_, ?_, ?_⟩
  · intro p
    show Function.update s.handlers pin (some handler) p = _
    by_cases e : p = pin
    · subst e; simp
    · simp [e]
  · intro p t h
    unfold connect
    simp only
    rw [enable_enabled _ pin p t tr h htr]
    have : enabled { acknowledge (disableIrq s pin 15#32) pin 15#32 with handlers := Function.update (acknowledge (disableIrq s pin 15#32) pin 15#32).handlers pin (some handler) } p t = enabled (disableIrq s pin 15#32) p t := rfl
    rw [this, disable_enabled s pin p t _ h l4, low_bit]
    by_cases e : p = pin
    · subst e; simp [h]
    · simp [e]
  · intro p t h
    have : latched (connect s pin tr handler) p t = latched (acknowledge (disableIrq s pin 15#32) pin 15#32) p t := rfl
    rw [this, ack_latched _ pin p t _ h l4, low_bit]
    have : latched (disableIrq s pin 15#32) p t = latched s p t := rfl
    rw [this]; simp [h]
  · intro p
    show Function.update s.handlers pin none p = _
    by_cases e : p = pin
    · subst e; simp
    · simp [e]
  · intro p t h
    have : enabled (disconnect s pin) p t = enabled (disableIrq s pin 15#32) p t := rfl
    rw [this, disable_enabled s pin p t _ h l4, low_bit]
    by_cases e : p = pin
    · subst e; simp [h]
    · simp [e]
  · intro p t; rfl

/-- Case. -/
example : enabled (connect button 4 0b0100#32 3) 5 3 = true ∧ enabled (connect button 4 0b0100#32 3) 4 2 = true ∧
    enabled (disconnect button 5) 5 3 = false := by decide +kernel

end Props.RpInt
