import Verif.Model.Exti
import Mathlib.Tactic.Ring

set_option autoImplicit false

namespace Props.Exti
open Model.Exti

/-! ### Specification -/

/-- A line asks for an interrupt (if it is not masked). -/
def pending (c : Chip) (s : St) (k : Nat) : Bool :=
  if c.sep then (s.fpr.getLsbD k && s.ftsr.getLsbD k) || (s.rpr.getLsbD k && s.rtsr.getLsbD k) else s.rpr.getLsbD k

/-- The lines of a device are divided into ranges. -/
structure WF (c : Chip) : Prop where
  range : ∀ l, l < 16 → c.lo l ≤ l ∧ l ≤ c.hi l ∧ c.hi l < 16
  same : ∀ l k, l < 16 → c.lo l ≤ k → k ≤ c.hi l → c.lo k = c.lo l
  conv : ∀ l k, l < 16 → k < 16 → c.lo k = c.lo l → k ≤ c.hi l

/-- The trigger is for this direction. -/
def Trigger.on : Trigger → Bool → Bool
  | .noEdges, _ => false
  | .risingEdge, r => r
  | .fallingEdge, r => !r
  | .bothEdges, _ => true

/-- The state is set up for an edge. -/
def armed (c : Chip) (s : St) (e : Edge) : Bool :=
  decide (source c s e.line = e.port) && (if e.rising then s.rtsr.getLsbD e.line else s.ftsr.getLsbD e.line)

/-- No edge arrives. -/
def quiet : Nat → List Edge := fun _ => []

/-! ### Bits -/

theorem bit_get (l k : Nat) (h : l < 32) : (bit l).getLsbD k = decide (k = l) := by
  unfold bit
  rw [BitVec.getLsbD_shiftLeft]
  by_cases e : k = l
  · subst e; simp [h]
  · by_cases lt : k < l
    · simp [lt, e]
    · by_cases b : k < 32
      · have : ¬ (k - l = 0) := by omega
        simp [lt, e, b, this]
      · simp [b, e]

theorem get_ack (x : BitVec 32) (l k : Nat) (h : l < 32) : (x &&& ~~~bit l).getLsbD k = (x.getLsbD k && decide (k ≠ l)) := by
  rw [BitVec.getLsbD_and, BitVec.getLsbD_not, bit_get l k h]
  by_cases b : k < 32
  · by_cases e : k = l <;> simp [b, e]
  · have : x.getLsbD k = false := BitVec.getLsbD_of_ge x k (by omega)
    simp [this]

theorem get_set (x : BitVec 32) (l k : Nat) (h : l < 32) : (x ||| bit l).getLsbD k = (x.getLsbD k || decide (k = l)) := by
  rw [BitVec.getLsbD_or, bit_get l k h]

theorem mask_table : ∀ lo < 16, ∀ hi < 16, ∀ k < 32, lo ≤ hi →
    (((1#32 <<< (hi + 1)) - 1#32) &&& ~~~((1#32 <<< lo) - 1#32)).getLsbD k = decide (lo ≤ k ∧ k ≤ hi) := by decide +kernel

theorem vectorMask_get (c : Chip) (w : WF c) (l k : Nat) (hl : l < 16) :
    (vectorMask c l).getLsbD k = decide (c.lo l ≤ k ∧ k ≤ c.hi l) := by
  obtain ⟨a, b, d⟩ := w.range l hl
  unfold vectorMask
  split
  · rename_i e
    have := bit_get (c.lo l) k (by omega)
    unfold bit at this; rw [this, decide_eq_decide]; omega
  · by_cases hk : k < 32
    · exact mask_table _ (by omega) _ d k hk (by omega)
    · rw [BitVec.getLsbD_of_ge _ k (by omega)]; symm; rw [decide_eq_false_iff_not]; omega

/-! ### Trigger source -/

theorem source_table : ∀ i < 4, ∀ p < 16, ∀ j < 4, ∀ b < 32,
    (0xf#32 <<< (i * 4)).getLsbD b = decide (i * 4 ≤ b ∧ b < i * 4 + 4) ∧
    ((BitVec.ofNat 32 p &&& 0xf#32) <<< (i * 4)).getLsbD b = (decide (i * 4 ≤ b) && decide (b < i * 4 + 4) && p.testBit (b - i * 4)) := by
  decide +kernel

theorem field_test (x : BitVec 32) (j b : Nat) (hj : j < 4) :
    (x.toNat / 2 ^ (j * 4) % 2 ^ 4).testBit b = (decide (b < 4) && x.getLsbD (b + j * 4)) := by
  rw [Nat.testBit_mod_two_pow, Nat.testBit_div_two_pow]; rfl

theorem ofNat_port (p b : Nat) (hp : p < 16) : p.testBit b = (decide (b < 4) && p.testBit b) := by
  by_cases h : b < 4
  · simp [h]
  · simp only [h, decide_false, Bool.false_and]
    exact Nat.testBit_lt_two_pow (Nat.lt_of_lt_of_le hp (by
      calc 16 = 2 ^ 4 := rfl
        _ ≤ 2 ^ b := Nat.pow_le_pow_right (by omega) (by omega)))

theorem field_set (x : BitVec 32) (i p j : Nat) (hi : i < 4) (hp : p < 16) (hj : j < 4) :
    ((x &&& ~~~(0xf#32 <<< (i * 4))) ||| ((BitVec.ofNat 32 p &&& 0xf#32) <<< (i * 4))).toNat / 2 ^ (j * 4) % 2 ^ 4 =
      if j = i then p else x.toNat / 2 ^ (j * 4) % 2 ^ 4 := by
  apply Nat.eq_of_testBit_eq
  intro b
  rw [field_test _ j b hj]
  by_cases hb : b < 4
  · have t := source_table i hi p hp j hj (b + j * 4) (by omega)
    rw [BitVec.getLsbD_or, BitVec.getLsbD_and, BitVec.getLsbD_not, t.1, t.2]
    have hb32 : b + j * 4 < 32 := by omega
    by_cases e : j = i
    · subst e
      have h1 : j * 4 ≤ b + j * 4 ∧ b + j * 4 < j * 4 + 4 := by omega
      simp [hb, h1, hb32]
    · have h1 : ¬ (i * 4 ≤ b + j * 4 ∧ b + j * 4 < i * 4 + 4) := by omega
      rw [if_neg e, field_test _ j b hj]
      rw [decide_eq_false h1]
      have h2 : (decide (i * 4 ≤ b + j * 4) && decide (b + j * 4 < i * 4 + 4)) = false := by
        rw [← Bool.decide_and]; exact decide_eq_false h1
      rw [h2]; simp [hb, hb32]
  · by_cases e : j = i
    · rw [if_pos e, ofNat_port p b hp]; simp [hb]
    · rw [if_neg e, field_test _ j b hj]; simp [hb]

theorem lineSplit (l : Nat) (hl : l < 16) : l >>> 2 = l / 4 ∧ (l &&& 3) <<< 2 = l % 4 * 4 := by
  have : ∀ l < 16, l >>> 2 = l / 4 ∧ (l &&& 3) <<< 2 = l % 4 * 4 := by decide
  exact this l hl

/-- C334: with the four bits for each line of `SYSCFG` and `AFIO`, for all lines and ports: afterwards the
line is connected to the port, and all other lines to the port they were connected to. -/
theorem C334_source_partial (c : Chip) (hc : c.width = 4) (s : St) (l port : Nat) (hl : l < 16) (hp : port < 16) :
    source c (setTriggerSource s l port) l = port ∧
    ∀ k, k < 16 → k ≠ l → source c (setTriggerSource s l port) k = source c s k := by
  obtain ⟨e1, e2⟩ := lineSplit l hl
  have key : ∀ k, k < 16 → source c (setTriggerSource s l port) k = if k = l then port else source c s k := by
    intro k hk
    unfold source setTriggerSource
    simp only [e1, e2, hc]
    by_cases q : k / 4 = l / 4
    · rw [q, Function.update_self, field_set _ (l % 4) port (k % 4) (by omega) hp (by omega)]
      by_cases e : k = l
      · subst e; simp
      · rw [if_neg (by omega), if_neg e]
    · rw [Function.update_of_ne q, if_neg (by intro e; subst e; exact q rfl)]
  exact ⟨by rw [key l hl, if_pos rfl], fun k hk hne => by rw [key k hk, if_neg hne]⟩

/-- A device after reset. -/
def reset : St := ⟨0, 0, 0, 0, 0, fun _ => 0, fun _ => none, fun _ => false, []⟩

example : source f4 (setTriggerSource reset 6 2) 6 = 2 ∧ source f4 (setTriggerSource reset 6 2) 5 = 0 := by decide +kernel

/-- C334 (refuted for G0, L5 and U5): these have eight bits for each line.  Connecting line 1 to port B leaves
line 1 at port A and connects line 0 to a port that does not exist. -/
theorem C334_eight_counterexample :
    source g0 (setTriggerSource reset 1 1) 1 = 0 ∧ source g0 (setTriggerSource reset 1 1) 0 = 16 ∧
    source g0 reset 0 = 0 := by decide +kernel

/-! ### The interrupt -/

/-- What edges and the loop leave as it is. -/
structure SameConfig (s t : St) : Prop where
  imr : t.imr = s.imr
  rtsr : t.rtsr = s.rtsr
  ftsr : t.ftsr = s.ftsr
  exticr : t.exticr = s.exticr
  handlers : t.handlers = s.handlers
  nvic : t.nvic = s.nvic

theorem SameConfig.refl (s : St) : SameConfig s s := ⟨rfl, rfl, rfl, rfl, rfl, rfl⟩

theorem SameConfig.trans {s t u : St} (a : SameConfig s t) (b : SameConfig t u) : SameConfig s u :=
  ⟨b.imr.trans a.imr, b.rtsr.trans a.rtsr, b.ftsr.trans a.ftsr, b.exticr.trans a.exticr, b.handlers.trans a.handlers,
    b.nvic.trans a.nvic⟩

theorem edge_config (c : Chip) (s : St) (e : Edge) : SameConfig s (edge c s e) ∧ (edge c s e).calls = s.calls := by
  unfold edge
  repeat' split
  all_goals exact ⟨⟨rfl, rfl, rfl, rfl, rfl, rfl⟩, rfl⟩

theorem edges_config (c : Chip) (es : List Edge) : ∀ s, SameConfig s (es.foldl (edge c) s) ∧ (es.foldl (edge c) s).calls = s.calls := by
  induction es with
  | nil => intro s; exact ⟨SameConfig.refl s, rfl⟩
  | cons e es ih =>
    intro s
    obtain ⟨a, b⟩ := edge_config c s e
    obtain ⟨x, y⟩ := ih (edge c s e)
    exact ⟨a.trans x, y.trans b⟩

theorem armed_config (c : Chip) (s t : St) (h : SameConfig s t) (e : Edge) : armed c t e = armed c s e := by
  unfold armed source; rw [h.exticr, h.rtsr, h.ftsr]

/-- The effect of an edge. -/
theorem edge_pending (c : Chip) (s : St) (e : Edge) (k : Nat) (he : e.line < 32) :
    pending c (edge c s e) k = (pending c s k || (armed c s e && decide (k = e.line))) := by
  unfold edge armed
  by_cases a : source c s e.line = e.port
  · simp only [a, if_true, decide_true, Bool.true_and]
    cases hr : e.rising with
    | true =>
      simp only [if_true]
      by_cases b : s.rtsr.getLsbD e.line = true
      · rw [if_pos b]
        unfold pending
        simp only [get_set _ _ _ he, b]
        by_cases q : k = e.line
        · subst q; cases c.sep <;> simp [b]
        · cases c.sep <;> simp [q]
      · rw [if_neg b]; simp [b]
    | false =>
      simp only [Bool.false_eq_true, if_false]
      by_cases b : s.ftsr.getLsbD e.line = true
      · rw [if_pos b]
        unfold pending
        by_cases q : k = e.line
        · subst q; cases hs : c.sep <;> simp [b, get_set _ _ _ he]
        · cases hs : c.sep <;> simp [q, get_set _ _ _ he]
      · rw [if_neg b]; simp [b]
  · simp [a]

theorem edges_pending (c : Chip) (es : List Edge) : ∀ (s : St) (k : Nat), (∀ e ∈ es, e.line < 32) →
    pending c (es.foldl (edge c) s) k = (pending c s k || es.any fun e => armed c s e && decide (k = e.line)) := by
  induction es with
  | nil => intro s k _; simp
  | cons e es ih =>
    intro s k h
    have a := armed_config c s (edge c s e) (edge_config c s e).1
    simp only [List.foldl_cons, List.any_cons]
    rw [ih _ k (fun x hx => h x (List.mem_cons_of_mem _ hx)), edge_pending c s e k (h e (by simp))]
    simp only [a, Bool.or_assoc]

theorem ack_pending (c : Chip) (s : St) (l k : Nat) (hl : l < 32) :
    pending c (acknowledge s (bit l)) k = (pending c s k && decide (k ≠ l)) := by
  unfold pending acknowledge
  simp only [get_ack _ _ _ hl]
  by_cases e : k = l <;> simp [e]

theorem call_config (s : St) (l : Nat) : SameConfig s (callHandler s l) ∧ (callHandler s l).rpr = s.rpr ∧
    (callHandler s l).fpr = s.fpr ∧ (callHandler s l).calls = s.calls ++ ((s.handlers l).map (·, l)).toList := by
  unfold callHandler
  cases h : s.handlers l with
  | none => exact ⟨SameConfig.refl s, rfl, rfl, by simp⟩
  | some x => exact ⟨⟨rfl, rfl, rfl, rfl, rfl, rfl⟩, rfl, rfl, by simp⟩

/-- One round of the loop. -/
def round (c : Chip) (env : Nat → List Edge) (s : St) (l : Nat) : St :=
  acknowledge ((env l).foldl (edge c) (callHandler s l)) (bit l)

theorem round_config (c : Chip) (env : Nat → List Edge) (s : St) (l : Nat) : SameConfig s (round c env s l) ∧
    (round c env s l).calls = s.calls ++ ((s.handlers l).map (·, l)).toList := by
  obtain ⟨a, b⟩ := edges_config c (env l) (callHandler s l)
  obtain ⟨x, _, _, y⟩ := call_config s l
  have z := x.trans a
  exact ⟨⟨z.imr, z.rtsr, z.ftsr, z.exticr, z.handlers, z.nvic⟩, by unfold round acknowledge; rw [← y, ← b]⟩

theorem round_pending (c : Chip) (env : Nat → List Edge) (s : St) (l k : Nat) (hl : l < 32) (he : ∀ e ∈ env l, e.line < 32) :
    pending c (round c env s l) k =
      ((pending c s k || (env l).any fun e => armed c s e && decide (k = e.line)) && decide (k ≠ l)) := by
  obtain ⟨x, y, z, _⟩ := call_config s l
  have p : pending c (callHandler s l) k = pending c s k := by unfold pending; rw [y, z, x.rtsr, x.ftsr]
  have a := armed_config c s _ x
  unfold round
  rw [ack_pending c _ l k hl, edges_pending c _ _ k he, p]
  simp only [a]

theorem log2_top (f : BitVec 32) (n : Nat) (h : f.toNat < 2 ^ (n + 1)) (b : f.getLsbD n = true) :
    f ≠ 0#32 ∧ f.toNat.log2 = n ∧ n < 32 := by
  have ge : 2 ^ n ≤ f.toNat := Nat.ge_two_pow_of_testBit b
  have hp := Nat.two_pow_pos n
  refine ⟨?_, ?_, BitVec.lt_of_getLsbD b⟩
  · intro e; subst e; simp at ge
  · have ne : f.toNat ≠ 0 := by omega
    exact (Nat.log2_eq_iff ne).mpr ⟨ge, h⟩

theorem lt_of_bits (f : BitVec 32) (n : Nat) (h : f.toNat < 2 ^ (n + 1)) (b : f.getLsbD n = false) : f.toNat < 2 ^ n := by
  apply Nat.lt_pow_two_of_testBit
  intro i hi
  rcases Nat.lt_or_ge n i with c | c
  · exact Nat.testBit_lt_two_pow (Nat.lt_of_lt_of_le h (Nat.pow_le_pow_right (by omega) c))
  · have : i = n := by omega
    subst this; exact b

/-- The loop from the highest line. -/
theorem loop_rec (c : Chip) (env : Nat → List Edge) (fuel n : Nat) (f : BitVec 32) (s : St) (h : f.toNat < 2 ^ (n + 1))
    (b : f.getLsbD n = true) :
    irqLoop c env (fuel + 1) f s = irqLoop c env fuel (f &&& ~~~bit n) (round c env s n) ∧
    (f &&& ~~~bit n).toNat < 2 ^ n := by
  obtain ⟨ne, lg, lt⟩ := log2_top f n h b
  refine ⟨by rw [irqLoop, if_neg ne, lg]; rfl, ?_⟩
  apply lt_of_bits _ n
  · apply Nat.lt_pow_two_of_testBit
    intro i hi
    have : (f &&& ~~~bit n).getLsbD i = false := by
      rw [get_ack _ _ _ lt]
      have : f.getLsbD i = false := Nat.testBit_lt_two_pow (Nat.lt_of_lt_of_le h (Nat.pow_le_pow_right (by omega) hi))
      simp [this]
    exact this
  · rw [get_ack _ _ _ lt]; simp

theorem loop_zero (c : Chip) (env : Nat → List Edge) (fuel : Nat) (f : BitVec 32) (s : St) (h : f.toNat < 2 ^ 0) :
    irqLoop c env fuel f s = s := by
  have : f = 0#32 := by apply BitVec.eq_of_toNat_eq; simpa using h
  cases fuel with
  | zero => rfl
  | succ n => rw [irqLoop, if_pos this]

/-- The calls of the lines below `n`, downwards. -/
def callsFrom (f : BitVec 32) (hs : Nat → Option Nat) (n : Nat) : List (Nat × Nat) :=
  (List.range n).reverse.filterMap fun l => if f.getLsbD l then (hs l).map (·, l) else none

theorem filterMap_same {α β : Type} (f g : α → Option β) (xs : List α) (h : ∀ x ∈ xs, f x = g x) :
    xs.filterMap f = xs.filterMap g := by
  induction xs with
  | nil => rfl
  | cons x xs ih =>
    rw [List.filterMap_cons, List.filterMap_cons, h x (by simp), ih fun y hy => h y (List.mem_cons_of_mem _ hy)]

theorem loop_calls (c : Chip) (env : Nat → List Edge) (n : Nat) : ∀ (fuel : Nat) (f : BitVec 32) (s : St), n ≤ fuel → f.toNat < 2 ^ n →
    SameConfig s (irqLoop c env fuel f s) ∧ (irqLoop c env fuel f s).calls = s.calls ++ callsFrom f s.handlers n := by
  induction n with
  | zero =>
    intro fuel f s _ h
    rw [loop_zero c env fuel f s h]
    exact ⟨SameConfig.refl s, by simp [callsFrom]⟩
  | succ n ih =>
    intro fuel f s hf h
    have split : callsFrom f s.handlers (n + 1) =
        (if f.getLsbD n then ((s.handlers n).map (·, n)).toList else []) ++ callsFrom f s.handlers n := by
      unfold callsFrom
      rw [List.range_succ, List.reverse_append, List.reverse_singleton, List.singleton_append, List.filterMap_cons]
      cases hb : f.getLsbD n with
      | false => simp
      | true => cases hh : s.handlers n <;> simp
    rw [split]
    cases b : f.getLsbD n with
    | false =>
      obtain ⟨x, y⟩ := ih fuel f s (by omega) (lt_of_bits f n h b)
      exact ⟨x, by rw [y]; simp⟩
    | true =>
      cases fuel with
      | zero => omega
      | succ fuel =>
        obtain ⟨e, lt⟩ := loop_rec c env fuel n f s h b
        obtain ⟨x, y⟩ := round_config c env s n
        obtain ⟨u, v⟩ := ih fuel _ (round c env s n) (by omega) lt
        rw [e]
        refine ⟨x.trans u, ?_⟩
        rw [v, y, x.handlers, List.append_assoc, if_pos rfl]
        congr 2
        unfold callsFrom
        apply filterMap_same
        intro l hl
        have hl' : l < n := by simpa using hl
        have : (f &&& ~~~bit n).getLsbD l = f.getLsbD l := by
          rw [get_ack _ _ _ (BitVec.lt_of_getLsbD b)]; simp [Nat.ne_of_lt hl']
        rw [this]

theorem loop_keep (c : Chip) (env : Nat → List Edge) (he : ∀ l, ∀ e ∈ env l, e.line < 32) (k n : Nat) :
    ∀ (fuel : Nat) (f : BitVec 32) (s : St), n ≤ fuel → f.toNat < 2 ^ n → f.getLsbD k = false → pending c s k = true →
    pending c (irqLoop c env fuel f s) k = true := by
  induction n with
  | zero => intro fuel f s _ h _ p; rw [loop_zero c env fuel f s h]; exact p
  | succ n ih =>
    intro fuel f s hf h hk p
    cases b : f.getLsbD n with
    | false => exact ih fuel f s (by omega) (lt_of_bits f n h b) hk p
    | true =>
      cases fuel with
      | zero => omega
      | succ fuel =>
        obtain ⟨e, lt⟩ := loop_rec c env fuel n f s h b
        have n32 := BitVec.lt_of_getLsbD b
        have kn : k ≠ n := by intro q; subst q; rw [b] at hk; cases hk
        rw [e]
        apply ih fuel _ _ (by omega) lt
        · rw [get_ack _ _ _ n32, hk]; rfl
        · rw [round_pending c env s n k n32 (he n), p]; simp [kn]

theorem loop_edge (c : Chip) (env : Nat → List Edge) (he : ∀ l, ∀ e ∈ env l, e.line < 32) (l : Nat) (e : Edge) (n : Nat) :
    ∀ (fuel : Nat) (f : BitVec 32) (s : St), n ≤ fuel → f.toNat < 2 ^ n → f.getLsbD l = true → e ∈ env l → armed c s e = true →
    e.line ≠ l → ¬ (f.getLsbD e.line = true ∧ e.line < l) → pending c (irqLoop c env fuel f s) e.line = true := by
  induction n with
  | zero =>
    intro fuel f s _ h hl
    have : f = 0#32 := by apply BitVec.eq_of_toNat_eq; simpa using h
    subst this; simp at hl
  | succ n ih =>
    intro fuel f s hf h hl hm ha hne hlt
    cases b : f.getLsbD n with
    | false => exact ih fuel f s (by omega) (lt_of_bits f n h b) hl hm ha hne hlt
    | true =>
      cases fuel with
      | zero => omega
      | succ fuel =>
        obtain ⟨q, lt⟩ := loop_rec c env fuel n f s h b
        have n32 := BitVec.lt_of_getLsbD b
        rw [q]
        by_cases ln : l = n
        · subst ln
          apply loop_keep c env he e.line l fuel _ _ (by omega) lt
          · rw [get_ack _ _ _ n32]
            by_cases z : f.getLsbD e.line = true
            · exfalso
              apply hlt
              refine ⟨z, ?_⟩
              have : 2 ^ e.line ≤ f.toNat := Nat.ge_two_pow_of_testBit z
              have : 2 ^ e.line < 2 ^ (l + 1) := Nat.lt_of_le_of_lt this h
              have := (Nat.pow_lt_pow_iff_right (by omega : 1 < 2)).mp this
              omega
            · simp [z]
          · rw [round_pending c env s l e.line n32 (he l)]
            have : ((env l).any fun e' => armed c s e' && decide (e.line = e'.line)) = true := by
              rw [List.any_eq_true]; exact ⟨e, hm, by simp [ha]⟩
            rw [this]; simp [hne]
        · apply ih fuel _ _ (by omega) lt
          · rw [get_ack _ _ _ n32, hl]; simp [ln]
          · exact hm
          · rw [armed_config c s _ (round_config c env s n).1]; exact ha
          · exact hne
          · intro g
            rw [get_ack _ _ _ n32] at g
            apply hlt
            simp only [Bool.and_eq_true] at g
            exact ⟨g.1.1, g.2⟩

theorem loop_quiet (c : Chip) (k n : Nat) : ∀ (fuel : Nat) (f : BitVec 32) (s : St), n ≤ fuel → f.toNat < 2 ^ n →
    pending c (irqLoop c quiet fuel f s) k = (pending c s k && !f.getLsbD k) := by
  induction n with
  | zero =>
    intro fuel f s _ h
    rw [loop_zero c _ fuel f s h]
    have : f = 0#32 := by apply BitVec.eq_of_toNat_eq; simpa using h
    subst this; simp
  | succ n ih =>
    intro fuel f s hf h
    cases b : f.getLsbD n with
    | false => exact ih fuel f s (by omega) (lt_of_bits f n h b)
    | true =>
      cases fuel with
      | zero => omega
      | succ fuel =>
        obtain ⟨q, lt⟩ := loop_rec c quiet fuel n f s h b
        have n32 := BitVec.lt_of_getLsbD b
        rw [q, ih fuel _ _ (by omega) lt, round_pending c quiet s n k n32 (by simp [quiet]), get_ack _ _ _ n32]
        by_cases e : k = n
        · subst e; simp [b]
        · simp [quiet, e]

theorem flags_get (c : Chip) (s : St) (m : BitVec 32) (k : Nat) :
    (flags c s m).getLsbD k = (s.imr.getLsbD k && m.getLsbD k && pending c s k) := by
  unfold flags pending
  rw [BitVec.getLsbD_and, BitVec.getLsbD_and]
  cases c.sep <;> simp

/-- C335: for all devices and states and all edges that arrive while handlers run: the handlers of exactly
the lines of the vector that are enabled and pending are called, once each, the highest line first, with
their line; the set-up of all lines is unchanged.  Without further edges exactly these lines are no longer
pending.  An edge that arrives while another line is handled is not lost: it is pending afterwards, or its
line is one of those that are handled later. -/
theorem C335_irq_partial (c : Chip) (w : WF c) (s : St) (l : Nat) (hl : l < 16) (env : Nat → List Edge)
    (he : ∀ l, ∀ e ∈ env l, e.line < 32) (hv : s.nvic (c.lo l) = true) :
    (service c env s l).calls = s.calls ++ ((List.range 32).reverse.filterMap fun k =>
      if s.imr.getLsbD k && decide (c.lo l ≤ k ∧ k ≤ c.hi l) && pending c s k then (s.handlers k).map (·, k) else none) ∧
    SameConfig s (service c env s l) ∧
    (∀ k, pending c (service c quiet s l) k =
      (pending c s k && !(s.imr.getLsbD k && decide (c.lo l ≤ k ∧ k ≤ c.hi l)))) ∧
    (∀ k e, s.imr.getLsbD k = true → c.lo l ≤ k → k ≤ c.hi l → pending c s k = true → e ∈ env k → armed c s e = true →
      e.line ≠ k →
      pending c (service c env s l) e.line = true ∨
        (e.line < k ∧ s.imr.getLsbD e.line = true ∧ c.lo l ≤ e.line ∧ pending c s e.line = true)) := by
  have bits : ∀ k, (flags c s (vectorMask c l)).getLsbD k =
      (s.imr.getLsbD k && decide (c.lo l ≤ k ∧ k ≤ c.hi l) && pending c s k) := fun k => by
    rw [flags_get, vectorMask_get c w l k hl]
  have top : (flags c s (vectorMask c l)).toNat < 2 ^ 32 := BitVec.isLt _
  unfold service
  rw [if_pos hv, if_pos hv]
  unfold irq
  obtain ⟨a, b⟩ := loop_calls c env 32 32 _ s (Nat.le_refl _) top
  refine ⟨?_, a, ?_, ?_⟩
  · rw [b]; unfold callsFrom; simp only [bits]
  · intro k
    rw [loop_quiet c k 32 32 _ s (Nat.le_refl _) top, bits]
    cases pending c s k <;> simp
  · intro k e h1 h2 h3 h4 h5 h6 h7
    by_cases g : (flags c s (vectorMask c l)).getLsbD e.line = true ∧ e.line < k
    · right
      rw [bits] at g
      simp only [Bool.and_eq_true, decide_eq_true_eq] at g
      exact ⟨g.2, g.1.1.1, g.1.1.2.1, g.1.2⟩
    · left
      exact loop_edge c env he k e 32 32 _ s (Nat.le_refl _) top (by rw [bits, h1, h4]; simp [h2, h3]) h5 h6 h7 g

theorem wf_f4 : WF f4 := by
  refine ⟨?_, ?_, ?_⟩
  · intro l hl; simp only [f4]; repeat' split
    all_goals omega
  · intro l k hl; simp only [f4]; repeat' split
    all_goals omega
  · intro l k hl hk; simp only [f4]; repeat' split
    all_goals omega

theorem wf_g0 : WF g0 := by
  refine ⟨?_, ?_, ?_⟩
  · intro l hl; simp only [g0]; repeat' split
    all_goals omega
  · intro l k hl; simp only [g0]; repeat' split
    all_goals omega
  · intro l k hl hk; simp only [g0]; repeat' split
    all_goals omega

/-- Lines 6 and 9 connected to port C. -/
def two : St := connect f4 (connect f4 reset 6 2 .risingEdge 100 []) 9 2 .bothEdges 200 []

/-- Case: edges on both lines: both handlers are called, line 9 first. -/
example : (service f4 quiet (edge f4 (edge f4 two ⟨2, 6, true⟩) ⟨2, 9, false⟩) 6).calls = [(200, 9), (100, 6)] := by decide +kernel

/-- C335 (refuted): the pending bit is cleared after the handler.  A second edge that arrives while the handler
runs is lost: after the interrupt nothing is pending, and the handler has been called once for two edges. -/
theorem C335_lost_counterexample :
    let s := edge f4 two ⟨2, 6, true⟩
    let env : Nat → List Edge := fun l => if l = 6 then [⟨2, 6, true⟩] else []
    (service f4 env s 6).calls = [(100, 6)] ∧ pending f4 (service f4 env s 6) 6 = false ∧
    (service f4 quiet (service f4 env s 6) 6).calls = [(100, 6)] := by decide +kernel

/-! ### Connecting -/

theorem setTrigger_get (s : St) (l k : Nat) (t : Trigger) (hl : l < 32) :
    (setTrigger s (bit l) t).rtsr.getLsbD k = (if k = l then Trigger.on t true else s.rtsr.getLsbD k) ∧
    (setTrigger s (bit l) t).ftsr.getLsbD k = (if k = l then Trigger.on t false else s.ftsr.getLsbD k) := by
  cases t <;> simp only [setTrigger, Trigger.on, get_set _ _ _ hl, get_ack _ _ _ hl] <;> by_cases e : k = l <;> simp [e]

theorem setTrigger_rest (s : St) (m : BitVec 32) (t : Trigger) : (setTrigger s m t).imr = s.imr ∧ (setTrigger s m t).rpr = s.rpr ∧
    (setTrigger s m t).fpr = s.fpr ∧ (setTrigger s m t).exticr = s.exticr ∧ (setTrigger s m t).handlers = s.handlers ∧
    (setTrigger s m t).nvic = s.nvic ∧ (setTrigger s m t).calls = s.calls := by
  cases t <;> exact ⟨rfl, rfl, rfl, rfl, rfl, rfl, rfl⟩

/-- The handlers that are called by the vector of a line from a state on. -/
def newCalls (c : Chip) (s : St) (l : Nat) : List (Nat × Nat) := (service c quiet s l).calls.drop s.calls.length

theorem newCalls_mem (c : Chip) (w : WF c) (s : St) (l : Nat) (hl : l < 16) (h k : Nat) :
    (h, k) ∈ newCalls c s l ↔ s.nvic (c.lo l) = true ∧ s.imr.getLsbD k = true ∧ (c.lo l ≤ k ∧ k ≤ c.hi l) ∧
      pending c s k = true ∧ s.handlers k = some h := by
  unfold newCalls
  cases hv : s.nvic (c.lo l) with
  | false => unfold service; rw [hv]; simp
  | true =>
    have a := (C335_irq_partial c w s l hl quiet (by simp [quiet]) hv).1
    rw [a, List.drop_left, List.mem_filterMap]
    constructor
    · rintro ⟨x, hx, hy⟩
      split at hy
      · rename_i q
        rw [Option.map_eq_some_iff] at hy
        obtain ⟨y, hy, hz⟩ := hy
        simp only [Prod.mk.injEq] at hz; obtain ⟨rfl, rfl⟩ := hz
        simp only [Bool.and_eq_true, decide_eq_true_eq] at q
        exact ⟨rfl, q.1.1, q.1.2, q.2, hy⟩
      · cases hy
    · rintro ⟨-, p, q, r, t⟩
      have := (w.range l hl).2.2
      refine ⟨k, by simp; omega, ?_⟩
      rw [p, r, t]; simp [q]

/-- C336: on devices with four bits for each line, after `connect()` of a pin (with no edge in between) the
handler is called for an edge exactly if it is an edge of this pin in the direction of the trigger; nothing
is pending for the line from before.  All other lines keep their set-up, their handlers and what is
pending.  After `disconnect()` no edge of any port calls a handler of the line, and all other lines that
are enabled keep their handlers and their vectors. -/
theorem C336_connect_partial (c : Chip) (w : WF c) (hc : c.width = 4) (s : St) (l port h : Nat) (t : Trigger) (hl : l < 16)
    (hp : port < 16) :
    (∀ x, (x, l) ∉ newCalls c (connect c s l port t h []) l) ∧
    (∀ e : Edge, e.line = l → ∀ x, (x, l) ∈ newCalls c (edge c (connect c s l port t h []) e) l ↔
      x = h ∧ e.port = port ∧ Trigger.on t e.rising = true) ∧
    (∀ k, k < 16 → k ≠ l → source c (connect c s l port t h []) k = source c s k ∧
      (connect c s l port t h []).imr.getLsbD k = s.imr.getLsbD k ∧
      (connect c s l port t h []).rtsr.getLsbD k = s.rtsr.getLsbD k ∧
      (connect c s l port t h []).ftsr.getLsbD k = s.ftsr.getLsbD k ∧
      (connect c s l port t h []).handlers k = s.handlers k ∧
      pending c (connect c s l port t h []) k = pending c s k ∧
      (c.lo k ≠ c.lo l → (connect c s l port t h []).nvic (c.lo k) = s.nvic (c.lo k))) ∧
    (∀ es : List Edge, ∀ x, (x, l) ∉ newCalls c (es.foldl (edge c) (disconnect c s l)) l) ∧
    (∀ k, k < 16 → k ≠ l → (disconnect c s l).imr.getLsbD k = s.imr.getLsbD k ∧
      (disconnect c s l).handlers k = s.handlers k ∧ pending c (disconnect c s l) k = pending c s k ∧
      source c (disconnect c s l) k = source c s k ∧
      (s.imr.getLsbD k = true → (disconnect c s l).nvic (c.lo k) = s.nvic (c.lo k))) := by
  have l32 : l < 32 := by omega
  obtain ⟨lo1, lo2, lo3⟩ := w.range l hl
  generalize hs : connect c s l port t h [] = s'
  have imr' : ∀ k, s'.imr.getLsbD k = (s.imr.getLsbD k || decide (k = l)) := by
    intro k
    rw [← hs]; unfold connect; simp only [List.foldl_nil]
    rw [get_set _ _ _ l32, (setTrigger_rest _ _ _).1]
    simp only [setTriggerSource, acknowledge, get_ack _ _ _ l32]
    by_cases e : k = l <;> simp [e]
  have trig : ∀ k, s'.rtsr.getLsbD k = (if k = l then Trigger.on t true else s.rtsr.getLsbD k) ∧
      s'.ftsr.getLsbD k = (if k = l then Trigger.on t false else s.ftsr.getLsbD k) := by
    intro k
    rw [← hs]; unfold connect; simp only [List.foldl_nil]
    exact setTrigger_get _ l k t l32
  have rp : ∀ k, s'.rpr.getLsbD k = (s.rpr.getLsbD k && decide (k ≠ l)) ∧
      s'.fpr.getLsbD k = (s.fpr.getLsbD k && decide (k ≠ l)) := by
    intro k
    rw [← hs]; unfold connect; simp only [List.foldl_nil]
    rw [(setTrigger_rest _ _ _).2.1, (setTrigger_rest _ _ _).2.2.1]
    simp only [setTriggerSource, acknowledge, get_ack _ _ _ l32]
    exact ⟨trivial, trivial⟩
  have src : ∀ k, k < 16 → source c s' k = if k = l then port else source c s k := by
    intro k hk
    obtain ⟨a, b⟩ := C334_source_partial c hc
      { acknowledge { s with imr := s.imr &&& ~~~bit l } (bit l) with handlers := Function.update s.handlers l (some h) } l port hl hp
    have e : source c s' k = source c (setTriggerSource
        { acknowledge { s with imr := s.imr &&& ~~~bit l } (bit l) with handlers := Function.update s.handlers l (some h) } l port) k := by
      rw [← hs]; unfold source connect; simp only [List.foldl_nil]
      rw [(setTrigger_rest _ _ _).2.2.2.1]; rfl
    rw [e]
    by_cases q : k = l
    · subst q; rw [a, if_pos rfl]
    · rw [b k hk q, if_neg q]; rfl
  have hnd : s'.handlers = Function.update s.handlers l (some h) := by
    rw [← hs]; unfold connect; simp only [List.foldl_nil]
    rw [(setTrigger_rest _ _ _).2.2.2.2.1]; rfl
  have nv : s'.nvic = Function.update s.nvic (c.lo l) true := by
    rw [← hs]; unfold connect; simp only [List.foldl_nil]
    rw [(setTrigger_rest _ _ _).2.2.2.2.2.1]; rfl
  have pl : pending c s' l = false := by
    unfold pending; rw [(rp l).1, (rp l).2]; cases c.sep <;> simp
  refine ⟨?_, ?_, ?_, ?_, ?_⟩
  · intro x hx
    rw [newCalls_mem c w s' l hl, pl] at hx
    exact absurd hx.2.2.2.1 (by simp)
  · intro e el x
    obtain ⟨ec, _⟩ := edge_config c s' e
    rw [newCalls_mem c w _ l hl, edge_pending c s' e l (by omega), pl, ec.nvic, ec.imr, ec.handlers, nv, imr', hnd]
    have ar : armed c s' e = (decide (e.port = port) && Trigger.on t e.rising) := by
      unfold armed
      rw [el, src l hl, if_pos rfl, (trig l).1, (trig l).2, if_pos rfl, if_pos rfl]
      congr 1
      · rw [decide_eq_decide]; exact eq_comm
      · cases e.rising <;> rfl
    rw [ar, el]
    simp only [Function.update_self, decide_true, Bool.or_true, Bool.false_or, Bool.and_true, Bool.and_eq_true, decide_eq_true_eq,
      Option.some.injEq]
    constructor
    · rintro ⟨-, -, -, ⟨a, b⟩, d⟩; exact ⟨d.symm, a, b⟩
    · rintro ⟨d, a, b⟩; exact ⟨trivial, trivial, ⟨lo1, lo2⟩, ⟨a, b⟩, d.symm⟩
  · intro k hk ne
    refine ⟨by rw [src k hk, if_neg ne], by rw [imr']; simp [ne], by rw [(trig k).1, if_neg ne], by rw [(trig k).2, if_neg ne],
      by rw [hnd, Function.update_of_ne ne], ?_, fun q => by rw [nv, Function.update_of_ne q]⟩
    unfold pending
    rw [(rp k).1, (rp k).2, (trig k).1, (trig k).2, if_neg ne, if_neg ne]; simp [ne]
  · intro es x hx
    rw [newCalls_mem c w _ l hl] at hx
    have q := (edges_config c es (disconnect c s l)).1
    have := hx.2.2.2.2
    rw [q.handlers] at this
    simp [disconnect] at this
  · intro k hk ne
    have im : (disconnect c s l).imr = s.imr &&& ~~~bit l := by unfold disconnect; simp only; split <;> rfl
    have hh : (disconnect c s l).handlers = Function.update s.handlers l none := by unfold disconnect; simp only; split <;> rfl
    have r1 : (disconnect c s l).rpr = s.rpr ∧ (disconnect c s l).fpr = s.fpr ∧ (disconnect c s l).rtsr = s.rtsr ∧
      (disconnect c s l).ftsr = s.ftsr ∧ (disconnect c s l).exticr = s.exticr := by
      unfold disconnect; simp only; split <;> exact ⟨rfl, rfl, rfl, rfl, rfl⟩
    refine ⟨by rw [im, get_ack _ _ _ l32]; simp [ne], by rw [hh, Function.update_of_ne ne],
      by unfold pending; rw [r1.1, r1.2.1, r1.2.2.1, r1.2.2.2.1], by unfold source; rw [r1.2.2.2.2], ?_⟩
    intro hi
    unfold disconnect; simp only
    split
    · rename_i z
      show Function.update s.nvic (c.lo l) false (c.lo k) = _
      by_cases q : c.lo k = c.lo l
      · exfalso
        have kr := w.range k hk
        have kh := w.conv l k hl hk q
        have : ((s.imr &&& ~~~bit l) &&& vectorMask c l).getLsbD k = false := by rw [z]; simp
        rw [BitVec.getLsbD_and, get_ack _ _ _ l32, vectorMask_get c w l k hl, hi] at this
        have g : c.lo l ≤ k ∧ k ≤ c.hi l := ⟨by rw [← q]; exact kr.1, kh⟩
        simp [ne, g] at this
      · rw [Function.update_of_ne q]
    · rfl

/-- Case: the hypotheses hold; line 6 of F4. -/
example : newCalls f4 (edge f4 two ⟨2, 6, true⟩) 6 = [(100, 6)] ∧ newCalls f4 (edge f4 two ⟨2, 6, false⟩) 6 = [] ∧
    newCalls f4 (edge f4 (disconnect f4 two 6) ⟨2, 9, true⟩) 9 = [(200, 9)] := by decide +kernel

/-- C336 (refuted): the pending bit is cleared before the new source and trigger are selected.  An edge of the
old pin in between calls the new handler, for a pin that has had no edge; and on G0 a pin of port B on line 1
is not connected at all. -/
theorem C336_early_counterexample :
    newCalls f4 (connect f4 two 6 3 .fallingEdge 300 [⟨2, 6, true⟩]) 6 = [(300, 6)] ∧
    newCalls g0 (edge g0 (connect g0 reset 1 1 .risingEdge 100 []) ⟨1, 1, true⟩) 1 = [] ∧
    newCalls g0 (edge g0 (connect g0 reset 1 1 .risingEdge 100 []) ⟨0, 1, true⟩) 1 = [(100, 1)] := by decide +kernel

end Props.Exti
