import Verif.Model.CharDisplay
import Verif.Spec.CharDisplay
import Mathlib.Logic.Function.Basic

/-!
Text on character displays.
-/

set_option autoImplicit false

namespace Props.CharDisplay

open _root_.CharDisplay CharDisplaySpec

/-- The controller expects a new byte over the lines that are connected. -/
def Sync (g : Cfg) (c : Chip) : Prop := c.mode8 = g.eight ∧ c.half = none

/-- The same controller, done with its work. -/
def ready (c : Chip) : Chip := { c with busy := 0 }

theorem wait_busy (c : Chip) (t : Nat) : (c.wait t).busy = c.busy - t := rfl

theorem wait_mode8 (c : Chip) (t : Nat) : (c.wait t).mode8 = c.mode8 := rfl

theorem wait_half (c : Chip) (t : Nat) : (c.wait t).half = c.half := rfl

theorem exec_dur (g : Cfg) (c : Chip) (rs : Bool) (b : BitVec 8) :
    (c.exec g rs b).busy = g.dur c.count rs b := rfl

theorem status_bit (c : Chip) : c.status.getLsbD 7 = decide (c.busy ≠ 0) := by
  unfold Chip.status
  rw [BitVec.getLsbD_append]
  simp

theorem flag (x : BitVec 8) : (x &&& 0x80#8 ≠ 0) ↔ x.getLsbD 7 = true := by
  revert x; decide +kernel

theorem status_ext (c : Chip) (y : BitVec 4) :
    ((c.status.extractLsb' 4 4 ++ 0#4).extractLsb' 4 4 ++ y).getLsbD 7 = decide (c.busy ≠ 0) := by
  rw [← status_bit]
  generalize c.status = x
  revert x y; decide +kernel

theorem status_ext8 (c : Chip) (y : BitVec 4) :
    (c.status.extractLsb' 4 4 ++ y).getLsbD 7 = decide (c.busy ≠ 0) := by
  rw [← status_bit]
  generalize c.status = x
  revert x y; decide +kernel

/-- Asking whether the controller is busy: the answer, and the time it takes. -/
theorem isBusy_of (g : Cfg) (c : Chip) (x : BitVec 8) (k : Nat) (hk : 1 ≤ k)
    (e : busRead g c = (x, { c with busy := c.busy - k })) (hx : x.getLsbD 7 = decide (c.busy - 1 ≠ 0)) :
    ∃ k, 1 ≤ k ∧ ∃ b, isBusy g c = (b, { c with busy := c.busy - k }) ∧ (b = false → c.busy - k = 0) ∧
      (b = true → c.busy ≠ 0) := by
  by_cases hb : c.busy - 1 = 0
  · refine ⟨k, hk, false, ?_, fun _ => by omega, by simp⟩
    have : ¬ (x &&& 0x80#8 ≠ 0) := by rw [flag, hx]; simp [hb]
    simp only [isBusy, e, if_neg this]
  · refine ⟨k + 2, by omega, true, ?_, by simp, fun _ => by omega⟩
    have : x &&& 0x80#8 ≠ 0 := by rw [flag, hx]; simp [hb]
    simp only [isBusy, e, if_pos this, Chip.wait, Nat.sub_sub]

theorem isBusy_sync (g : Cfg) (c : Chip) (h : Sync g c) :
    ∃ k, 1 ≤ k ∧ ∃ b, isBusy g c = (b, { c with busy := c.busy - k }) ∧ (b = false → c.busy - k = 0) ∧
      (b = true → c.busy ≠ 0) := by
  obtain ⟨h1, h2⟩ := h
  rcases hg : g.eight with _ | _
  · rw [hg] at h1
    refine isBusy_of g c (busRead g c).1 2 (by omega) ?_ ?_
    · simp only [busRead, Chip.readPulse, hg, h1, h2, Chip.wait, Nat.sub_sub, Bool.false_eq_true, if_false]
    · simp only [busRead, Chip.readPulse, hg, h1, h2, Bool.false_eq_true, if_false, Chip.wait]
      exact status_ext { c with busy := c.busy - 1, mode8 := false, half := none } _
  · rw [hg] at h1
    refine isBusy_of g c (busRead g c).1 1 (by omega) ?_ ?_
    · simp only [busRead, Chip.readPulse, hg, h1, Chip.wait, if_true]
    · simp only [busRead, Chip.readPulse, hg, h1, Chip.wait, if_true]
      exact status_bit _

theorem nib4 (f : BitVec 4) (x : BitVec 4) : (x ++ f).extractLsb' 4 4 = x := by
  revert f x; decide +kernel

theorem join (b : BitVec 8) : (b.extractLsb' 4 4 ++ b.extractLsb' 0 4 : BitVec 8) = b := by
  revert b; decide +kernel

/-- A byte written to a controller that is ready is executed once. -/
theorem busWrite_sync (g : Cfg) (c : Chip) (rs : Bool) (b : BitVec 8) (h : Sync g c)
    (hb : c.busy = 0) : busWrite g c rs b = some (c.exec g rs b) := by
  obtain ⟨h1, h2⟩ := h
  obtain ⟨m, hf, tw, on, inc, cg, ac, dd, cgr, bs, ct⟩ := c
  simp only at h1 h2 hb
  subst h2 hb
  rcases hg : g.eight with _ | _
  · rw [hg] at h1
    subst h1
    unfold busWrite Chip.writePulse
    simp only [hg, lines4, nib4, if_false, ne_eq, not_true_eq_false, Bool.false_eq_true,
      Option.bind_some, join]
  · rw [hg] at h1
    subst h1
    unfold busWrite Chip.writePulse
    simp [hg]

theorem send_sync (g : Cfg) (rs : Bool) (b : BitVec 8) : ∀ (n : Nat) (c : Chip), Sync g c →
    c.busy < n → send g n c rs b = some ((ready c).exec g rs b) := by
  intro n
  induction n with
  | zero => intro c _ h; omega
  | succ n ih =>
    intro c hs hn
    obtain ⟨k, hk, t, ht, hf, htr⟩ := isBusy_sync g c hs
    have hs' : Sync g { c with busy := c.busy - k } := hs
    rcases t with _ | _
    · have e : tryWrite g c rs b = some (true, (ready c).exec g rs b) := by
        simp only [tryWrite, ht, Bool.false_eq_true, if_false]
        rw [busWrite_sync g _ rs b hs' (hf rfl)]
        simp only [hf rfl, Option.map_some, ready]
      simp only [send, e]
    · have e : tryWrite g c rs b = some (false, { c with busy := c.busy - k }) := by
        simp only [tryWrite, ht, if_true]
      simp only [send, e]
      have := htr rfl
      rw [ih _ hs' (by simp only; omega)]
      rfl

/-- The speed of the controller: nothing takes longer than `D` microseconds. -/
def Fast (g : Cfg) (D : Nat) : Prop := ∀ k rs b, g.dur k rs b ≤ D

theorem exec_busy (g : Cfg) (c : Chip) (rs : Bool) (b : BitVec 8) {D : Nat} (h : Fast g D) :
    (c.exec g rs b).busy ≤ D := h _ _ _

/-! ### Initialisation -/

/-- What is needed of the speed while it cannot be asked for: nothing takes longer
than 5 ms, the setting of the interface no longer than 100 µs. -/
def InitTimes (g : Cfg) : Prop :=
  (∀ k b, g.dur k false b ≤ 5000) ∧
    ∀ k (b : BitVec 8), b.toNat / 32 = 1 → g.dur k false b ≤ 100

theorem set8_mode (c : Chip) (x : BitVec 4) :
    (c.effect false (3#4 ++ x)).mode8 = true ∧ (c.effect false (3#4 ++ x)).half = c.half := by
  have : ∀ x : BitVec 4, (3#4 ++ x : BitVec 8).getLsbD 7 = false ∧
      (3#4 ++ x : BitVec 8).getLsbD 6 = false ∧ (3#4 ++ x : BitVec 8).getLsbD 5 = true ∧
      (3#4 ++ x : BitVec 8).getLsbD 4 = true := by decide +kernel
  obtain ⟨a, b, d, e⟩ := this x
  unfold Chip.effect
  simp only [a, b, d, e, Bool.false_eq_true, if_false, if_true]
  exact ⟨trivial, trivial⟩

theorem set4_mode (c : Chip) (x : BitVec 4) :
    (c.effect false (2#4 ++ x)).mode8 = false ∧ (c.effect false (2#4 ++ x)).half = c.half := by
  have : ∀ x : BitVec 4, (2#4 ++ x : BitVec 8).getLsbD 7 = false ∧
      (2#4 ++ x : BitVec 8).getLsbD 6 = false ∧ (2#4 ++ x : BitVec 8).getLsbD 5 = true ∧
      (2#4 ++ x : BitVec 8).getLsbD 4 = false := by decide +kernel
  obtain ⟨a, b, d, e⟩ := this x
  unfold Chip.effect
  simp only [a, b, d, e, Bool.false_eq_true, if_false, if_true]
  exact ⟨trivial, trivial⟩

theorem effect_half (c : Chip) (rs : Bool) (b : BitVec 8) : (c.effect rs b).half = c.half := by
  unfold Chip.effect
  split
  · split <;> rfl
  · repeat' split
    all_goals rfl

theorem exec_half (g : Cfg) (c : Chip) (rs : Bool) (b : BitVec 8) :
    (c.exec g rs b).half = c.half := effect_half c rs b

/-- What is on the data lines during `writeHighNibble`. -/
def hiLines (g : Cfg) (b : BitVec 8) : BitVec 8 :=
  if g.eight then b else lines4 g (b.extractLsb' 4 4)

theorem highNibble_eq (g : Cfg) (c : Chip) (b : BitVec 8) :
    highNibble g c b = c.writePulse g false (hiLines g b) := by
  unfold highNibble hiLines
  split <;> rfl

theorem hi30 (g : Cfg) : ∃ x : BitVec 4, hiLines g 0x30#8 = 3#4 ++ x := by
  unfold hiLines
  split
  · exact ⟨0, rfl⟩
  · exact ⟨g.float, rfl⟩

theorem div3 (x : BitVec 4) : (3#4 ++ x : BitVec 8).toNat / 32 = 1 := by revert x; decide +kernel

/-- One of the three requests for eight lines. -/
theorem nibble3 (g : Cfg) (h : InitTimes g) (c : Chip) (hb : c.busy = 0) :
    (c.mode8 = true → c.half = none →
      ∃ c', highNibble g c 0x30#8 = some c' ∧ c'.mode8 = true ∧ c'.half = none ∧ c'.busy ≤ 100) ∧
    (c.mode8 = false → c.half = none →
      ∃ c', highNibble g c 0x30#8 = some c' ∧ c'.mode8 = false ∧ c'.half = some 3#4 ∧ c'.busy = 0) ∧
    (c.mode8 = false → c.half = some 3#4 →
      ∃ c', highNibble g c 0x30#8 = some c' ∧ c'.mode8 = true ∧ c'.half = none ∧ c'.busy ≤ 100) ∧
    (∀ y, c.mode8 = false → c.half = some y →
      ∃ c', highNibble g c 0x30#8 = some c' ∧ c'.half = none ∧ c'.busy ≤ 5000) := by
  obtain ⟨x, hx⟩ := hi30 g
  rw [highNibble_eq, hx]
  refine ⟨fun m hf => ?_, fun m hf => ?_, fun m hf => ?_, fun y m hf => ?_⟩
  · refine ⟨c.exec g false (3#4 ++ x), by simp [Chip.writePulse, hb, m], ?_, ?_, ?_⟩
    · exact (set8_mode c x).1
    · exact (set8_mode c x).2.trans hf
    · rw [exec_dur]; exact h.2 _ _ (div3 x)
  · exact ⟨{ c with half := some 3#4 }, by simp [Chip.writePulse, hb, m, hf, nib4], m, rfl, hb⟩
  · refine ⟨{ c with half := none }.exec g false (3#4 ++ 3#4), by simp [Chip.writePulse, hb, m, hf, nib4], ?_, ?_, ?_⟩
    · exact (set8_mode _ _).1
    · exact (set8_mode _ _).2
    · rw [exec_dur]; exact h.2 _ _ (div3 _)
  · refine ⟨{ c with half := none }.exec g false (y ++ 3#4), by simp [Chip.writePulse, hb, m, hf, nib4], ?_, ?_⟩
    · rw [exec_half]
    · rw [exec_dur]; exact h.1 _ _

/-- Reading the status over four lines while the controller still uses eight. -/
theorem isBusy_mode8 (g : Cfg) (c : Chip) (hg : g.eight = false) (hm : c.mode8 = true) :
    ∃ k, 1 ≤ k ∧ ∃ b, isBusy g c = (b, { c with busy := c.busy - k }) ∧ (b = false → c.busy - k = 0) ∧
      (b = true → c.busy ≠ 0) := by
  refine isBusy_of g c (busRead g c).1 2 (by omega) ?_ ?_
  · simp only [busRead, Chip.readPulse, hg, hm, Chip.wait, Nat.sub_sub, Bool.false_eq_true, if_false, if_true]
  · simp only [busRead, Chip.readPulse, hg, hm, Chip.wait, Bool.false_eq_true, if_false, if_true]
    exact status_ext8 { c with busy := c.busy - 1, mode8 := true } _

theorem waitReady_mode8 (g : Cfg) (hg : g.eight = false) : ∀ (n : Nat) (c : Chip),
    c.mode8 = true → c.busy < n → waitReady g n c = some (ready c) := by
  intro n
  induction n with
  | zero => intro c _ h; omega
  | succ n ih =>
    intro c hm hn
    obtain ⟨k, hk, t, ht, hf, htr⟩ := isBusy_mode8 g c hg hm
    rcases t with _ | _
    · have e := hf rfl
      simp only [waitReady, ht, Bool.false_eq_true, if_false, e, ready]
    · simp only [waitReady, ht, if_true]
      have := htr rfl
      rw [ih { c with busy := c.busy - k } hm (by show c.busy - k < n; omega)]
      rfl

/-- After the three requests the controller uses eight lines. -/
theorem three (g : Cfg) (h : InitTimes g) (c : Chip) (hb : c.busy = 0)
    (hc : c.mode8 = true → c.half = none) (t1 t2 : Nat) (ht1 : 5000 ≤ t1) (ht2 : 100 ≤ t2) :
    ∃ c1 c2 c3, highNibble g c 0x30#8 = some c1 ∧ highNibble g (c1.wait t1) 0x30#8 = some c2 ∧
      highNibble g (c2.wait t2) 0x30#8 = some c3 ∧ c3.mode8 = true ∧ c3.half = none ∧ c3.busy ≤ 100 := by
  -- first request
  have s1 : ∃ c1, highNibble g c 0x30#8 = some c1 ∧ (c1.wait t1).busy = 0 ∧
      (c1.half = none ∨ (c1.mode8 = false ∧ c1.half = some 3#4)) := by
    obtain ⟨a, b, d, e⟩ := nibble3 g h c hb
    rcases hm : c.mode8 with _ | _
    · rcases hh : c.half with _ | y
      · obtain ⟨c', r1, r2, r3, r4⟩ := b hm hh
        exact ⟨c', r1, by rw [wait_busy]; omega, Or.inr ⟨r2, r3⟩⟩
      · obtain ⟨c', r1, r2, r3⟩ := e y hm hh
        exact ⟨c', r1, by rw [wait_busy]; omega, Or.inl r2⟩
    · obtain ⟨c', r1, r2, r3, r4⟩ := a hm (hc hm)
      exact ⟨c', r1, by rw [wait_busy]; omega, Or.inl r3⟩
  obtain ⟨c1, e1, b1, q1⟩ := s1
  have s2 : ∃ c2, highNibble g (c1.wait t1) 0x30#8 = some c2 ∧ (c2.wait t2).busy = 0 ∧
      ((c2.mode8 = true ∧ c2.half = none) ∨ (c2.mode8 = false ∧ c2.half = some 3#4)) := by
    obtain ⟨a, b, d, e⟩ := nibble3 g h (c1.wait t1) b1
    simp only [wait_mode8, wait_half] at a b d e
    rcases q1 with q | ⟨q, q'⟩
    · rcases hm : c1.mode8 with _ | _
      · obtain ⟨c', r1, r2, r3, r4⟩ := b hm q
        exact ⟨c', r1, by rw [wait_busy]; omega, Or.inr ⟨r2, r3⟩⟩
      · obtain ⟨c', r1, r2, r3, r4⟩ := a hm q
        exact ⟨c', r1, by rw [wait_busy]; omega, Or.inl ⟨r2, r3⟩⟩
    · obtain ⟨c', r1, r2, r3, r4⟩ := d q q'
      exact ⟨c', r1, by rw [wait_busy]; omega, Or.inl ⟨r2, r3⟩⟩
  obtain ⟨c2, e2, b2, q2⟩ := s2
  obtain ⟨a, b, d, e⟩ := nibble3 g h (c2.wait t2) b2
  simp only [wait_mode8, wait_half] at a b d e
  rcases q2 with ⟨q, q'⟩ | ⟨q, q'⟩
  · obtain ⟨c', r1, r2, r3, r4⟩ := a q q'
    exact ⟨c1, c2, c', e1, e2, r1, r2, r3, r4⟩
  · obtain ⟨c', r1, r2, r3, r4⟩ := d q q'
    exact ⟨c1, c2, c', e1, e2, r1, r2, r3, r4⟩

theorem eff08 (c : Chip) : c.effect false 0x08#8 = { c with on := false } := by
  simp [Chip.effect]
theorem eff01 (c : Chip) : c.effect false 0x01#8 =
    { c with ddram := fun _ => 0x20#8, ac := 0, cg := false, inc := true } := by
  simp [Chip.effect]
theorem eff02 (c : Chip) : c.effect false 0x02#8 = { c with ac := 0, cg := false } := by
  simp [Chip.effect]
theorem eff06 (c : Chip) : c.effect false 0x06#8 = { c with inc := true } := by
  simp [Chip.effect]
theorem eff0C (c : Chip) : c.effect false 0x0C#8 = { c with on := true } := by
  simp [Chip.effect]

theorem sync_exec (g : Cfg) (c : Chip) (rs : Bool) (b : BitVec 8) (h : Sync g c)
    (hm : (c.effect rs b).mode8 = c.mode8) : Sync g ((ready c).exec g rs b) := by
  refine ⟨?_, (exec_half _ _ _ _).trans h.2⟩
  rw [← h.1, ← hm]
  have e : ∀ k, ({ c with busy := k }.effect rs b).mode8 = (c.effect rs b).mode8 := by
    intro k
    unfold Chip.effect
    split
    · split <;> rfl
    · repeat' split
      all_goals rfl
  exact e 0

/-- The bytes at the end of the initialisation. -/
theorem tail (g : Cfg) (n D : Nat) (hD : Fast g D) (hn : D < n) (c : Chip) (hs : Sync g c)
    (hb : c.busy ≤ D) (two : Bool) :
    ∃ c', (send g n c false ((if two then 0x28#8 else 0x20#8) ||| (if g.eight then 0x30#8 else 0x20#8))).bind
        (fun c => (send g n c false 0x08#8).bind fun c => (send g n c false 0x01#8).bind fun c =>
          (send g n c false 0x06#8).bind fun c => send g n c false 0x0C#8) = some c' ∧
      Sync g c' ∧ c'.busy ≤ D ∧ c'.ac = 0 ∧ c'.cg = false ∧ c'.inc = true ∧ c'.on = true ∧
      c'.two = two ∧ c'.ddram = fun _ => 0x20#8 := by
  rw [send_sync g false _ n c hs (by omega), Option.bind_some]
  have s1 : Sync g ((ready c).exec g false
      ((if two then 0x28#8 else 0x20#8) ||| (if g.eight then 0x30#8 else 0x20#8))) ∧
      ((ready c).exec g false
      ((if two then 0x28#8 else 0x20#8) ||| (if g.eight then 0x30#8 else 0x20#8))).two = two := by
    obtain ⟨h1, h2⟩ := hs
    refine ⟨⟨?_, ?_⟩, ?_⟩
    · rcases hg : g.eight with _ | _ <;> cases two <;> simp [Chip.exec, Chip.effect]
    · exact (exec_half _ _ _ _).trans h2
    · rcases hg : g.eight with _ | _ <;> cases two <;> simp [Chip.exec, Chip.effect]
  revert s1
  generalize hc1 : (ready c).exec g false
      ((if two then 0x28#8 else 0x20#8) ||| (if g.eight then 0x30#8 else 0x20#8)) = c1
  have b1 : c1.busy ≤ D := by rw [← hc1]; exact exec_busy g _ _ _ hD
  intro ⟨s1, t1⟩
  rw [send_sync g false _ n c1 s1 (by omega), Option.bind_some]
  have s2 : Sync g ((ready c1).exec g false 0x08#8) := sync_exec g _ _ _ s1 (by rw [eff08])
  have t2 : ((ready c1).exec g false 0x08#8).two = two := by
    show ((ready c1).effect false 0x08#8).two = two
    rw [eff08]; exact t1
  have b2 : ((ready c1).exec g false 0x08#8).busy ≤ D := exec_busy g _ _ _ hD
  generalize (ready c1).exec g false 0x08#8 = c2 at s2 t2 b2 ⊢
  rw [send_sync g false _ n _ s2 (by omega), Option.bind_some]
  have s3 : Sync g ((ready c2).exec g false 0x01#8) := sync_exec g _ _ _ s2 (by rw [eff01])
  have t3 : ((ready c2).exec g false 0x01#8).two = two ∧ ((ready c2).exec g false 0x01#8).ac = 0 ∧
      ((ready c2).exec g false 0x01#8).cg = false ∧
      ((ready c2).exec g false 0x01#8).ddram = fun _ => 0x20#8 := by
    have e : (ready c2).exec g false 0x01#8 =
      { (ready c2).effect false 0x01#8 with busy := g.dur c2.count false 0x01#8, count := c2.count + 1 } := rfl
    rw [e, eff01]
    exact ⟨t2, rfl, rfl, rfl⟩
  have b3 : ((ready c2).exec g false 0x01#8).busy ≤ D := exec_busy g _ _ _ hD
  generalize (ready c2).exec g false 0x01#8 = c3 at s3 t3 b3 ⊢
  rw [send_sync g false _ n _ s3 (by omega), Option.bind_some]
  have s4 : Sync g ((ready c3).exec g false 0x06#8) := sync_exec g _ _ _ s3 (by rw [eff06])
  have t4 : ((ready c3).exec g false 0x06#8).two = two ∧ ((ready c3).exec g false 0x06#8).ac = 0 ∧
      ((ready c3).exec g false 0x06#8).cg = false ∧
      ((ready c3).exec g false 0x06#8).ddram = (fun _ => 0x20#8) ∧
      ((ready c3).exec g false 0x06#8).inc = true := by
    have e : (ready c3).exec g false 0x06#8 =
      { (ready c3).effect false 0x06#8 with busy := g.dur c3.count false 0x06#8, count := c3.count + 1 } := rfl
    rw [e, eff06]
    exact ⟨t3.1, t3.2.1, t3.2.2.1, t3.2.2.2, rfl⟩
  have b4 : ((ready c3).exec g false 0x06#8).busy ≤ D := exec_busy g _ _ _ hD
  generalize (ready c3).exec g false 0x06#8 = c4 at s4 t4 b4 ⊢
  rw [send_sync g false _ n _ s4 (by omega)]
  refine ⟨_, rfl, sync_exec g _ _ _ s4 (by rw [eff0C]), exec_busy g _ _ _ hD, ?_⟩
  have e : (ready c4).exec g false 0x0C#8 =
    { (ready c4).effect false 0x0C#8 with busy := g.dur c4.count false 0x0C#8, count := c4.count + 1 } := rfl
  rw [e, eff0C]
  exact ⟨t4.2.1, t4.2.2.1, t4.2.2.2.2, rfl, t4.1, t4.2.2.2.1⟩

theorem initBase_ok (g : Cfg) (n D : Nat) (h : InitTimes g) (hD : Fast g D) (hl : 100 ≤ D)
    (hn : D < n) (c : Chip) (hb : c.busy = 0) (hc : c.mode8 = true → c.half = none) (two : Bool) :
    ∃ c', initBase g n c two = some c' ∧ Sync g c' ∧ c'.busy ≤ D ∧ c'.ac = 0 ∧ c'.cg = false ∧
      c'.inc = true ∧ c'.on = true ∧ c'.two = two ∧ c'.ddram = fun _ => 0x20#8 := by
  obtain ⟨c1, c2, c3, e1, e2, e3, m3, h3, b3⟩ := three g h c hb hc 5000 100 (Nat.le_refl _) (Nat.le_refl _)
  have e3D : c3.busy ≤ D := by omega
  simp only [initBase, e1, e2, e3, bind, Option.bind_some]
  rcases hg : g.eight with _ | _
  · have w := waitReady_mode8 g hg n c3 m3 (by omega)
    have e4 : highNibble g (ready c3) 0x20#8 = some ((ready c3).exec g false (2#4 ++ g.float)) := by
      rw [highNibble_eq]
      simp [hiLines, hg, Chip.writePulse, ready, m3, lines4]
    simp only [Bool.false_eq_true, if_false, w, Option.bind_some, e4]
    have s : Sync g ((ready c3).exec g false (2#4 ++ g.float)) := by
      refine ⟨?_, ?_⟩
      · rw [hg]; exact (set4_mode _ _).1
      · exact (set4_mode _ _).2.trans h3
    have := tail g n D hD hn _ s (exec_busy g _ _ _ hD) two
    simpa only [hg, Bool.false_eq_true, if_false] using this
  · have := tail g n D hD hn c3 ⟨by rw [m3, hg], h3⟩ e3D two
    simpa only [hg, if_true, Option.bind_some] using this

/-! ### Text -/

/-- A controller in the state the text functions rely on. -/
structure CInv (g : Cfg) (D : Nat) (two : Bool) (c : Chip) : Prop where
  sync : Sync g c
  busy : c.busy ≤ D
  cg : c.cg = false
  inc : c.inc = true
  two : c.two = two

/-- The controllers run with two lines, except for a display of one line. -/
def twoLines (dual : Bool) (count : Nat) : Bool := dual || decide (count ≠ 1)

theorem eff_addr (c : Chip) (a : BitVec 8) :
    c.effect false (0x80#8 ||| (a &&& 0x7f#8)) = { c with ac := a.toNat % 128, cg := false } := by
  have h : ∀ a : BitVec 8, (0x80#8 ||| (a &&& 0x7f#8)).getLsbD 7 = true ∧
      (0x80#8 ||| (a &&& 0x7f#8)).toNat % 128 = a.toNat % 128 := by decide +kernel
  obtain ⟨h1, h2⟩ := h a
  simp only [Chip.effect, h1, h2, Bool.false_eq_true, if_false, if_true]

theorem address_cell {dual : Bool} {w n col line : Nat} (hf : Fits dual w n) (hc : col < w)
    (hl : line < n) : (address dual w col line).toNat % 128 = (cell dual w col line).2 := by
  obtain ⟨h1, h2, h3, h4⟩ := hf
  have : line = 0 ∨ line = 1 ∨ line = 2 ∨ line = 3 := by omega
  cases dual
  · simp only [Bool.false_eq_true, if_false] at h4
    have h5 : (n = 1 → w ≤ 80) ∧ (n = 2 → w ≤ 40) ∧ (2 < n → w ≤ 20) := by
      split at h4
      · omega
      · split at h4 <;> omega
    rcases this with rfl | rfl | rfl | rfl <;>
      simp [address, cell] <;> omega
  · simp only [if_true] at h4
    rcases this with rfl | rfl | rfl | rfl <;>
      simp [address, cell] <;> omega

theorem cell_inj {dual : Bool} {w n c l c' l' : Nat} (hf : Fits dual w n) (hc : c < w) (hl : l < n)
    (hc' : c' < w) (hl' : l' < n) (h : cell dual w c l = cell dual w c' l') : c = c' ∧ l = l' := by
  obtain ⟨h1, h2, h3, h4⟩ := hf
  have a : l = 0 ∨ l = 1 ∨ l = 2 ∨ l = 3 := by omega
  have b : l' = 0 ∨ l' = 1 ∨ l' = 2 ∨ l' = 3 := by omega
  cases dual
  · simp only [Bool.false_eq_true, if_false] at h4
    have h5 : (n = 1 → w ≤ 80) ∧ (n = 2 → w ≤ 40) ∧ (2 < n → w ≤ 20) := by
      split at h4
      · omega
      · split at h4 <;> omega
    rcases a with rfl | rfl | rfl | rfl <;> rcases b with rfl | rfl | rfl | rfl <;>
      simp [cell] at h <;> omega
  · simp only [if_true] at h4
    rcases a with rfl | rfl | rfl | rfl <;> rcases b with rfl | rfl | rfl | rfl <;>
      simp [cell] at h <;> omega

theorem cell_next {dual : Bool} {w n c l : Nat} (hf : Fits dual w n) (hc : c + 1 < w) (hl : l < n) :
    nextAddr (twoLines dual n) true (cell dual w c l).2 = (cell dual w (c + 1) l).2 ∧
      (cell dual w (c + 1) l).1 = (cell dual w c l).1 := by
  obtain ⟨h1, h2, h3, h4⟩ := hf
  have a : l = 0 ∨ l = 1 ∨ l = 2 ∨ l = 3 := by omega
  cases dual
  · simp only [Bool.false_eq_true, if_false] at h4
    have h5 : (n = 1 → w ≤ 80) ∧ (n = 2 → w ≤ 40) ∧ (2 < n → w ≤ 20) := by
      split at h4
      · omega
      · split at h4 <;> omega
    refine ⟨?_, rfl⟩
    by_cases hn : n = 1
    · have : l = 0 := by omega
      subst this
      simp [cell, nextAddr, twoLines, hn]
      omega
    · rcases a with rfl | rfl | rfl | rfl <;> simp [cell, nextAddr, twoLines, hn] <;>
        (rw [if_neg (by omega), if_neg (by omega)]) <;> omega
  · simp only [if_true] at h4
    refine ⟨?_, rfl⟩
    rcases a with rfl | rfl | rfl | rfl <;> simp [cell, nextAddr, twoLines] <;>
        (rw [if_neg (by omega), if_neg (by omega)]) <;> omega

/-- The display shows the page. -/
structure Shows (g : Cfg) (D : Nat) (dual : Bool) (w n : Nat) (d : Disp) (p : Page) : Prop where
  dl : d.dual = dual
  width : d.width = w
  count : d.count = n
  ok : ∀ s, (s = true → dual = true) → CInv g D (twoLines dual n) (d.chips s)
  cells : ∀ l c, l < n → c < w →
    (d.chips (cell dual w c l).1).ddram (cell dual w c l).2 = p.cells l c

/-- The position of the display is that of the page. -/
structure At (dual : Bool) (w n : Nat) (d : Disp) (p : Page) : Prop where
  col : d.col = p.col
  line : d.line = p.line
  hcol : p.col ≤ w
  hline : p.line < n
  ac : p.col < w → (d.chips (cell dual w p.col p.line).1).ac = (cell dual w p.col p.line).2

theorem cell_used {dual : Bool} (w c l : Nat) : (cell dual w c l).1 = true → dual = true := by
  cases dual <;> simp [cell]

theorem sel_cell (d : Disp) (w c : Nat) : d.sel = (cell d.dual w c d.line).1 := by
  unfold Disp.sel cell
  cases d.dual <;> simp

theorem put_step {g : Cfg} {D n w k : Nat} {dual : Bool} (hD : Fast g D) (hn : D < n)
    (hf : Fits dual w k) {d : Disp} {p : Page} (hs : Shows g D dual w k d p)
    (ha : At dual w k d p) (hc : p.col < w) (ch : BitVec 8) :
    ∃ d', writeRaw g n d ch = some d' ∧
      Shows g D dual w k { d' with col := d'.col + 1 } (p.put ch) ∧
      At dual w k { d' with col := d'.col + 1 } (p.put ch) := by
  have hsel : d.sel = (cell dual w p.col p.line).1 := by
    rw [sel_cell d w p.col, hs.dl, ha.line]
  generalize hS : (cell dual w p.col p.line).1 = S at hsel
  have hu : S = true → dual = true := by rw [← hS]; exact cell_used _ _ _
  have I := hs.ok S hu
  have hac := ha.ac hc
  rw [hS] at hac
  have e := send_sync g true ch n (d.chips S) I.sync (Nat.lt_of_le_of_lt I.busy hn)
  -- the controller afterwards
  obtain ⟨c', hc', h1, h2, h3⟩ : ∃ c', (ready (d.chips S)).exec g true ch = c' ∧
      CInv g D (twoLines dual k) c' ∧
      c'.ddram = Function.update (d.chips S).ddram (d.chips S).ac ch ∧
      c'.ac = nextAddr (twoLines dual k) true (d.chips S).ac := by
    refine ⟨_, rfl, ?_, ?_, ?_⟩
    · refine ⟨⟨?_, ?_⟩, exec_busy g _ _ _ hD, ?_, ?_, ?_⟩ <;>
        simp [Chip.exec, Chip.effect, Chip.move, ready, I.cg, I.inc, I.two, I.sync.1, I.sync.2]
    · simp [Chip.exec, Chip.effect, Chip.move, ready, I.cg]
    · simp [Chip.exec, Chip.effect, Chip.move, ready, I.cg, I.inc, I.two]
  rw [hc'] at e
  refine ⟨{ d with chips := Function.update d.chips S c' }, ?_, ?_, ?_⟩
  · unfold writeRaw
    rw [hsel, e]
    rfl
  · refine ⟨hs.dl, hs.width, hs.count, ?_, ?_⟩
    · intro s hsu
      show CInv g D (twoLines dual k) (Function.update d.chips S c' s)
      by_cases q : s = S
      · subst q; rw [Function.update_self]; exact h1
      · rw [Function.update_of_ne q]; exact hs.ok s hsu
    · intro l c hl hcw
      show (Function.update d.chips S c' (cell dual w c l).1).ddram (cell dual w c l).2 =
        Function.update p.cells p.line (Function.update (p.cells p.line) p.col ch) l c
      by_cases q : (cell dual w c l).1 = S
      · rw [q, Function.update_self, h2, hac]
        by_cases r : (cell dual w c l).2 = (cell dual w p.col p.line).2
        · obtain ⟨r1, r2⟩ := cell_inj hf hcw hl hc ha.hline (Prod.ext (q.trans hS.symm) r)
          subst r1 r2
          simp only [Function.update_self]
        · rw [Function.update_of_ne r, ← q, hs.cells l c hl hcw]
          by_cases t : l = p.line
          · subst t
            rw [Function.update_self, Function.update_of_ne]
            rintro rfl
            exact r rfl
          · rw [Function.update_of_ne t]
      · rw [Function.update_of_ne q, hs.cells l c hl hcw]
        by_cases t : l = p.line
        · subst t
          rw [Function.update_self, Function.update_of_ne]
          rintro rfl
          exact q hS
        · rw [Function.update_of_ne t]
  · refine ⟨congrArg (· + 1) ha.col, ha.line, hc, ha.hline, ?_⟩
    intro hlt
    have hlt : p.col + 1 < w := hlt
    obtain ⟨n1, n2⟩ := cell_next hf hlt ha.hline
    show (Function.update d.chips S c' (cell dual w (p.col + 1) p.line).1).ac =
      (cell dual w (p.col + 1) p.line).2
    rw [n2, hS, Function.update_self, h3, hac, n1]

theorem cursor_step {g : Cfg} {D n w k : Nat} {dual : Bool} (hD : Fast g D) (hn : D < n)
    (hf : Fits dual w k) {d : Disp} {p : Page} (hs : Shows g D dual w k d p) (col line : Nat)
    (hc : col < w) (hl : line < k) :
    ∃ d', setCursor g n d col line = some d' ∧ Shows g D dual w k d' { p with col := col, line := line } ∧
      At dual w k d' { p with col := col, line := line } := by
  have e1 : (if col ≤ d.width then col else d.width) = col := by
    rw [hs.width, if_pos (by omega)]
  have e2 : (if line ≤ d.count then line else d.count) = line := by
    rw [hs.count, if_pos (by omega)]
  have hsel : ({ d with col := col, line := line } : Disp).sel = (cell dual w col line).1 := by
    rw [sel_cell _ w col, ← hs.dl]
  generalize hS : (cell dual w col line).1 = S at hsel
  have hu : S = true → dual = true := by rw [← hS]; exact cell_used _ _ _
  have I := hs.ok S hu
  have e := send_sync g false (0x80#8 ||| (address dual w col line &&& 0x7f#8)) n (d.chips S) I.sync
    (Nat.lt_of_le_of_lt I.busy hn)
  obtain ⟨c', hc', h1, h2, h3⟩ : ∃ c', (ready (d.chips S)).exec g false
      (0x80#8 ||| (address dual w col line &&& 0x7f#8)) = c' ∧
      CInv g D (twoLines dual k) c' ∧ c'.ddram = (d.chips S).ddram ∧
      c'.ac = (cell dual w col line).2 := by
    refine ⟨_, rfl, ?_, ?_, ?_⟩
    · refine ⟨⟨?_, ?_⟩, exec_busy g _ _ _ hD, ?_, ?_, ?_⟩ <;>
        simp only [Chip.exec, eff_addr, ready, I.inc, I.two, I.sync.1, I.sync.2]
    · simp only [Chip.exec, eff_addr, ready]
    · simp only [Chip.exec, eff_addr, ready]
      exact address_cell hf hc hl
  rw [hc'] at e
  refine ⟨{ d with col := col, line := line, chips := Function.update d.chips S c' }, ?_, ?_, ?_⟩
  · simp only [setCursor, e1, e2, hsel]
    rw [hs.dl, hs.width, e]
    rfl
  · refine ⟨hs.dl, hs.width, hs.count, ?_, ?_⟩
    · intro s hsu
      show CInv g D (twoLines dual k) (Function.update d.chips S c' s)
      by_cases q : s = S
      · subst q; rw [Function.update_self]; exact h1
      · rw [Function.update_of_ne q]; exact hs.ok s hsu
    · intro l c hl hcw
      show (Function.update d.chips S c' (cell dual w c l).1).ddram (cell dual w c l).2 = p.cells l c
      rw [← hs.cells l c hl hcw]
      by_cases q : (cell dual w c l).1 = S
      · rw [q, Function.update_self, h2]
      · rw [Function.update_of_ne q]
  · refine ⟨rfl, rfl, Nat.le_of_lt hc, hl, fun _ => ?_⟩
    show (Function.update d.chips S c' (cell dual w col line).1).ac = (cell dual w col line).2
    rw [hS, Function.update_self, h3]

theorem newline_step {g : Cfg} {D n w k : Nat} {dual : Bool} (hD : Fast g D) (hn : D < n)
    (hf : Fits dual w k) {d : Disp} {p : Page} (hs : Shows g D dual w k d p)
    (ha : At dual w k d p) :
    ∃ d', newline g n d = some d' ∧ Shows g D dual w k d' (p.newline k) ∧
      At dual w k d' (p.newline k) := by
  have e : (if d.line + 1 ≥ d.count then 0 else d.line + 1) =
      if p.line + 1 = k then 0 else p.line + 1 := by
    have := ha.hline
    rw [ha.line, hs.count]
    by_cases q : p.line + 1 = k
    · rw [if_pos (by omega), if_pos q]
    · rw [if_neg (by omega), if_neg q]
  obtain ⟨d', h1, h2, h3⟩ := cursor_step hD hn hf hs 0 (if p.line + 1 = k then 0 else p.line + 1)
    hf.1 (by have := ha.hline; have := hf.2.1; split <;> omega)
  refine ⟨d', ?_, h2, h3⟩
  simp only [newline, e]
  exact h1

theorem write_step {g : Cfg} {D n w k : Nat} {dual : Bool} (hD : Fast g D) (hn : D < n)
    (hf : Fits dual w k) {d : Disp} {p : Page} (hs : Shows g D dual w k d p)
    (ha : At dual w k d p) (ch : BitVec 8) :
    ∃ d', write g n d ch = some d' ∧ Shows g D dual w k d' (p.write w k ch) ∧
      At dual w k d' (p.write w k ch) := by
  unfold write Page.write
  by_cases h : ch = 10#8
  · rw [if_pos h, if_pos h]
    exact newline_step hD hn hf hs ha
  · rw [if_neg h, if_neg h]
    have := ha.hcol
    by_cases q : p.col = w
    · obtain ⟨d1, e1, s1, a1⟩ := newline_step hD hn hf hs ha
      obtain ⟨d2, e2, s2, a2⟩ := put_step hD hn hf s1 a1 hf.1 ch
      rw [if_pos (by rw [ha.col, hs.width]; omega), if_pos q]
      exact ⟨_, by simp only [bind, e1, Option.bind_some, e2], s2, a2⟩
    · obtain ⟨d2, e2, s2, a2⟩ := put_step hD hn hf hs ha (by omega) ch
      rw [if_neg (by rw [ha.col, hs.width]; omega), if_neg q]
      exact ⟨_, by simp only [bind, Option.bind_some, e2], s2, a2⟩

theorem clear_chip {g : Cfg} {D n : Nat} {two : Bool} (hD : Fast g D) (hn : D < n) {c : Chip}
    (I : CInv g D two c) :
    ∃ c', (send g n c false 0x01#8).bind (fun c => send g n c false 0x02#8) = some c' ∧
      CInv g D two c' ∧ c'.ddram = (fun _ => 0x20#8) ∧ c'.ac = 0 := by
  rw [send_sync g false _ n c I.sync (Nat.lt_of_le_of_lt I.busy hn), Option.bind_some]
  have s1 : Sync g ((ready c).exec g false 0x01#8) := sync_exec g _ _ _ I.sync (by rw [eff01])
  rw [send_sync g false _ n _ s1 (Nat.lt_of_le_of_lt (exec_busy g _ _ _ hD) hn)]
  refine ⟨_, rfl, ⟨sync_exec g _ _ _ s1 (by rw [eff02]), exec_busy g _ _ _ hD, ?_, ?_, ?_⟩, ?_, ?_⟩ <;>
    simp only [Chip.exec, ready, eff01, eff02, I.two]

theorem clear_step {g : Cfg} {D n w k : Nat} {dual : Bool} (hD : Fast g D) (hn : D < n)
    {d : Disp} {p : Page} (hs : Shows g D dual w k d p) (q : Page) (hq : q.cells = fun _ _ => 0x20#8) :
    ∃ d', clear g n d = some d' ∧ Shows g D dual w k d' q ∧
      (∀ s, (s = true → dual = true) → (d'.chips s).ac = 0) ∧ d'.col = d.col ∧ d'.line = d.line := by
  obtain ⟨c1, e1, i1, r1, a1⟩ := clear_chip hD hn (hs.ok false (by simp))
  rcases hd : dual with _ | _
  · subst hd
    refine ⟨{ d with chips := Function.update d.chips false c1 }, ?_, ⟨hs.dl, hs.width, hs.count, ?_, ?_⟩, ?_, rfl, rfl⟩
    · simp only [clear, bind]
      rw [← Option.bind_assoc, e1]
      simp [hs.dl]
    · intro s hsu
      cases s
      · simp only [Function.update_self]; exact i1
      · simp at hsu
    · intro l c _ _
      simp [cell, r1, hq]
    · intro s hsu
      cases s
      · simp only [Function.update_self]; exact a1
      · simp at hsu
  · subst hd
    obtain ⟨c2, e2, i2, r2, a2⟩ := clear_chip hD hn (hs.ok true (by simp))
    refine ⟨{ d with chips := Function.update (Function.update d.chips false c1) true c2 }, ?_,
      ⟨hs.dl, hs.width, hs.count, ?_, ?_⟩, ?_, rfl, rfl⟩
    · simp only [clear, bind]
      rw [← Option.bind_assoc, e1]
      have : Function.update d.chips false c1 true = d.chips true := by simp
      simp only [Option.bind_some, hs.dl, if_true, this]
      rw [← Option.bind_assoc, e2]
      simp
    · intro s hsu
      cases s
      · simp; exact i1
      · simp; exact i2
    · intro l c _ _
      by_cases h : 2 ≤ l <;> simp [cell, r1, r2, hq, h]
    · intro s hsu
      cases s
      · simp; exact a1
      · simp; exact a2

/-! ### The theorems -/

/-- Calls of a user on the display; `clear` is followed by setting the cursor. -/
def call (g : Cfg) (n : Nat) (d : Disp) : Op → Option Disp
  | .write ch => write g n d ch
  | .cursor col line => setCursor g n d col line
  | .clear => (clear g n d).bind fun d => setCursor g n d 0 0

/-- A sequence of calls. -/
def calls (g : Cfg) (n : Nat) : List Op → Disp → Option Disp
  | [], d => some d
  | o :: os, d => (call g n d o).bind (calls g n os)

/-- Positions are on the display. -/
def Within (w k : Nat) : Op → Prop
  | .cursor col line => col < w ∧ line < k
  | _ => True

/-- What is to be seen at a position. -/
def seen (d : Disp) (line col : Nat) : BitVec 8 :=
  (d.chips (cell d.dual d.width col line).1).ddram (cell d.dual d.width col line).2

/-- A display before its initialisation: the controllers are powered and idle,
in any state of their interface. -/
def Fresh (d : Disp) : Prop :=
  d.col = 0 ∧ d.line = 0 ∧ ∀ s, (d.chips s).busy = 0 ∧
    ((d.chips s).mode8 = true → (d.chips s).half = none)

theorem calls_ok {g : Cfg} {D n w k : Nat} {dual : Bool} (hD : Fast g D) (hn : D < n)
    (hf : Fits dual w k) : ∀ (os : List Op) (d : Disp) (p : Page), (∀ o ∈ os, Within w k o) →
    Shows g D dual w k d p → At dual w k d p →
    ∃ d', calls g n os d = some d' ∧
      Shows g D dual w k d' (os.foldl (Page.step w k) p) ∧ At dual w k d' (os.foldl (Page.step w k) p) := by
  intro os
  induction os with
  | nil => intro d p _ hs ha; exact ⟨d, rfl, hs, ha⟩
  | cons o os ih =>
    intro d p hw hs ha
    have hw' : ∀ o ∈ os, Within w k o := fun o h => hw o (List.mem_cons_of_mem _ h)
    have h0 := hw o List.mem_cons_self
    have : ∃ d1, call g n d o = some d1 ∧ Shows g D dual w k d1 (p.step w k o) ∧
        At dual w k d1 (p.step w k o) := by
      cases o with
      | write ch => exact write_step hD hn hf hs ha ch
      | cursor col line => exact cursor_step hD hn hf hs col line h0.1 h0.2
      | clear =>
        obtain ⟨d1, e1, s1, _⟩ := clear_step hD hn hs ⟨fun _ _ => 0x20#8, 0, 0⟩ rfl
        obtain ⟨d2, e2, s2, a2⟩ := cursor_step hD hn hf s1 0 0 hf.1 hf.2.1
        exact ⟨d2, by simp only [call, e1, Option.bind_some, e2], s2, a2⟩
    obtain ⟨d1, e1, s1, a1⟩ := this
    obtain ⟨d2, e2, s2, a2⟩ := ih d1 _ hw' s1 a1
    exact ⟨d2, by simp only [calls, e1, Option.bind_some, e2], s2, a2⟩

theorem init_shows {g : Cfg} {D n w k : Nat} {dual : Bool} (hi : InitTimes g) (hD : Fast g D)
    (hl : 100 ≤ D) (hn : D < n) (hf : Fits dual w k) (d : Disp) (h : Fresh d) (h1 : d.dual = dual)
    (h2 : d.width = w) (h3 : d.count = k) :
    ∃ d', initDisp g n d = some d' ∧ Shows g D dual w k d' blank ∧ At dual w k d' blank := by
  obtain ⟨f1, f2, f3⟩ := h
  obtain ⟨c1, e1, s1, b1, a1, g1, i1, o1, t1, r1⟩ := initBase_ok g n D hi hD hl hn (d.chips false)
    (f3 false).1 (f3 false).2 (twoLines dual k)
  have e1' : initBase g n (d.chips false) (d.dual || decide (d.count ≠ 1)) = some c1 := by
    rw [h1, h3]; exact e1
  rcases hd : dual with _ | _
  · rw [hd] at h1 t1
    refine ⟨{ d with chips := Function.update d.chips false c1 }, ?_, ⟨h1, h2, h3, ?_, ?_⟩,
      ⟨f1, f2, Nat.zero_le _, hf.2.1, fun _ => ?_⟩⟩
    · simp only [initDisp, bind, e1', Option.bind_some]
      simp [h1]
    · intro s hsu
      cases s
      · simp only [Function.update_self]; exact ⟨s1, b1, g1, i1, t1⟩
      · simp at hsu
    · intro l c _ _
      simp [cell, r1, blank]
    · simp [cell, blank, a1]
  · obtain ⟨c2, e2, s2, b2, a2, g2, i2, o2, t2, r2⟩ := initBase_ok g n D hi hD hl hn (d.chips true)
      (f3 true).1 (f3 true).2 true
    rw [hd] at h1 t1
    refine ⟨{ d with chips := Function.update (Function.update d.chips false c1) true c2 }, ?_,
      ⟨h1, h2, h3, ?_, ?_⟩, ⟨f1, f2, Nat.zero_le _, hf.2.1, fun _ => ?_⟩⟩
    · simp only [initDisp, bind, e1', Option.bind_some]
      have : Function.update d.chips false c1 true = d.chips true := by simp
      simp only [h1, if_true, this, e2, Option.bind_some]
    · intro s hsu
      cases s
      · simp; exact ⟨s1, b1, g1, i1, t1⟩
      · simp; exact ⟨s2, b2, g2, i2, by rw [t2]; rfl⟩
    · intro l c _ _
      by_cases h : 2 ≤ l <;> simp [cell, r1, r2, blank, h]
    · simp [cell, blank, a1]

/-- C282: from every state of its interface, half a byte included, the
initialisation brings the controller into the mode of the wiring; it is cleared,
switched on and at its first position. -/
theorem C282_init (g : Cfg) (n D : Nat) (h : InitTimes g) (hD : Fast g D) (hl : 100 ≤ D)
    (hn : D < n) (c : Chip) (hb : c.busy = 0) (hc : c.mode8 = true → c.half = none) (two : Bool) :
    ∃ c', initBase g n c two = some c' ∧ c'.mode8 = g.eight ∧ c'.half = none ∧ c'.on = true ∧
      c'.two = two ∧ c'.inc = true ∧ c'.cg = false ∧ c'.ac = 0 ∧ ∀ a, c'.ddram a = 0x20#8 := by
  obtain ⟨c', e, s, _, a, cg, i, o, t, r⟩ := initBase_ok g n D h hD hl hn c hb hc two
  exact ⟨c', e, s.1, s.2, o, t, i, cg, a, fun x => by rw [r]⟩

/-- C282: afterwards every byte is executed by the controller exactly once, never
while it is busy, whatever time it takes. -/
theorem C282_byte (g : Cfg) (n : Nat) (c : Chip) (h1 : c.mode8 = g.eight) (h2 : c.half = none)
    (hn : c.busy < n) (rs : Bool) (b : BitVec 8) :
    ∃ c', send g n c rs b = some c' ∧ c' = { c.effect rs b with busy := g.dur c.count rs b, count := c.count + 1 } := by
  refine ⟨_, send_sync g rs b n c ⟨h1, h2⟩ hn, ?_⟩
  have e : ∀ k, { c with busy := k }.effect rs b = { c.effect rs b with busy := k } := by
    intro k
    unfold Chip.effect
    split
    · simp only [Chip.move]; split <;> rfl
    · repeat' split
      all_goals rfl
  unfold Chip.exec ready
  rw [e 0]

/-- C283: after the initialisation the display shows what a typewriter would have
written, for every display, every text and every speed of the controller.  A
call of `clear` is followed by one of `setCursor`, positions are on the
display. -/
theorem C283_text_partial (g : Cfg) (n D : Nat) (hi : InitTimes g) (hD : Fast g D) (hl : 100 ≤ D)
    (hn : D < n) (d : Disp) (h : Fresh d) (hf : Fits d.dual d.width d.count) (os : List Op)
    (hw : ∀ o ∈ os, Within d.width d.count o) :
    ∃ d1 d2, initDisp g n d = some d1 ∧ calls g n os d1 = some d2 ∧
      ∀ l c, l < d.count → c < d.width →
        seen d2 l c = (os.foldl (Page.step d.width d.count) blank).cells l c := by
  obtain ⟨d1, e1, s1, a1⟩ := init_shows hi hD hl hn hf d h rfl rfl rfl
  obtain ⟨d2, e2, s2, a2⟩ := calls_ok hD hn hf os d1 blank hw s1 a1
  refine ⟨d1, d2, e1, e2, fun l c hl hc => ?_⟩
  unfold seen
  rw [s2.dl, s2.width]
  exact s2.cells l c hl hc

/-- A controller of normal speed on four lines that was left in the middle of a
byte. -/
def g0 : Cfg := ⟨false, 5#4, fun _ rs b => if rs = false ∧ b.toNat < 4 then 1520 else 37⟩
/-- See `g0`. -/
def chip0 : Chip := ⟨false, some 0#4, false, false, false, true, 7, fun _ => 1#8, fun _ => 0#8, 0, 0⟩
/-- A display of two lines of 16 characters. -/
def disp0 : Disp := ⟨false, 16, 2, fun _ => chip0, 0, 0⟩
/-- A display of four lines of 40 characters. -/
def disp1 : Disp := ⟨true, 40, 4, fun _ => chip0, 0, 0⟩

theorem g0_times : InitTimes g0 ∧ Fast g0 1520 := by
  refine ⟨⟨?_, ?_⟩, ?_⟩
  · intro k b; simp only [g0]; split <;> omega
  · intro k b h; simp only [g0]; rw [if_neg (by omega)]; omega
  · intro k rs b; simp only [g0]; split <;> omega

example : InitTimes g0 ∧ Fast g0 1520 ∧ chip0.busy = 0 ∧ (chip0.mode8 = true → chip0.half = none) :=
  ⟨g0_times.1, g0_times.2, rfl, by decide⟩

example : Fresh disp0 ∧ Fits disp0.dual disp0.width disp0.count ∧ Fresh disp1 ∧
    Fits disp1.dual disp1.width disp1.count ∧
    ∀ o ∈ [Op.write 65#8, .write 10#8, .cursor 15 1, .write 66#8, .clear, .write 67#8], Within 16 2 o := by
  refine ⟨⟨rfl, rfl, fun s => ⟨rfl, by cases s <;> decide⟩⟩, by unfold Fits; decide, ⟨rfl, rfl, fun s => ⟨rfl, by cases s <;> decide⟩⟩,
    by unfold Fits; decide, ?_⟩
  intro o ho
  simp at ho
  rcases ho with rfl | rfl | rfl | rfl | rfl | rfl <;> simp [Within]

/-- C283, refuted: `clear` does not reset the position of `CharacterDisplay`.
After a full line and `clear`, the next character is shown in the second line
instead of at the first position. -/
theorem C283_clear_counterexample :
    ((((initDisp g0 2000 disp0).bind (calls g0 2000 (List.replicate 16 (.write 65#8)))).bind
        (clear g0 2000)).bind (fun d => write g0 2000 d 97#8)).map (fun d => (seen d 0 0, seen d 1 0)) =
      some (0x20#8, 97#8) ∧
    (((List.replicate 16 (Op.write 65#8)) ++ [Op.clear, Op.write 97#8]).foldl (Page.step 16 2) blank).cells 0 0 =
      97#8 := by
  decide +kernel

/-- C283, refuted: a line behind the last one is accepted; what is written there
is not to be seen. -/
theorem C283_cursor_counterexample :
    (((initDisp g0 2000 disp0).bind (fun d => setCursor g0 2000 d 0 2)).bind
        (fun d => write g0 2000 d 97#8)).map (fun d => ((List.range 2).all fun l => (List.range 16).all fun c =>
          seen d l c == 0x20#8, d.line)) =
      some (true, 2) := by
  decide +kernel

/-! ### User defined characters -/

theorem tryWrite_idle (g : Cfg) (c : Chip) (rs : Bool) (b : BitVec 8) (h : Sync g c)
    (hb : c.busy = 0) : tryWrite g c rs b = some (true, c.exec g rs b) := by
  obtain ⟨k, hk, t, ht, hf, htr⟩ := isBusy_sync g c h
  have e : ({ c with busy := c.busy - k } : Chip) = c := by
    rw [hb, Nat.zero_sub]
    obtain ⟨⟩ := c
    simp only at hb
    subst hb
    rfl
  rw [e] at ht
  rcases t with _ | _
  · simp only [tryWrite, ht, Bool.false_eq_true, if_false]
    rw [busWrite_sync g c rs b h hb]
    rfl
  · exact absurd hb (htr rfl)

theorem cgRows_ok (g : Cfg) (hq : ∀ k b, g.dur k true b ≤ 50) : ∀ (rows : List (BitVec 8)) (c : Chip)
    (a : Nat), Sync g c → c.busy ≤ 50 → c.cg = true → c.inc = true → (rows ≠ [] → c.ac = a) →
    a + rows.length ≤ 64 →
    ∃ c', cgRows g c rows = some c' ∧ (∀ i (h : i < rows.length), c'.cgram (a + i) = rows[i]) ∧
      (∀ x, x < a ∨ a + rows.length ≤ x → c'.cgram x = c.cgram x) ∧ c'.ddram = c.ddram := by
  intro rows
  induction rows with
  | nil =>
    intro c a _ _ _ _ _ _
    exact ⟨c, rfl, fun i h => absurd h (by simp), fun _ _ => rfl, rfl⟩
  | cons r rows ih =>
    intro c a hs hb hcg hinc hac hlen
    have hac := hac (by simp)
    have hlen : a + (rows.length + 1) ≤ 64 := hlen
    have hs' : Sync g (c.wait 50) := hs
    have e := tryWrite_idle g (c.wait 50) true r hs' (by rw [wait_busy]; omega)
    -- the controller after the row
    obtain ⟨c1, hc1, s1, b1, g1, i1, a1, r1, d1⟩ : ∃ c1, (c.wait 50).exec g true r = c1 ∧ Sync g c1 ∧
        c1.busy ≤ 50 ∧ c1.cg = true ∧ c1.inc = true ∧ c1.ac = (a + 1) % 64 ∧
        c1.cgram = Function.update c.cgram a r ∧ c1.ddram = c.ddram := by
      refine ⟨_, rfl, ⟨?_, ?_⟩, hq _ _, ?_, ?_, ?_, ?_, ?_⟩ <;>
        simp [Chip.exec, Chip.effect, Chip.move, Chip.wait, hcg, hinc, hac, hs.1, hs.2]
    rw [hc1] at e
    obtain ⟨c', e', p1, p2, p3⟩ := ih c1 (a + 1) s1 b1 g1 i1
      (fun hne => by
        have : 0 < rows.length := List.length_pos_iff.2 hne
        rw [a1]; omega) (by omega)
    refine ⟨c', ?_, ?_, ?_, p3.trans d1⟩
    · simp only [cgRows, e]
      exact e'
    · intro i h
      cases i with
      | zero =>
        show c'.cgram a = r
        rw [p2 a (by omega), r1, Function.update_self]
      | succ i =>
        have := p1 i (by simpa using h)
        rw [show a + (i + 1) = a + 1 + i by omega, this]
        rfl
    · intro x hx
      have hx : x < a ∨ a + (rows.length + 1) ≤ x := hx
      rw [p2 x (by omega), r1, Function.update_of_ne (by omega)]

/-- C284: the rows of a user defined character 0 … 7 are stored, the other
characters and the text stay.  The controller must take at most 50 µs for a
row. -/
theorem C284_cgram_partial (g : Cfg) (n D : Nat) (hD : Fast g D) (hn : D < n)
    (hq : ∀ k b, g.dur k true b ≤ 50) (hq' : ∀ k b, g.dur k false (0x40#8 ||| b) ≤ 50) (d : Disp)
    (two : Bool) (I : CInv g D two (d.chips false)) (ch : BitVec 8) (hch : ch < 8#8) (rows : List (BitVec 8))
    (hr : rows.length = 8) :
    ∃ d', writeCGRAM g n d ch rows = some d' ∧
      (∀ i (h : i < 8), (d'.chips false).cgram (8 * ch.toNat + i) = rows[i]) ∧
      (∀ x, x < 8 * ch.toNat ∨ 8 * ch.toNat + 8 ≤ x →
        (d'.chips false).cgram x = (d.chips false).cgram x) ∧
      ∀ l c, (d'.dual = false → seen d' l c = seen d l c) := by
  have hb : ∀ ch : BitVec 8, ch < 8#8 → (0x40#8 ||| (ch <<< 3)).getLsbD 7 = false ∧
      (0x40#8 ||| (ch <<< 3)).getLsbD 6 = true ∧ (0x40#8 ||| (ch <<< 3)).toNat % 64 = 8 * ch.toNat ∧
      8 * ch.toNat + 8 ≤ 64 ∧ ¬ ch > 8#8 := by decide +kernel
  obtain ⟨h7, h6, h5, h4, h3⟩ := hb ch hch
  have e := send_sync g false (0x40#8 ||| (ch <<< 3)) n (d.chips false) I.sync
    (Nat.lt_of_le_of_lt I.busy hn)
  obtain ⟨c1, hc1, s1, b1, g1, i1, a1, r1, d1⟩ : ∃ c1, (ready (d.chips false)).exec g false
      (0x40#8 ||| (ch <<< 3)) = c1 ∧ Sync g c1 ∧ c1.busy ≤ 50 ∧ c1.cg = true ∧ c1.inc = true ∧
      c1.ac = 8 * ch.toNat ∧ c1.cgram = (d.chips false).cgram ∧ c1.ddram = (d.chips false).ddram := by
    refine ⟨_, rfl, ⟨?_, ?_⟩, hq' _ _, ?_, ?_, ?_, ?_, ?_⟩ <;>
      simp only [Chip.exec, Chip.effect, ready, h7, h6, h5, I.inc, I.sync.1, I.sync.2, Bool.false_eq_true,
        if_false, if_true]
  rw [hc1] at e
  obtain ⟨c2, e2, p1, p2, p3⟩ := cgRows_ok g hq rows c1 (8 * ch.toNat) s1 b1 g1 i1 (fun _ => a1)
    (by omega)
  refine ⟨{ d with chips := Function.update d.chips false c2 }, ?_, ?_, ?_, ?_⟩
  · simp only [writeCGRAM, if_neg h3, bind, e, Option.bind_some, e2]
  · intro i h
    simp only [Function.update_self]
    exact p1 i (by omega)
  · intro x hx
    simp only [Function.update_self]
    rw [p2 x (by omega), r1]
  · intro l c hdl
    have hdl : d.dual = false := hdl
    simp only [seen, cell, hdl, Bool.false_eq_true, if_false, Function.update_self]
    rw [p3, d1]

example : (∀ k b, g0.dur k true b ≤ 50) ∧ (∀ k b, g0.dur k false (0x40#8 ||| b) ≤ 50) ∧
    CInv g0 1520 true ⟨false, none, true, true, true, false, 0, fun _ => 0x20#8, fun _ => 0#8, 37, 9⟩ := by
  refine ⟨fun k b => by simp [g0], fun k b => ?_, ⟨rfl, rfl⟩, by decide, rfl, rfl, rfl⟩
  have : ∀ b : BitVec 8, ¬ (0x40#8 ||| b).toNat < 4 := by decide +kernel
  simp only [g0]
  rw [if_neg (by simpa using this b)]
  omega

/-- C284, refuted: there are the characters 0 … 7; number 8 is not refused but
replaces character 0. -/
theorem C284_character_counterexample :
    ((initDisp g0 2000 disp0).bind (fun d => writeCGRAM g0 2000 d 8#8 (List.replicate 8 31#8))).map
        (fun d => ((d.chips false).cgram 0, (d.chips false).cgram 7)) = some (31#8, 31#8) := by
  decide +kernel

/-- C284, refuted: text after the definition of a character is written into the
memory of the characters, until the cursor is set. -/
theorem C284_text_counterexample :
    ((initDisp g0 2000 disp0).bind (fun d => (writeCGRAM g0 2000 d 1#8 (List.replicate 8 31#8)).bind
        fun d => write g0 2000 d 97#8)).map
        (fun d => (seen d 0 0, (d.chips false).cgram 16)) = some (0x20#8, 97#8) := by
  decide +kernel

/-! ### ST7036 -/

/-- What is to be seen at a position of a display with at most two lines. -/
def stSeen (s : St) (line col : Nat) : BitVec 8 := s.ddram (0x40 * line + col)

theorem st_step (w : Nat) (hw : 1 ≤ w) (s : St) (p : Page) (ch : BitVec 8)
    (h : s.width = w ∧ s.count = 1 ∧ s.line = 0 ∧ p.line = 0 ∧ s.col = p.col ∧ p.col ≤ w ∧
      (p.col < w → s.ac = p.col) ∧ ∀ c, c < w → s.ddram c = p.cells 0 c) :
    let s' := stWrite s ch
    let p' := p.write w 1 ch
    s'.width = w ∧ s'.count = 1 ∧ s'.line = 0 ∧ p'.line = 0 ∧ s'.col = p'.col ∧ p'.col ≤ w ∧
      (p'.col < w → s'.ac = p'.col) ∧ ∀ c, c < w → s'.ddram c = p'.cells 0 c := by
  obtain ⟨h1, h2, h3, h4, h5, h6, h7, h8⟩ := h
  obtain ⟨sw, sn, sd, sa, sc, sl⟩ := s
  obtain ⟨pc, pcol, pl⟩ := p
  simp only at h1 h2 h3 h4 h5 h6 h7 h8
  subst h1 h2 h3 h4 h5
  by_cases hc : ch = 10#8
  · simp [stWrite, stCursor, Page.write, Page.newline, hc]
    exact h8
  · by_cases q : sc = sw
    · subst q
      simp only [stWrite, stCursor, stRaw, Page.write, Page.newline, Page.put, hc, if_false, if_true,
        ge_iff_le, Nat.le_refl]
      refine ⟨trivial, trivial, trivial, trivial, trivial, by omega, fun _ => trivial, fun c hlt => ?_⟩
      by_cases r : c = 0
      · subst r; simp [Function.update]
      · simp [Function.update, r, h8 c hlt]
    · have q' : ¬ sw ≤ sc := by omega
      simp only [stWrite, stRaw, Page.write, Page.put, hc, q, q', if_false, ge_iff_le]
      have e := h7 (by omega)
      subst e
      refine ⟨trivial, trivial, trivial, trivial, trivial, by omega, fun _ => rfl, fun c hlt => ?_⟩
      by_cases r : c = sa
      · subst r; simp [Function.update]
      · simp [Function.update, r, h8 c hlt]

/-- C285: on a display of one line the ST7036 shows what a typewriter would have
written. -/
theorem C285_line_partial (w : Nat) (hw : 1 ≤ w) (text : List (BitVec 8)) (c : Nat) (hc : c < w) :
    stSeen (text.foldl stWrite ⟨w, 1, fun _ => 0x20#8, 0, 0, 0⟩) 0 c =
      (text.foldl (Page.write w 1) blank).cells 0 c := by
  have : ∀ (text : List (BitVec 8)) (s : St) (p : Page),
      (s.width = w ∧ s.count = 1 ∧ s.line = 0 ∧ p.line = 0 ∧ s.col = p.col ∧ p.col ≤ w ∧
      (p.col < w → s.ac = p.col) ∧ ∀ c, c < w → s.ddram c = p.cells 0 c) →
      ∀ c, c < w → (text.foldl stWrite s).ddram c = (text.foldl (Page.write w 1) p).cells 0 c := by
    intro text
    induction text with
    | nil => intro s p h c hc; exact h.2.2.2.2.2.2.2 c hc
    | cons x xs ih => intro s p h c hc; exact ih _ _ (st_step w hw s p x h) c hc
  have := this text ⟨w, 1, fun _ => 0x20#8, 0, 0, 0⟩ blank
    ⟨rfl, rfl, rfl, rfl, rfl, Nat.zero_le _, fun _ => rfl, fun _ _ => rfl⟩ c hc
  simpa [stSeen] using this

example : (([72#8, 105#8, 10#8, 33#8] : List (BitVec 8)).foldl (Page.write 8 1) blank).cells 0 0 = 33#8 ∧
    (([72#8, 105#8, 10#8, 33#8] : List (BitVec 8)).foldl (Page.write 8 1) blank).cells 0 1 = 105#8 := by
  decide +kernel

/-- C285, refuted: `setCursor` takes the line first, unlike its declaration and
all callers.  On a display of two lines the text after a line feed is written
into the first line, one column further. -/
theorem C285_newline_counterexample :
    let s := [72#8, 105#8, 10#8, 33#8].foldl stWrite ⟨16, 2, fun _ => 0x20#8, 0, 0, 0⟩
    stSeen s 0 0 = 72#8 ∧ stSeen s 0 1 = 33#8 ∧ stSeen s 1 0 = 0x20#8 ∧
      ([72#8, 105#8, 10#8, 33#8].foldl (Page.write 16 2) blank).cells 1 0 = 33#8 := by
  decide +kernel

end Props.CharDisplay
