import Verif.Model.Lis3dsh
/-!
C366, C367: the accelerometer LIS3DSH.
-/

set_option autoImplicit false

namespace Props.Lis3dsh
open Model.Lis3dsh

/-! ### Specification -/

/-- What a call asks of a control register that has the value `v`. -/
def ask (i : Nat) (v : BitVec 8) : Op → BitVec 8
  | .configure g r _ _ _ => if i = 0 then r ||| 0x07#8 else if i = 4 then g else if i = 5 then 0x10#8 else v
  | .update j set clear _ => if i = j.val then (v &&& ~~~clear) ||| set else v
  | .read _ _ => v

/-- What all calls together ask of a control register, from its default. -/
def asked (ops : List Op) (i : Nat) : BitVec 8 := ops.foldl (ask i) (if i = 0 then 7#8 else 0#8)

/-- Whether a call reached a control register; `none` if it is not about it. -/
def reached (i : Nat) : Op → Option Bool
  | .configure _ _ a b c => if i = 0 then some a else if i = 4 then some (a && b) else if i = 5 then some (a && b && c) else none
  | .update j _ _ ok => if i = j.val then some ok else none
  | .read _ _ => none

/-- Whether the last call about a control register reached it. -/
def settled (ops : List Op) (i : Nat) : Bool := ops.foldl (fun acc op => (reached i op).getD acc) true

/-- The full scale in g (data sheet): of the bits FSCALE. -/
def fullScale : Nat → Option Nat
  | 0 => some 2
  | 1 => some 4
  | 2 => some 6
  | 3 => some 8
  | 4 => some 16
  | _ => none

/-- The acceleration measured by the chip on an axis, in g/0x7FFF; the values are two bytes each, low byte first, behind STATUS. -/
def measured (ctrl5 : BitVec 8) (sample : Nat → BitVec 8) (axis : Nat) : Option Int :=
  (fullScale (ctrl5.toNat / 8 % 8)).map fun g => (sample (2 + 2 * axis) ++ sample (1 + 2 * axis)).toInt * (g : Int)

/-- Only scales that exist are given to `configure`. -/
def valid : Op → Prop
  | .configure g _ _ _ _ => g ∈ [0x00#8, 0x08#8, 0x10#8, 0x18#8, 0x20#8]
  | _ => True

/-! ### Control registers -/

theorem write_ctrl (s : State) (ok : Bool) (j : Nat) (v : BitVec 8) (i : Nat) :
    (write s ok j v).1.ctrl i = if ok = true ∧ i = j then v else s.ctrl i := by
  unfold write
  cases ok
  · simp
  · by_cases h : i = j
    · subst h; simp
    · simp [h]

theorem write_raw (s : State) (ok : Bool) (j : Nat) (v : BitVec 8) : (write s ok j v).1.raw = s.raw := by
  unfold write; cases ok <;> rfl

theorem write_scale (s : State) (ok : Bool) (j : Nat) (v : BitVec 8) : (write s ok j v).1.scale = s.scale := by
  unfold write; cases ok <;> rfl

theorem write_ok (s : State) (ok : Bool) (j : Nat) (v : BitVec 8) : (write s ok j v).2 = ok := by
  unfold write; cases ok <;> rfl

theorem step_raw (s : State) (op : Op) (i : Nat) (hi : i < 6) : (step s op).1.raw i = ask i (s.raw i) op := by
  cases op with
  | configure g r a b c =>
    have e : (step s (.configure g r a b c)).1.raw
        = Function.update (Function.update (Function.update s.raw 0 (r ||| 0x07#8)) 4 g) 5 0x10#8 := by
      simp only [step, configure, write_ok]
      cases a <;> cases b <;> simp [write_raw]
    rw [e]
    have : i = 0 ∨ i = 1 ∨ i = 2 ∨ i = 3 ∨ i = 4 ∨ i = 5 := by omega
    rcases this with rfl | rfl | rfl | rfl | rfl | rfl <;> simp [ask]
  | update j x y ok =>
    simp only [step, updateControlRegister, write_raw, ask]
    by_cases h : i = j.val
    · subst h; simp
    · simp [h]
  | read f ok =>
    cases ok
    · rfl
    · simp only [step, readAcceleration, ask, if_true]
      rw [if_neg (by omega)]

theorem step_ctrl (s : State) (op : Op) (i : Nat) :
    (step s op).1.ctrl i = if (reached i op).getD false then ask i (s.raw i) op else s.ctrl i := by
  cases op with
  | configure g r a b c =>
    simp only [step, configure, write_ok, reached, ask]
    by_cases h0 : i = 0
    · subst h0; cases a <;> cases b <;> simp [write_ctrl]
    · by_cases h4 : i = 4
      · subst h4; cases a <;> cases b <;> simp [write_ctrl]
      · by_cases h5 : i = 5
        · subst h5; cases a <;> cases b <;> simp [write_ctrl]
        · cases a <;> cases b <;> simp [write_ctrl, h0, h4, h5]
  | update j x y ok =>
    simp only [step, updateControlRegister, write_ctrl, reached, ask]
    by_cases h : i = j.val
    · subst h; cases ok <;> simp
    · simp [h]
  | read f ok => cases ok <;> rfl

/-- The copies are what was asked for; the register has it too if the last call about it reached it. -/
theorem run_ctrl (ops : List Op) (i : Nat) (hi : i < 6) : ∀ (s : State) (v : BitVec 8) (b : Bool),
    s.raw i = v → (b = true → s.ctrl i = v) →
    (run s ops).raw i = ops.foldl (ask i) v
    ∧ (ops.foldl (fun acc op => (reached i op).getD acc) b = true → (run s ops).ctrl i = ops.foldl (ask i) v) := by
  induction ops with
  | nil => intro s v b h1 h2; exact ⟨h1, h2⟩
  | cons op ops ih =>
    intro s v b h1 h2
    refine ih (step s op).1 (ask i v op) ((reached i op).getD b) (by rw [step_raw s op i hi, h1]) ?_
    intro hb
    rw [step_ctrl, h1]
    cases hr : reached i op with
    | none =>
      rw [hr] at hb
      have hv : ask i v op = v := by
        cases op with
        | configure g r x y z =>
          simp only [reached] at hr
          by_cases h0 : i = 0
          · simp [h0] at hr
          · by_cases h4 : i = 4
            · simp [h4] at hr
            · by_cases h5 : i = 5
              · simp [h5] at hr
              · simp [ask, h0, h4, h5]
        | update j x y ok =>
          simp only [reached] at hr
          by_cases h : i = j.val
          · simp [h] at hr
          · simp [ask, h]
        | read f ok => rfl
      rw [hv]
      simpa using h2 hb
    | some x =>
      rw [hr] at hb
      have : x = true := hb
      subst this
      rfl

/-- C366 (partial): after any calls, `getControl…` return what was asked for, and the register of the chip has this value if the
last call about it was successful.  Missing: after a failed call the register has another value than the one returned. -/
theorem C366_control_partial (ops : List Op) (i : Nat) (hi : i < 6) :
    getControl (run init ops) i = asked ops i ∧ (settled ops i = true → (run init ops).ctrl i = asked ops i) :=
  run_ctrl ops i hi init _ true rfl (fun _ => rfl)

example : settled [.configure 0x08#8 0x60#8 true true true, .update 4 0xC0#8 0#8 false, .update 3 0x88#8 0xff#8 true] 3 = true
    ∧ asked [.configure 0x08#8 0x60#8 true true true, .update 4 0xC0#8 0#8 false, .update 3 0x88#8 0xff#8 true] 3 = 0x88#8 := by decide

/-- C366 (false in general): a failed call changes the copy but not the register. -/
theorem C366_failed_counterexample :
    let s := run init [.configure 0x08#8 0x60#8 true true true, .update 4 0xC0#8 0#8 false]
    getControl s 4 = 0xC8#8 ∧ s.ctrl 4 = 0x08#8 := by decide +kernel

/-! ### Accelerations -/

theorem gOf_mask (v : BitVec 8) (g : Nat) (h : fullScale (v.toNat / 8 % 8) = some g) : (gOf ((v &&& 0x38#8) >>> 2)).toNat = g := by
  have key : ∀ n : Fin 256, ∀ g ∈ fullScale ((BitVec.ofFin (w := 8) n).toNat / 8 % 8),
      (gOf ((BitVec.ofFin (w := 8) n &&& 0x38#8) >>> 2)).toNat = g := by decide +kernel
  exact key v.toFin g h

theorem gOf_plain (v : BitVec 8) (h : v ∈ [0x00#8, 0x08#8, 0x10#8, 0x18#8, 0x20#8]) : gOf (v >>> 2) = gOf ((v &&& 0x38#8) >>> 2) := by
  simp only [List.mem_cons, List.not_mem_nil, or_false] at h
  rcases h with rfl | rfl | rfl | rfl | rfl <;> decide

theorem step_scale (s : State) (op : Op) (hv : valid op) (h : s.scale = gOf ((s.raw 4 &&& 0x38#8) >>> 2)) :
    (step s op).1.scale = gOf (((step s op).1.raw 4 &&& 0x38#8) >>> 2) := by
  cases op with
  | configure g r a b c =>
    have e : (step s (.configure g r a b c)).1.scale = gOf (g >>> 2) := by
      simp only [step, configure, write_ok]
      cases a <;> cases b <;> simp [write_scale]
    rw [e, step_raw _ _ 4 (by omega)]
    simpa [ask] using gOf_plain g hv
  | update j x y ok =>
    by_cases hj : j.val = 4
    · simp only [step, updateControlRegister, write_scale, write_raw]
      rw [if_pos hj]
    · have e : (step s (.update j x y ok)).1.scale = s.scale := by
        simp only [step, updateControlRegister, write_scale]
        rw [if_neg hj]
      rw [e, step_raw _ _ 4 (by omega), h]
      have : ¬ 4 = j.val := fun q => hj q.symm
      simp [ask, this]
  | read f ok =>
    rw [step_raw _ _ 4 (by omega)]
    cases ok <;> exact h

theorem run_scale (ops : List Op) : ∀ (s : State), (∀ op ∈ ops, valid op) → s.scale = gOf ((s.raw 4 &&& 0x38#8) >>> 2) →
    (run s ops).scale = gOf (((run s ops).raw 4 &&& 0x38#8) >>> 2) := by
  induction ops with
  | nil => intro s _ h; exact h
  | cons op ops ih =>
    intro s hv h
    exact ih _ (fun o ho => hv o (List.mem_cons_of_mem _ ho)) (step_scale s op (hv op List.mem_cons_self) h)

/-- C367 (partial): after any calls, if `readAcceleration()` returns true, `getX()`, `getY()` and `getZ()` are the accelerations
measured by the chip with its full scale, if the last call about control register 5 was successful, ADD_INC is set in the chip
and FSCALE has a value that exists.  Missing: failed calls and calls that clear ADD_INC. -/
theorem C367_acceleration_partial (ops : List Op) (hv : ∀ op ∈ ops, valid op) (sample : Nat → BitVec 8) (ok : Bool)
    (hs : settled ops 4 = true) (hinc : ((run init ops).ctrl 5).getLsbD 4 = true)
    (hr : (readAcceleration (run init ops) sample ok).2 = true) (axis : Nat) (ha : axis < 3) (x : Int)
    (hx : measured ((run init ops).ctrl 4) sample axis = some x) :
    getAxis (readAcceleration (run init ops) sample ok).1 axis = x := by
  obtain ⟨h1, h2⟩ := C366_control_partial ops 4 (by omega)
  have hc : (run init ops).ctrl 4 = (run init ops).raw 4 := by rw [h2 hs]; exact h1.symm
  have hsc := run_scale ops init hv (by decide)
  have hok : ok = true := by cases ok; · simp [readAcceleration] at hr
                             · rfl
  subst hok
  unfold measured at hx
  cases hf : fullScale (((run init ops).ctrl 4).toNat / 8 % 8) with
  | none => rw [hf] at hx; simp at hx
  | some g =>
    rw [hf] at hx
    replace hx := Option.some.inj hx
    rw [hc] at hf
    have hg := gOf_mask _ g hf
    unfold getAxis getData
    simp only [readAcceleration, if_true, reply, hinc]
    rw [if_pos (by omega), if_pos (by omega), if_pos (by omega), if_pos (by omega), hsc, hg, ← hx]
    congr 3 <;> congr 1 <;> omega

example : (∀ op ∈ [Op.configure 0x18#8 0x60#8 true true true, .update 4 0xC0#8 0#8 true], valid op)
    ∧ settled [.configure 0x18#8 0x60#8 true true true, .update 4 0xC0#8 0#8 true] 4 = true
    ∧ ((run init [.configure 0x18#8 0x60#8 true true true, .update 4 0xC0#8 0#8 true]).ctrl 5).getLsbD 4 = true
    ∧ measured ((run init [.configure 0x18#8 0x60#8 true true true, .update 4 0xC0#8 0#8 true]).ctrl 4) (fun k => if k = 2 then 0xff#8 else 0xfe#8) 0
      = some (-16) := by
  refine ⟨?_, by decide +kernel, by decide +kernel, by decide +kernel⟩
  intro op h
  simp only [List.mem_cons, List.not_mem_nil, or_false] at h
  rcases h with rfl | rfl
  · show _ ∈ _; decide
  · trivial

/-- C367 (false in general): if changing the scale failed, accelerations are multiplied by the new one: here 1 g is 8 g. -/
theorem C367_failed_counterexample :
    let s := run init [.configure 0x00#8 0x60#8 true true true, .configure 0x20#8 0x60#8 true false true]
    let sample : Nat → BitVec 8 := fun k => if k = 2 then 0x40#8 else 0#8
    (readAcceleration s sample true).2 = true ∧ getAxis (readAcceleration s sample true).1 0 = 16384 * 16
    ∧ measured (s.ctrl 4) sample 0 = some (16384 * 2) := by decide +kernel

/-- C367 (false in general): `updateControl(Control6::FIFO_EN)` clears ADD_INC by default; then STATUS is taken for accelerations. -/
theorem C367_increment_counterexample :
    let s := run init [.configure 0x00#8 0x60#8 true true true, .update 5 0x40#8 0xff#8 true]
    let sample : Nat → BitVec 8 := fun k => if k = 0 then 0x0f#8 else 0#8
    (readAcceleration s sample true).2 = true ∧ getAxis (readAcceleration s sample true).1 0 = 0x0f0f * 2
    ∧ measured (s.ctrl 4) sample 0 = some 0 := by decide +kernel

end Props.Lis3dsh
