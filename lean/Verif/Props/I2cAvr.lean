import Verif.Spec.I2cMaster
import Verif.Lemmas.I2cMaster
import Verif.Model.I2cAvr

/-! # Properties of the I²C master of AVRs -/

set_option autoImplicit false

namespace Props.I2cAvr

open Modm.I2c Modm.Spec.I2c Modm.I2cAvr I2cMasterSpec

variable {α τ : Type} (A : App α) (T : Transaction τ)

/-- After some interrupts of `s` everything goes on as from `s'`. -/
def Reaches (s s' : St α τ) : Prop := ∃ n, ∀ m, run A T (n + m) s = run A T m s'

variable {A T}

theorem Reaches.refl (s : St α τ) : Reaches A T s s := ⟨0, fun m => by rw [Nat.zero_add]⟩

theorem Reaches.trans {s s' s'' : St α τ} (h : Reaches A T s s') (h' : Reaches A T s' s'') : Reaches A T s s'' := by
  obtain ⟨n, hn⟩ := h
  obtain ⟨n', hn'⟩ := h'
  exact ⟨n + n', fun m => by rw [Nat.add_assoc, hn, hn']⟩

theorem Reaches.step {s s' : St α τ} (h : s.int = true) (h' : isr A T s = some s') : Reaches A T s s' :=
  ⟨1, fun m => by rw [Nat.add_comm, run, if_pos h, h', Option.bind_some]⟩

/-- Two states with the same next interrupt. -/
theorem Reaches.same {s s1 s' : St α τ} (h : s.int = true) (e : isr A T s = isr A T s1)
    (h' : ∃ x, isr A T s1 = some x) (hr : ∀ x, isr A T s1 = some x → Reaches A T x s') : Reaches A T s s' := by
  obtain ⟨x, hx⟩ := h'
  exact (Reaches.step h (e.trans hx)).trans (hr x hx)

variable (A T)

/-- In the middle of a transaction. -/
structure Mid (s : St α τ) (t : τ) (app : α) (mem : Nat → Byte) : Prop where
  owned : s.owned = true
  attached : s.attached = true
  error : s.error = .noError
  trans : s.trans = t
  app : s.app = app
  mem : s.mem = mem

/-- A transaction is over. -/
structure Over (s : St α τ) (r : Result α τ) : Prop where
  int : s.int = false
  owned : s.owned = false
  attached : s.attached = false
  error : s.error = r.error
  trans : s.trans = r.trans
  app : s.app = r.app
  mem : s.mem = r.mem

/-- What the state means. -/
def Corr : Next → τ → α → (Nat → Byte) → St α τ → Prop
  | .stop, t, app, mem, s => s.int = true ∧ ∃ s0, Mid s0 t app mem ∧ isr A T s = detach T (twcr A false true false false s0)
  | .restart, t, app, mem, s => s.int = true ∧ ∃ s0, Mid s0 t app mem ∧ isr A T s = some (twcr A true false false true s0)
  | .write w, t, app, mem, s => s.int = true ∧ Mid s t app mem ∧ (s.status = .mtSlaAck ∨ s.status = .mtDataAck) ∧ s.wbuf = w.buffer ∧
      s.wlen = lengthOf w.buffer w.length ∧ s.next = w.next ∧ w.length < 2 ^ 16 ∧ w.next ≠ .read
  | .read r, t, app, mem, s => s.int = true ∧ Mid s t app mem ∧ s.status = .mrSlaAck ∧ s.rbuf = r.buffer ∧
      s.rlen = lengthOf r.buffer r.length ∧ s.next = r.next ∧ r.length < 2 ^ 16 ∧ r.next ≠ .read ∧ r.next ≠ .write

variable {A T}

theorem isr_written (s : St α τ) (h : s.status = .mtSlaAck ∨ s.status = .mtDataAck) : isr A T s = onWritten A T s := by
  rcases h with h | h <;> simp only [isr, h]

theorem twcr_write (s : St α τ) (h : s.status = .mtSlaAck ∨ s.status = .mtDataAck) :
    twcr A false false false true s =
      { s with app := (A.write s.dr s.app).2, int := true, status := if (A.write s.dr s.app).1 then .mtDataAck else .mtDataNack } := by
  rcases h with h | h <;> simp [twcr, h]

theorem twcr_read (s : St α τ) (ea : Bool) (h : s.status = .mrSlaAck ∨ s.status = .mrDataAck) :
    twcr A false false ea true s =
      { s with app := A.acked ea (A.read s.app).2, dr := (A.read s.app).1, int := true, status := if ea then .mrDataAck else .mrDataNack } := by
  rcases h with h | h <;> simp [twcr, h]

theorem twcr_start (s : St α τ) (h : s.status = .start ∨ s.status = .repStart) :
    twcr A false false false true s =
      { s with app := (A.address s.dr s.app).2, int := true, status := (if s.dr.getLsbD 0 then (if (A.address s.dr s.app).1 then .mrSlaAck else .mrSlaNack) else (if (A.address s.dr s.app).1 then .mtSlaAck else .mtSlaNack)) } := by
  rcases h with h | h <;> simp [twcr, h]

/-- A byte has been written. -/
def wrote (A : App α) (s : St α τ) (p l : Nat) : St α τ :=
  { s with dr := s.mem p, wbuf := some (p + 1), wlen := l, app := (A.write (s.mem p) s.app).2, int := true, status := (if (A.write (s.mem p) s.app).1 then .mtDataAck else .mtDataNack) }

/-- The bytes of a buffer are written. -/
theorem write_loop (l : Nat) : ∀ (s : St α τ) (p : Nat) (t : τ) (app : α) (mem : Nat → Byte), s.int = true → Mid s t app mem →
    (s.status = .mtSlaAck ∨ s.status = .mtDataAck) → s.wlen = l → l < 65536 → (l ≠ 0 → s.wbuf = some p) →
    ∃ s', Reaches A T s s' ∧ s'.int = true ∧ Mid s' t (writes A ((List.range l).map fun i => mem (p + i)) app).2 mem ∧ s'.next = s.next ∧
      (if (writes A ((List.range l).map fun i => mem (p + i)) app).1 then (s'.status = .mtSlaAck ∨ s'.status = .mtDataAck) ∧ s'.wlen = 0
       else s'.status = .mtDataNack) := by
  induction l with
  | zero =>
      intro s p t app mem hi hm hs hl _ _
      exact ⟨s, Reaches.refl s, hi, by simpa [writes] using hm, rfl, by simpa [writes] using ⟨hs, hl⟩⟩
  | succ l ih =>
      intro s p t app mem hi hm hs hl h6 hb
      have hb := hb (by omega)
      have e : isr A T s = some (wrote A s p l) := by
        rw [isr_written s hs, onWritten, if_pos (by omega), writeByte, hb]
        simp only
        have hk : (s.wlen + 65535) % 65536 = l := by omega
        rw [hk]
        exact congrArg some (twcr_write { s with dr := s.mem p, wbuf := some (p + 1), wlen := l } hs)
      have hr := Reaches.step hi e
      have hlist : (List.range (l + 1)).map (fun i => mem (p + i)) = mem p :: (List.range l).map fun i => mem (p + 1 + i) := by
        rw [List.range_succ_eq_map, List.map_cons, List.map_map]
        congr 1
        apply List.map_congr_left
        intro i _
        simp only [Function.comp]
        congr 1
        omega
      rw [hlist]
      obtain ⟨m1, m2, m3, m4, m5, m6⟩ := hm
      by_cases hw : (A.write (mem p) app).1 = true
      · obtain ⟨s', r', i', k1, k2, k3⟩ := ih (wrote A s p l) (p + 1) t (A.write (mem p) app).2 mem
          rfl ⟨m1, m2, m3, m4, by simp only [wrote, m6, m5], m6⟩ (by right; simp only [wrote, m6, m5, hw, if_true]) rfl (by omega) (fun _ => rfl)
        refine ⟨s', hr.trans r', i', ?_, k2, ?_⟩
        · simpa only [writes, hw, if_true] using k1
        · simpa only [writes, hw, if_true] using k3
      · have hw : (A.write (mem p) app).1 = false := by simpa using hw
        refine ⟨_, hr, rfl, ?_, rfl, ?_⟩
        · simp only [writes, hw]
          exact ⟨m1, m2, m3, m4, by simp [wrote, m6, m5], m6⟩
        · simp [writes, wrote, hw, m6, m5]

theorem stored_cons (mem : Nat → Byte) (p : Nat) (b : Byte) (r : List Byte) :
    stored mem p (b :: r) = stored (Function.update mem p b) (p + 1) r := by
  funext a
  unfold stored
  by_cases h : p + 1 ≤ a
  · rw [if_pos (by omega), if_pos h]
    obtain ⟨d, rfl⟩ := Nat.exists_eq_add_of_le h
    rw [show p + 1 + d - p = d + 1 by omega, show p + 1 + d - (p + 1) = d by omega, List.getD_cons_succ,
      Function.update_of_ne (by omega)]
  · rw [if_neg h]
    by_cases h' : p ≤ a
    · have : a = p := by omega
      subst this
      simp
    · rw [if_neg h', Function.update_of_ne (by omega)]

theorem stored_nil (mem : Nat → Byte) (p : Nat) : stored mem p [] = mem := by
  funext a
  simp [stored]

/-- The bytes are read, up to the interrupt after the last one. -/
theorem read_loop (l : Nat) : ∀ (s : St α τ) (p : Nat) (t : τ) (app : α) (mem : Nat → Byte), Mid s t app mem →
    s.rlen = l + 1 → l + 1 < 65536 → s.rbuf = some p → (s.status = .mrSlaAck ∨ s.status = .mrDataAck) →
    ∃ s', Reaches A T (receive A s) s' ∧ s'.int = true ∧ s'.status = .mrDataNack ∧
      ∃ s'', store s' = some s'' ∧ s''.next = s.next ∧ Mid s'' t (readN A (l + 1) app).2 (stored mem p (readN A (l + 1) app).1) := by
  induction l with
  | zero =>
      intro s p t app mem hm hl _ hb hs
      obtain ⟨m1, m2, m3, m4, m5, m6⟩ := hm
      refine ⟨_, Reaches.refl _, ?_⟩
      rw [receive, if_neg (by omega), twcr_read s false hs]
      refine ⟨rfl, rfl, ?_⟩
      simp only [store, hb]
      refine ⟨_, rfl, rfl, m1, m2, m3, m4, ?_, ?_⟩
      · simp [readN, m5]
      · simp only [readN, stored_cons, stored_nil, m5, m6]
  | succ l ih =>
      intro s p t app mem hm hl h6 hb hs
      obtain ⟨m1, m2, m3, m4, m5, m6⟩ := hm
      have e0 : receive A s = { s with app := A.acked true (A.read s.app).2, dr := (A.read s.app).1, int := true, status := .mrDataAck } := by
        rw [receive, if_pos (by omega), twcr_read s true hs]
        rfl
      have hst : store (receive A s) = some { receive A s with mem := Function.update s.mem p (A.read s.app).1, rbuf := some (p + 1), rlen := l + 1 } := by
        rw [e0]
        simp only [store, hb]
        have : (s.rlen + 65535) % 65536 = l + 1 := by omega
        rw [this]
      have hisr : isr A T (receive A s) = some (receive A { receive A s with mem := Function.update s.mem p (A.read s.app).1, rbuf := some (p + 1), rlen := l + 1 }) := by
        have h1 : (receive A s).status = .mrDataAck := by rw [e0]
        have h2 : isr A T (receive A s) = (store (receive A s)).map (receive A) := by
          unfold isr
          rw [h1]
        rw [h2, hst]
        rfl
      have hi : (receive A s).int = true := by rw [e0]
      obtain ⟨s', r', i', k1, s'', k2, k3, k4⟩ := ih { receive A s with mem := Function.update s.mem p (A.read s.app).1, rbuf := some (p + 1), rlen := l + 1 }
        (p + 1) t (A.acked true (A.read app).2) (Function.update mem p (A.read app).1)
        ⟨by rw [e0]; exact m1, by rw [e0]; exact m2, by rw [e0]; exact m3, by rw [e0]; exact m4, by rw [e0, m5], by simp only [m6, m5]⟩
        rfl (by omega) rfl (by right; rw [e0])
      refine ⟨s', (Reaches.step hi hisr).trans r', i', k1, s'', k2, ?_, ?_⟩
      · rw [k3, e0]
      · have e1 : readN A (l + 1 + 1) app = ((A.read app).1 :: (readN A (l + 1) (A.acked true (A.read app).2)).1, (readN A (l + 1) (A.acked true (A.read app).2)).2) := by
          rw [readN]
          simp
        rw [e1, stored_cons]
        exact k4

/-- The address is not acknowledged, or a byte is not. -/
theorem nack_over (s : St α τ) (t : τ) (app : α) (mem : Nat → Byte) (hm : Mid s t app mem)
    (e : Error) (hs : isr A T s = some (fail T e (twcr A false true false false s))) (hi : s.int = true) :
    ∃ s', Reaches A T s s' ∧ Over s' ⟨e, T.detaching .errorCondition t, A.stop app, mem⟩ := by
  obtain ⟨m1, m2, m3, m4, m5, m6⟩ := hm
  refine ⟨_, Reaches.step hi hs, ?_⟩
  simp only [fail, twcr, twcrOff, if_true]
  exact ⟨rfl, rfl, rfl, by simp [m3], by simp [m2, m4], by simp [m5], m6⟩

theorem dir_bit (a : Byte) (b : Bool) : (((if b then 1 else 0) ||| (a &&& 0xfe)) : Byte).getLsbD 0 = b := by
  have h : (a &&& 0xfe).getLsbD 0 = false := by
    rw [BitVec.getLsbD_and]
    simp
  rw [BitVec.getLsbD_or, h]
  cases b <;> rfl

/-- From a START condition to the acknowledge of the address. -/
theorem start_phase {I : τ → Prop} (hT : Typed T I 16) (s : St α τ) (t : τ) (app : α) (mem : Nat → Byte) (hI : I t)
    (hm : Mid s t (A.start app) mem) (hi : s.int = true) (hs : s.status = .start ∨ s.status = .repStart) :
    let st := T.starting t
    let f := fetch T st.1.next st.2
    let x := A.address (addressByte st.1) (A.start app)
    if x.1 then ∃ s', Reaches A T s s' ∧ Corr A T f.1 f.2 x.2 mem s'
    else ∃ s', Reaches A T s s' ∧ Over s' ⟨.addressNack, T.detaching .errorCondition f.2, A.stop x.2, mem⟩ := by
  obtain ⟨m1, m2, m3, m4, m5, m6⟩ := hm
  have e0 : isr A T s = onStart A T s := by rcases hs with h | h <;> simp only [isr, h]
  have hne := (hT.starting t hI).1
  have hI2 := (hT.starting t hI).2
  intro st f x
  have hadr : ((if st.1.next = .read then 1 else 0) ||| (st.1.address &&& 0xfe) : Byte) = addressByte st.1 := by
    rw [addressByte, BitVec.or_comm]
  have tw : ∀ s1 : St α τ, (s1.status = .start ∨ s1.status = .repStart) → s1.dr = addressByte st.1 → s1.app = A.start app →
      twcr A false false false true s1 = { s1 with app := x.2, int := true, status := (if decide (st.1.next = .read) then (if x.1 then .mrSlaAck else .mrSlaNack)
                         else (if x.1 then .mtSlaAck else .mtSlaNack)) } := by
    intro s1 h1 h2 h3
    have hb : s1.dr.getLsbD 0 = decide (st.1.next = .read) := by
      rw [h2, ← hadr]
      have := dir_bit st.1.address (decide (st.1.next = .read))
      simpa only [decide_eq_true_eq] using this
    have hx : A.address s1.dr s1.app = x := by rw [h2, h3]
    rw [twcr_start s1 h1, hx, hb]
  cases hop : st.1.next with
  | restart => exact absurd hop hne
  | read =>
      have hf : f = (.read (T.reading st.2).1, (T.reading st.2).2) := by
        show fetch T st.1.next st.2 = _
        rw [hop]
        rfl
      have e1 : isr A T s = some { fetchReading T { s with trans := st.2 } with dr := addressByte st.1, app := x.2, int := true, status := (if x.1 then .mrSlaAck else .mrSlaNack) } := by
        rw [e0, onStart, if_pos m2, m4]
        simp only
        rw [show (T.starting t) = st from rfl, hadr, hop]
        simp only
        rw [tw]
        · simp only [hop, decide_true, if_true]
        · exact hs
        · rfl
        · exact m5
      split
      · rename_i hx
        refine ⟨_, Reaches.step hi e1, ?_⟩
        rw [hf]
        exact ⟨rfl, ⟨m1, m2, m3, rfl, rfl, m6⟩, by simp only [hx, if_true], rfl, rfl, rfl, (hT.reading _ hI2).2.2.1, (hT.reading _ hI2).1, (hT.reading _ hI2).2.1⟩
      · rename_i hx
        obtain ⟨s', r', o'⟩ := nack_over (A := A) (T := T) { fetchReading T { s with trans := st.2 } with dr := addressByte st.1, app := x.2, int := true, status := (if x.1 then .mrSlaAck else .mrSlaNack) }
          f.2 x.2 mem ⟨m1, m2, m3, by rw [hf]; rfl, rfl, m6⟩ .addressNack (by simp only [hx]; rfl) rfl
        exact ⟨s', (Reaches.step hi e1).trans r', o'⟩
  | write =>
      have hf : f = (.write (T.writing st.2).1, (T.writing st.2).2) := by
        show fetch T st.1.next st.2 = _
        rw [hop]
        rfl
      have e1 : isr A T s = some { fetchWriting T { s with trans := st.2 } with dr := addressByte st.1, app := x.2, int := true, status := (if x.1 then .mtSlaAck else .mtSlaNack) } := by
        rw [e0, onStart, if_pos m2, m4]
        simp only
        rw [show (T.starting t) = st from rfl, hadr, hop]
        simp only
        rw [tw]
        · simp [hop]
        · exact hs
        · rfl
        · exact m5
      split
      · rename_i hx
        refine ⟨_, Reaches.step hi e1, ?_⟩
        rw [hf]
        exact ⟨rfl, ⟨m1, m2, m3, rfl, rfl, m6⟩, by simp only [hx, if_true]; simp, rfl, rfl, rfl, (hT.writing _ hI2).2.1, (hT.writing _ hI2).1⟩
      · rename_i hx
        obtain ⟨s', r', o'⟩ := nack_over (A := A) (T := T) { fetchWriting T { s with trans := st.2 } with dr := addressByte st.1, app := x.2, int := true, status := (if x.1 then .mtSlaAck else .mtSlaNack) }
          f.2 x.2 mem ⟨m1, m2, m3, by rw [hf]; rfl, rfl, m6⟩ .addressNack (by simp only [hx]; rfl) rfl
        exact ⟨s', (Reaches.step hi e1).trans r', o'⟩
  | stop =>
      have hf : f = (.stop, st.2) := by
        show fetch T st.1.next st.2 = _
        rw [hop]
        rfl
      have e1 : isr A T s = some { s with trans := st.2, wlen := 0, rlen := 0, next := .stop, dr := addressByte st.1, app := x.2, int := true, status := (if x.1 then .mtSlaAck else .mtSlaNack) } := by
        rw [e0, onStart, if_pos m2, m4]
        simp only
        rw [show (T.starting t) = st from rfl, hadr, hop]
        simp only
        rw [tw]
        · simp [hop]
        · exact hs
        · rfl
        · exact m5
      split
      · rename_i hx
        refine ⟨_, Reaches.step hi e1, ?_⟩
        rw [hf]
        refine ⟨rfl, { s with trans := st.2, wlen := 0, rlen := 0, next := .stop, dr := addressByte st.1, app := x.2, int := true, status := (if x.1 then .mtSlaAck else .mtSlaNack) },
          ⟨m1, m2, m3, rfl, rfl, m6⟩, ?_⟩
        rw [isr_written _ (by left; simp only [hx, if_true])]
        rfl
      · rename_i hx
        obtain ⟨s', r', o'⟩ := nack_over (A := A) (T := T) { s with trans := st.2, wlen := 0, rlen := 0, next := .stop, dr := addressByte st.1, app := x.2, int := true, status := (if x.1 then .mtSlaAck else .mtSlaNack) }
          f.2 x.2 mem ⟨m1, m2, m3, by rw [hf], rfl, m6⟩ .addressNack (by simp only [hx]; rfl) rfl
        exact ⟨s', (Reaches.step hi e1).trans r', o'⟩

theorem run_idle (s : St α τ) (h : s.int = false) (m : Nat) : run A T m s = some s := by
  cases m with
  | zero => rfl
  | succ m => rw [run, if_neg (by simp [h])]

theorem Reaches.twin {s s1 s' : St α τ} (h : s.int = true) (h1 : s1.int = true) (e : isr A T s = isr A T s1)
    (hr : Reaches A T s1 s') (hs : s'.int = false) : Reaches A T s s' := by
  obtain ⟨n, hn⟩ := hr
  refine ⟨n + 1, fun m => ?_⟩
  have h2 := hn (m + 1)
  rw [← Nat.add_assoc, run, if_pos h1, run_idle s' hs] at h2
  rw [show n + 1 + m = n + m + 1 by omega, run, if_pos h, e, h2, run_idle s' hs]

theorem bytesOf_lengthOf (mem : Nat → Byte) (b : Option Nat) (l : Nat) :
    bytesOf mem b l = (List.range (lengthOf b l)).map fun i => mem (b.getD 0 + i) := by
  cases b <;> simp [bytesOf, lengthOf]

theorem Typed.fetch {I : τ → Prop} (hT : Typed T I 16) (op : Operation) (t : τ) (h : I t) : I (fetch T op t).2 := by
  cases op
  · exact h
  · exact h
  · exact (hT.writing t h).2.2
  · exact (hT.reading t h).2.2.2

/-- A transaction goes on as it should, from any point. -/
theorem refine_ideal {I : τ → Prop} (hT : Typed T I 16) (k : Nat) : ∀ (nxt : Next) (t : τ) (app : α) (mem : Nat → Byte) (r : Result α τ) (s : St α τ),
    I t → Corr A T nxt t app mem s → ideal A T k nxt t app mem = some (true, r) → ∃ s', Reaches A T s s' ∧ Over s' r := by
  induction k with
  | zero =>
      intro nxt t app mem r s _ _ h
      cases nxt <;> simp [ideal] at h
  | succ k ih =>
      intro nxt t app mem r s hI hc h
      cases nxt with
      | stop =>
          obtain ⟨hi, s0, ⟨m1, m2, m3, m4, m5, m6⟩, he⟩ := hc
          simp only [ideal, Option.some.injEq, Prod.mk.injEq, true_and] at h
          subst h
          have e : isr A T s = some { twcr A false true false false s0 with trans := T.detaching .normalStop s0.trans, attached := false } := by
            rw [he, detach]
            simp [twcr, m2]
          refine ⟨_, Reaches.step hi e, ?_⟩
          exact ⟨rfl, rfl, rfl, m3, by simp [m4], by simp [twcr, m5], m6⟩
      | restart =>
          obtain ⟨hi, s0, ⟨m1, m2, m3, m4, m5, m6⟩, he⟩ := hc
          have hph := start_phase (A := A) hT (twcr A true false false true s0) t app mem hI
            ⟨rfl, m2, m3, m4, by simp [twcr, m5], m6⟩ rfl (by right; simp [twcr, m1])
          simp only [ideal] at h
          simp only at hph
          split at h
          · rename_i hx
            rw [if_pos hx] at hph
            obtain ⟨s', r', c'⟩ := hph
            obtain ⟨s'', r'', o''⟩ := ih _ _ _ _ _ _ (Typed.fetch hT _ _ (hT.starting t hI).2) c' h
            exact ⟨s'', (Reaches.step hi he).trans (r'.trans r''), o''⟩
          · rename_i hx
            rw [if_neg hx] at hph
            obtain ⟨s', r', o'⟩ := hph
            simp only [Option.some.injEq, Prod.mk.injEq, true_and] at h
            subst h
            exact ⟨s', (Reaches.step hi he).trans r', o'⟩
      | write w =>
          obtain ⟨hi, hm, hs, hb, hl, hn, hlt, hnr⟩ := hc
          have hlen : lengthOf w.buffer w.length < 65536 := by
            have : lengthOf w.buffer w.length ≤ w.length := by cases w.buffer <;> simp [lengthOf]
            omega
          obtain ⟨s1, r1, i1, m1, n1, c1⟩ := write_loop (T := T) (lengthOf w.buffer w.length) s (w.buffer.getD 0) t app mem hi hm hs hl hlen
            (by
              intro h0
              rw [hb]
              cases hwb : w.buffer with
              | none => rw [hwb] at h0; exact absurd rfl h0
              | some p => rfl)
          rw [← bytesOf_lengthOf] at m1 c1
          simp only [ideal] at h
          split at h
          · rename_i hx
            rw [if_pos hx] at c1
            obtain ⟨st1, l1⟩ := c1
            obtain ⟨⟨b, r'⟩, h1, h2⟩ := Option.map_eq_some_iff.mp h
            simp only [Prod.mk.injEq, Bool.and_eq_true] at h2
            obtain ⟨⟨h3, h4⟩, h5⟩ := h2
            subst h4 h5
            have hisr : isr A T s1 = onWritten A T s1 := isr_written s1 st1
            rw [hn] at n1
            cases hop : w.next with
            | read => exact absurd hop hnr
            | stop =>
                rw [hop] at h1 n1
                obtain ⟨s2, r2, o2⟩ := ih .stop t _ mem r' s1 hI ⟨i1, s1, m1, by rw [hisr, onWritten, if_neg (by omega), n1]⟩ h1
                exact ⟨s2, r1.trans r2, o2⟩
            | restart =>
                rw [hop] at h1 n1
                obtain ⟨s2, r2, o2⟩ := ih .restart t _ mem r' s1 hI ⟨i1, s1, m1, by rw [hisr, onWritten, if_neg (by omega), n1]⟩ h1
                exact ⟨s2, r1.trans r2, o2⟩
            | write =>
                rw [hop] at h1 h3 n1
                obtain ⟨q1, q2, q3, q4, q5, q6⟩ := m1
                simp only [fetch, decide_eq_true_eq] at h3
                have hne : lengthOf (T.writing t).1.buffer (T.writing t).1.length > 0 := by
                  rw [bytesOf_lengthOf] at h3
                  rcases Nat.eq_zero_or_pos (lengthOf (T.writing t).1.buffer (T.writing t).1.length) with h0 | h0
                  · rw [h0] at h3
                    exact absurd rfl h3
                  · exact h0
                have hc2 : Corr A T (.write (T.writing t).1) (T.writing t).2 (writes A (bytesOf mem w.buffer w.length) app).2 mem (fetchWriting T s1) :=
                  ⟨i1, ⟨q1, q2, q3, by simp [fetchWriting, q4], q5, q6⟩, st1, by simp [fetchWriting, q4], by simp [fetchWriting, q4],
                    by simp [fetchWriting, q4], (hT.writing t hI).2.1, (hT.writing t hI).1⟩
                obtain ⟨s2, r2, o2⟩ := ih _ _ _ _ _ _ (hT.writing t hI).2.2 hc2 h1
                refine ⟨s2, r1.trans (Reaches.twin i1 hc2.1 ?_ r2 o2.int), o2⟩
                have e2 : onWritten A T (fetchWriting T s1) = writeByte A (fetchWriting T s1) := by
                  rw [onWritten, if_pos (by simpa [fetchWriting, q4] using hne)]
                rw [hisr, isr_written (fetchWriting T s1) st1, e2, onWritten, if_neg (by omega), n1]
                simp only
                rw [if_pos q2]
          · rename_i hx
            rw [if_neg hx] at c1
            simp only [Option.some.injEq, Prod.mk.injEq, true_and] at h
            subst h
            obtain ⟨s2, r2, o2⟩ := nack_over s1 t _ mem m1 .dataNack (by simp only [isr, c1]) i1
            exact ⟨s2, r1.trans r2, o2⟩
      | read q =>
          obtain ⟨hi, hm, hs, hb, hl, hn, hlt, hnr, hnw⟩ := hc
          simp only [ideal] at h
          split at h
          · obtain ⟨⟨b, r'⟩, h1, h2⟩ := Option.map_eq_some_iff.mp h
            simp at h2
          · rename_i p hp
            obtain ⟨⟨b, r'⟩, h1, h2⟩ := Option.map_eq_some_iff.mp h
            simp only [Prod.mk.injEq, Bool.and_eq_true, decide_eq_true_eq] at h2
            obtain ⟨⟨h3, h4⟩, h5⟩ := h2
            subst h4 h5
            obtain ⟨l, hlq⟩ := Nat.exists_eq_succ_of_ne_zero h3
            obtain ⟨s1, r1, i1, st1, s2, c2, n2, m2⟩ := read_loop (T := T) l s p t app mem hm (by rw [hl, hp]; exact hlq) (by omega) (by rw [hb, hp]) (Or.inl hs)
            have e : isr A T s = some (receive A s) := by
              unfold isr
              rw [hs]
            have e1 : isr A T s1 = (match s2.next with
                | .restart => some (twcr A true false false true s2)
                | _ => detach T (twcr A false true false false s2)) := by
              unfold isr
              rw [st1]
              simp only [onLast, c2]
              rfl
            rw [← Nat.succ_eq_add_one, ← hlq] at m2
            rw [n2, hn] at e1
            cases hop : q.next with
            | read => exact absurd hop hnr
            | write => exact absurd hop hnw
            | stop =>
                rw [hop] at h1 e1
                obtain ⟨s3, r3, o3⟩ := ih .stop t _ _ r' s1 hI ⟨i1, s2, m2, e1⟩ h1
                exact ⟨s3, ((Reaches.step hi e).trans r1).trans r3, o3⟩
            | restart =>
                rw [hop] at h1 e1
                obtain ⟨s3, r3, o3⟩ := ih .restart t _ _ r' s1 hI ⟨i1, s2, m2, e1⟩ h1
                exact ⟨s3, ((Reaches.step hi e).trans r1).trans r3, o3⟩

/-! ## C221: the transaction of any object -/

/-- For any object (of the types of the interface) and any devices: `start` begins a transaction, and the interrupts carry it out. -/
theorem C221_any_partial {I : τ → Prop} (hT : Typed T I 16) (k : Nat) (t : τ) (hI : I (T.attaching t).2) (s : St α τ) (ha : s.attached = false) (ho : s.owned = false)
    (ht : (T.attaching t).1 = true) (r : Result α τ) (h : ideal A T k .restart (T.attaching t).2 s.app s.mem = some (true, r)) :
    (Modm.I2cAvr.start A T t s).1 = true ∧ ∃ s', Over s' r ∧ ∃ n, ∀ m, n ≤ m → run A T m (Modm.I2cAvr.start A T t s).2 = some s' := by
  have e : Modm.I2cAvr.start A T t s = (true, twcr A true false false true { s with trans := (T.attaching t).2, attached := true, error := .noError }) := by
    simp [Modm.I2cAvr.start, ha, ht]
  rw [e]
  refine ⟨rfl, ?_⟩
  have fin : ∀ s1, (∃ s', Reaches A T s1 s' ∧ Over s' r) → ∃ s', Over s' r ∧ ∃ n, ∀ m, n ≤ m → run A T m s1 = some s' := by
    rintro s1 ⟨s', ⟨n, hn⟩, o⟩
    refine ⟨s', o, n, fun m hm => ?_⟩
    obtain ⟨d, rfl⟩ := Nat.exists_eq_add_of_le hm
    rw [hn, run_idle s' o.int]
  apply fin
  cases k with
  | zero => simp [ideal] at h
  | succ k =>
      have hph := start_phase (A := A) hT (twcr A true false false true { s with trans := (T.attaching t).2, attached := true, error := .noError })
        (T.attaching t).2 s.app s.mem hI ⟨rfl, rfl, rfl, rfl, rfl, rfl⟩ rfl (by left; simp [twcr, ho])
      simp only [ideal] at h
      simp only at hph
      split at h
      · rename_i hx
        rw [if_pos hx] at hph
        obtain ⟨s', r', c'⟩ := hph
        obtain ⟨s'', r'', o''⟩ := refine_ideal hT k _ _ _ _ _ _ (Typed.fetch hT _ _ (hT.starting _ hI).2) c' h
        exact ⟨s'', r'.trans r'', o''⟩
      · rename_i hx
        rw [if_neg hx] at hph
        obtain ⟨s', r', o'⟩ := hph
        simp only [Option.some.injEq, Prod.mk.injEq, true_and] at h
        subst h
        exact ⟨s', r', o'⟩

variable (A T)

/-- The end of a transfer, some interrupts after `start`. -/
def Ends (x : Bool × St α τ) (steps : List Step) (s : St α τ) (p : Nat) (state : τ → State) : Prop :=
  x.1 = true ∧ ∃ s' r, Over s' r ∧ Happened A steps s.app s.mem p state r ∧ ∃ n, ∀ m, n ≤ m → run A T m x.2 = some s'

/-! ## C220: the transactions of the three kinds of objects -/

/-- An `I2cWriteReadTransaction`. -/
theorem C220_writeRead (s : St α WriteRead) (t : WriteRead) (address : Byte) (wb ws rb rs : Nat) (ha : s.attached = false) (ho : s.owned = false)
    (ht : t.address = address <<< 1) (hb : t.state ≠ .busy) (hw : ws < 2 ^ 16) (hr : rs < 2 ^ 16) :
    Ends A writeRead (Modm.I2cAvr.start A writeRead (t.configure (if ws = 0 then none else some wb) ws (if rs = 0 then none else some rb) rs).2 s)
      (transfer address (bytesAt s.mem wb ws) rs) s rb WriteRead.state := by
  have e1 : attachState t.state = (true, .busy) := by simp [attachState, hb]
  rw [WriteRead.configure, if_neg hb]
  obtain ⟨r, h1, h2⟩ := Lemmas.I2cMaster.ideal_writeRead A s.app s.mem
    ⟨t.address, .busy, rs, ws, if rs = 0 then none else some rb, if ws = 0 then none else some wb, decide (ws = 0)⟩ address wb ws rb rs ht rfl rfl rfl rfl rfl
  have e2 : writeRead.attaching { t with readBuffer := if rs = 0 then none else some rb, readSize := rs, writeBuffer := if ws = 0 then none else some wb, writeSize := ws, isReading := decide (ws = 0) }
      = (true, ⟨t.address, .busy, rs, ws, if rs = 0 then none else some rb, if ws = 0 then none else some wb, decide (ws = 0)⟩) := by
    simp [writeRead, e1]
  obtain ⟨h3, s', h4, h5⟩ := C221_any_partial (A := A) (Lemmas.I2cMaster.typed_writeRead 16) 5 _ (by rw [e2]; exact ⟨hr, hw⟩) s ha ho (by rw [e2]) r (by rw [e2]; exact h1)
  exact ⟨h3, s', r, h4, h2, h5⟩

/-- An `I2cWriteTransaction`. -/
theorem C220_write (s : St α OneWay) (t : OneWay) (address : Byte) (p n : Nat) (ha : s.attached = false) (ho : s.owned = false)
    (ht : t.address = address <<< 1) (hb : t.state ≠ .busy) (hn : n < 2 ^ 16) :
    Ends A onlyWrite (Modm.I2cAvr.start A onlyWrite (t.configureWrite (if n = 0 then none else some p) n).2 s)
      (transfer address (bytesAt s.mem p n) 0) s 0 OneWay.state := by
  have e1 : attachState t.state = (true, .busy) := by simp [attachState, hb]
  have e3 : lengthOf (if n = 0 then none else some p) n = n := by by_cases h : n = 0 <;> simp [h, lengthOf]
  rw [OneWay.configureWrite, if_neg hb, e3]
  obtain ⟨r, h1, h2⟩ := Lemmas.I2cMaster.ideal_onlyWrite A s.app s.mem
    ⟨t.address, .busy, n, if n = 0 then none else some p⟩ address p n ht rfl rfl
  have e2 : onlyWrite.attaching { t with buffer := if n = 0 then none else some p, size := n }
      = (true, ⟨t.address, .busy, n, if n = 0 then none else some p⟩) := by
    simp [onlyWrite, e1]
  obtain ⟨h3, s', h4, h5⟩ := C221_any_partial (A := A) (Lemmas.I2cMaster.typed_onlyWrite 16) 5 _ (by rw [e2]; exact hn) s ha ho (by rw [e2]) r (by rw [e2]; exact h1)
  exact ⟨h3, s', r, h4, h2, h5⟩

/-- An `I2cReadTransaction`. -/
theorem C220_read (s : St α OneWay) (t : OneWay) (address : Byte) (p n : Nat) (ha : s.attached = false) (ho : s.owned = false)
    (ht : t.address = address <<< 1) (hb : t.state ≠ .busy) (hn : n < 2 ^ 16) :
    Ends A onlyRead (Modm.I2cAvr.start A onlyRead (t.configureRead (if n = 0 then none else some p) n).2 s)
      (transfer address [] n) s p OneWay.state := by
  have e1 : attachState t.state = (true, .busy) := by simp [attachState, hb]
  rw [OneWay.configureRead, if_neg hb]
  obtain ⟨r, h1, h2⟩ := Lemmas.I2cMaster.ideal_onlyRead A s.app s.mem
    ⟨t.address, .busy, n, if n = 0 then none else some p⟩ address p n ht rfl rfl
  have e2 : onlyRead.attaching { t with buffer := if n = 0 then none else some p, size := n }
      = (true, ⟨t.address, .busy, n, if n = 0 then none else some p⟩) := by
    simp [onlyRead, e1]
  obtain ⟨h3, s', h4, h5⟩ := C221_any_partial (A := A) (Lemmas.I2cMaster.typed_onlyRead 16) 5 _ (by rw [e2]; exact hn) s ha ho (by rw [e2]) r (by rw [e2]; exact h1)
  exact ⟨h3, s', r, h4, h2, h5⟩

/-- A device with the address 0x1e: it acknowledges two bytes after each START, counts what it sends, and
keeps a record of all that happens. -/
def recorder : App (List Nat) where
  start l := 1000 :: l
  address a l := (a = 0x3c#8 || a = 0x3d#8, (2000 + a.toNat) :: l)
  write b l := (decide ((l.takeWhile (· ≠ 1000)).length < 3), (3000 + b.toNat) :: l)
  read l := (BitVec.ofNat 8 (l.length * 37), (4000 + l.length) :: l)
  acked a l := (if a then 5001 else 5000) :: l
  stop l := 6000 :: l

/-- Before the first transaction. -/
def st0 {τ : Type} (t : τ) : St (List Nat) τ :=
  ⟨[], .other, 0, false, false, false, t, .stop, .noError, none, 0, none, 0, fun a => BitVec.ofNat 8 (a * 3)⟩

/-- What of a transfer is compared below. -/
def outline {τ : Type} (state : τ → State) (r : Option (St (List Nat) τ)) : Option (Bool × Error × State × List Byte × List Nat) :=
  r.map fun r => (r.int, r.error, state r.trans, [r.mem 100, r.mem 101, r.mem 102], r.app)

example : Ends recorder writeRead (Modm.I2cAvr.start recorder writeRead ((WriteRead.new 0x1e).configure (some 7) 2 (some 100) 2).2 (st0 (WriteRead.new 0x1e)))
    (transfer 0x1e (bytesAt (fun a => BitVec.ofNat 8 (a * 3)) 7 2) 2) (st0 (WriteRead.new 0x1e)) 100 WriteRead.state :=
  C220_writeRead recorder (st0 _) (WriteRead.new 0x1e) 0x1e 7 2 100 2 rfl rfl rfl (by decide) (by decide) (by decide)

/-- Two bytes written, two read. -/
example : outline WriteRead.state (run recorder writeRead 20
      (Modm.I2cAvr.start recorder writeRead ((WriteRead.new 0x1e).configure (some 7) 2 (some 100) 2).2 (st0 (WriteRead.new 0x1e))).2)
    = some (false, .noError, .idle, [0xde#8, 0x28#8, 50#8],
      [6000, 5000, 4008, 5001, 4006, 2061, 1000, 3024, 3021, 2060, 1000]) := by decide +kernel

/-- The third byte is not acknowledged. -/
example : outline OneWay.state (run recorder onlyWrite 20
      (Modm.I2cAvr.start recorder onlyWrite ((OneWay.new 0x1e).configureWrite (some 7) 4).2 (st0 (OneWay.new 0x1e))).2)
    = some (false, .dataNack, .error, [44#8, 47#8, 50#8], [6000, 3027, 3024, 3021, 2060, 1000]) := by decide +kernel

example : Ends recorder onlyWrite (Modm.I2cAvr.start recorder onlyWrite ((OneWay.new 0x1e).configureWrite (some 7) 4).2 (st0 (OneWay.new 0x1e)))
    (transfer 0x1e (bytesAt (fun a => BitVec.ofNat 8 (a * 3)) 7 4) 0) (st0 (OneWay.new 0x1e)) 0 OneWay.state :=
  C220_write recorder (st0 _) (OneWay.new 0x1e) 0x1e 7 4 rfl rfl rfl (by decide) (by decide)

/-- Nobody answers. -/
example : outline OneWay.state (run recorder onlyRead 20
      (Modm.I2cAvr.start recorder onlyRead ((OneWay.new 0x22).configureRead (some 100) 3).2 (st0 (OneWay.new 0x22))).2)
    = some (false, .addressNack, .error, [44#8, 47#8, 50#8], [6000, 2069, 1000]) := by decide +kernel

example : Ends recorder onlyRead (Modm.I2cAvr.start recorder onlyRead ((OneWay.new 0x22).configureRead (some 100) 3).2 (st0 (OneWay.new 0x22)))
    (transfer 0x22 [] 3) (st0 (OneWay.new 0x22)) 100 OneWay.state :=
  C220_read recorder (st0 _) (OneWay.new 0x22) 0x22 100 3 rfl rfl rfl (by decide) (by decide)

/-! ## C221, continued -/

/-- An object of a user: a number of buffers that are written one after the other (as for a display: a command, then data). -/
def chain : Transaction (List Nat) where
  attaching t := (true, t)
  starting t := (⟨0x3c, .write⟩, t)
  writing t := match t with
    | [] => (⟨none, 0, .stop⟩, [])
    | [n] => (⟨some 7, n % 65536, .stop⟩, [])
    | n :: r => (⟨some 7, n % 65536, .write⟩, r)
  reading t := (⟨none, 0, .stop⟩, t)
  detaching c t := match c with
    | .normalStop => 100 :: t
    | .errorCondition => 200 :: t
    | .failedToAttach => 300 :: t

theorem typed_chain : Typed chain (fun _ => True) 16 := by
  refine ⟨?_, ?_, ?_⟩
  · intro t _
    exact ⟨by simp [chain], trivial⟩
  · intro t _
    match t with
    | [] => exact ⟨by simp [chain], by simp [chain], trivial⟩
    | [n] => exact ⟨by simp [chain], by simp only [chain]; omega, trivial⟩
    | n :: m :: r => exact ⟨by simp [chain], by simp only [chain]; omega, trivial⟩
  · intro t _
    exact ⟨by simp [chain], by simp [chain], by simp [chain], trivial⟩

/-- Two buffers of a byte each: the hypotheses of the theorem hold. -/
example : ∃ r, ideal recorder chain 4 .restart [1, 1] [] (st0 [1, 1]).mem = some (true, r) ∧ r.app = [6000, 3021, 3021, 2060, 1000] ∧
    (Modm.I2cAvr.start recorder chain [1, 1] (st0 [1, 1])).1 = true ∧ ∃ s', Over s' r ∧ ∃ n, ∀ m, n ≤ m →
      run recorder chain m (Modm.I2cAvr.start recorder chain [1, 1] (st0 [1, 1])).2 = some s' :=
  ⟨_, rfl, rfl, C221_any_partial typed_chain 4 [1, 1] trivial (st0 [1, 1]) rfl rfl rfl _ rfl⟩

/-- **C221** is false for an empty buffer that follows another one: a byte after its end is written, and the length is 65535 then; the devices do
not see the end of the transaction. -/
theorem C221_empty_counterexample :
    (ideal recorder chain 4 .restart [1, 0] [] (st0 [1, 0]).mem).map (fun r => r.2.app) = some [6000, 3021, 2060, 1000] ∧
    (run recorder chain 3 (Modm.I2cAvr.start recorder chain [1, 0] (st0 [1, 0])).2).map (fun s => (s.app, s.wlen, s.attached))
      = some ([3021, 3021, 2060, 1000], 65535, true) := by
  decide +kernel

/-- **C221** is false for something to read without a buffer: there is a byte to receive, and it is stored behind a null pointer. -/
theorem C221_null_counterexample :
    ((ideal recorder onlyRead 4 .restart ⟨0x3c, .busy, 2, none⟩ [] (st0 ()).mem).map fun r => r.2.app) = some [6000, 2061, 1000] ∧
    (run recorder onlyRead 3 (Modm.I2cAvr.start recorder onlyRead ((OneWay.new 0x1e).configureRead none 2).2 (st0 (OneWay.new 0x1e))).2).isNone = true := by
  decide +kernel

/-! ## C222: the end of a transaction, for any bus -/

/-- Whatever the hardware says in an interrupt: either the transaction goes on, and there is going to be another interrupt, or it is over, the
object knows, and there is none. -/
theorem C222_alive (s s' : St α τ) (ha : s.attached = true) (h : isr A T s = some s') :
    (s'.attached = true ∧ s'.int = true) ∨
    (s'.attached = false ∧ s'.int = false ∧ ∃ t, s'.trans = T.detaching .normalStop t ∨ s'.trans = T.detaching .errorCondition t) := by
  have hf : ∀ (e : Error) (x : St α τ), x.attached = true → fail T e x = s' →
      s'.attached = false ∧ s'.int = false ∧ ∃ t, s'.trans = T.detaching .normalStop t ∨ s'.trans = T.detaching .errorCondition t := by
    rintro e x hx rfl
    refine ⟨rfl, rfl, x.trans, Or.inr ?_⟩
    simp [fail, twcrOff, hx]
  have hd : ∀ x : St α τ, x.attached = true → detach T (twcr A false true false false x) = some s' →
      s'.attached = false ∧ s'.int = false ∧ ∃ t, s'.trans = T.detaching .normalStop t ∨ s'.trans = T.detaching .errorCondition t := by
    intro x hx hh
    rw [detach, if_pos (by simp [twcr, hx])] at hh
    simp only [Option.some.injEq] at hh
    subst hh
    exact ⟨rfl, rfl, _, Or.inl rfl⟩
  have hw : ∀ x : St α τ, x.attached = true → (x.status = .mtSlaAck ∨ x.status = .mtDataAck) → writeByte A x = some s' → s'.attached = true ∧ s'.int = true := by
    intro x hx hst hh
    unfold writeByte at hh
    split at hh
    · simp at hh
    · simp only [Option.some.injEq] at hh
      subst hh
      rcases hst with hst | hst <;> simp [twcr, hst, hx]
  have hr : ∀ x : St α τ, x.attached = true → (x.status = .mrSlaAck ∨ x.status = .mrDataAck) → receive A x = s' → s'.attached = true ∧ s'.int = true := by
    intro x hx hst hh
    subst hh
    unfold receive
    rcases hst with hst | hst <;> split <;> simp [twcr, hst, hx]
  have ho : ∀ x : St α τ, x.attached = true → (x.status = .mtSlaAck ∨ x.status = .mtDataAck) → onWritten A T x = some s' →
      (s'.attached = true ∧ s'.int = true) ∨
      (s'.attached = false ∧ s'.int = false ∧ ∃ t, s'.trans = T.detaching .normalStop t ∨ s'.trans = T.detaching .errorCondition t) := by
    intro x hx hst hh
    unfold onWritten at hh
    split at hh
    · exact Or.inl (hw x hx hst hh)
    · split at hh
      · exact Or.inl (hw (fetchWriting T x) hx hst hh)
      · simp only [Option.some.injEq] at hh
        subst hh
        exact Or.inl ⟨hx, rfl⟩
      · exact Or.inr (hd x hx hh)
  have hs : ∀ x : St α τ, x.attached = true → (x.status = .start ∨ x.status = .repStart) → onStart A T x = some s' → s'.attached = true ∧ s'.int = true := by
    intro x hx hst hh
    unfold onStart at hh
    rw [if_pos hx] at hh
    simp only [Option.some.injEq] at hh
    subst hh
    rcases hst with hst | hst <;> cases (T.starting x.trans).1.next <;> simp [twcr, hst, hx, fetchReading, fetchWriting]
  unfold isr at h
  cases hst : s.status <;> rw [hst] at h <;> simp only [Option.some.injEq] at h
  · exact Or.inl (hs s ha (Or.inl hst) h)
  · exact Or.inl (hs s ha (Or.inr hst) h)
  · exact ho s ha (Or.inl hst) h
  · exact Or.inr (hf _ _ (by simp [twcr, ha]) h)
  · exact ho s ha (Or.inr hst) h
  · exact Or.inr (hf _ _ (by simp [twcr, ha]) h)
  · exact Or.inl (hr s ha (Or.inl hst) h)
  · exact Or.inr (hf _ _ (by simp [twcr, ha]) h)
  · obtain ⟨x, h1, h2⟩ := Option.map_eq_some_iff.mp h
    unfold store at h1
    split at h1
    · simp at h1
    · simp only [Option.some.injEq] at h1
      subst h1
      exact Or.inl (hr _ (by exact ha) (by exact Or.inr hst) h2)
  · simp only [onLast] at h
    obtain ⟨x, h1, h2⟩ := Option.bind_eq_some_iff.mp h
    have hx : x.attached = true := by
      unfold store at h1
      split at h1
      · simp at h1
      · simp only [Option.some.injEq] at h1
        subst h1
        exact ha
    split at h2
    · simp only [Option.some.injEq] at h2
      subst h2
      exact Or.inl ⟨hx, rfl⟩
    · exact Or.inr (hd x hx h2)
  · exact Or.inr (hf _ _ ha h)
  · exact Or.inr (hf _ _ ha h)

/-- When arbitration is lost, or anything unexpected happens, the transaction is over at once: nothing is done on the bus, and the
master and the object know. -/
theorem C222_lost (s : St α τ) (ha : s.attached = true) (h : s.status = .arbLost ∨ s.status = .other) :
    ∃ s', isr A T s = some s' ∧ s'.attached = false ∧ s'.int = false ∧ s'.app = s.app ∧ s'.mem = s.mem ∧
      s'.trans = T.detaching .errorCondition s.trans ∧ s'.error = (if s.error ≠ .noError then s.error else if s.status = .arbLost then .arbitrationLost else .busCondition) := by
  rcases h with h | h
  · have e : isr A T s = some (fail T .arbitrationLost s) := by unfold isr; rw [h]
    refine ⟨_, e, ?_⟩
    by_cases he : s.error = .noError <;> simp [fail, twcrOff, ha, he, h]
  · have e : isr A T s = some (fail T .busCondition s) := by unfold isr; rw [h]
    refine ⟨_, e, ?_⟩
    by_cases he : s.error = .noError <;> simp [fail, twcrOff, ha, he, h]

/-- While a transaction is going on, `start` does nothing. -/
theorem C222_occupied (t : τ) (s : St α τ) (h : s.attached = true) : Modm.I2cAvr.start A T t s = (false, s) := by
  simp [Modm.I2cAvr.start, h]

example : (isr recorder onlyWrite { st0 (OneWay.new 0x1e) with attached := true, int := true, status := .arbLost }).map (fun s => (s.attached, s.int, s.error))
    = some (false, false, .arbitrationLost) := by decide +kernel

/-- **C222** is false for `reset()`: the interrupt of TWI is not switched off, and the next one needs the transaction that is gone. -/
theorem C222_reset_counterexample :
    let s := (Modm.I2cAvr.start recorder onlyWrite ((OneWay.new 0x1e).configureWrite (some 7) 2).2 (st0 (OneWay.new 0x1e))).2
    (reset onlyWrite s).attached = false ∧ (reset onlyWrite s).int = true ∧ (run recorder onlyWrite 1 (reset onlyWrite s)).isNone = true := by
  decide +kernel

/-- **C222** is false for `reset()` while reading: it goes on, and the length is 65535 then. -/
theorem C222_reset_read_counterexample :
    let s := (Modm.I2cAvr.start recorder onlyRead ((OneWay.new 0x1e).configureRead (some 100) 2).2 (st0 (OneWay.new 0x1e))).2
    (run recorder onlyRead 2 s).bind (fun s => (run recorder onlyRead 3 (reset onlyRead s)).map fun s => (s.rlen, s.int, [s.mem 100, s.mem 101, s.mem 102]))
      = some (65533, true, [74#8, 148#8, 222#8]) := by
  decide +kernel

/-- **C222** is false for an object that is busy already (with another master): `start` returns `false`, but has changed the object. -/
theorem C222_busy_counterexample (t : OneWay) (s : St α OneWay) (ha : s.attached = false) (hb : t.state = .busy) :
    (Modm.I2cAvr.start A onlyWrite t s).1 = false ∧ (Modm.I2cAvr.start A onlyWrite t s).2.trans.state = .error := by
  simp [Modm.I2cAvr.start, ha, onlyWrite, attachState, hb, detachState]

end Props.I2cAvr
