import Verif.Model.Itm

set_option autoImplicit false

namespace Props.Itm
open Model.Itm

/-! ### Specification -/

inductive Op where
  | write (b : BitVec 8) (ready : Bool)
  | update (ready : Bool)
deriving DecidableEq

/-- A state and the bytes that `write()` has accepted, in order. -/
def step (s : State × List (BitVec 8)) : Op → State × List (BitVec 8)
  | .write b r => ((write s.1 true r b).1, if (write s.1 true r b).2 then s.2 ++ [b] else s.2)
  | .update r => (update s.1 true r, s.2)

def run (cap : Nat) (ops : List Op) : State × List (BitVec 8) := ops.foldl step (init cap, [])

/-! ### Bytes in a word -/

theorem byte_toNat (x : BitVec 32) (k : Nat) : ((x >>> k).setWidth 8).toNat = x.toNat / 2 ^ k % 256 := by
  simp [BitVec.toNat_setWidth, BitVec.toNat_ushiftRight, Nat.shiftRight_eq_div_pow]

theorem push_toNat (x : BitVec 32) (d : BitVec 8) : ((x >>> 8) ||| (d.setWidth 32 <<< 24)).toNat = x.toNat / 256 + d.toNat * 16777216 := by
  have hx := x.isLt
  have hd := d.isLt
  rw [BitVec.toNat_or, BitVec.toNat_ushiftRight, BitVec.toNat_shiftLeft, BitVec.toNat_setWidth, Nat.shiftRight_eq_div_pow,
    Nat.mod_eq_of_lt (a := d.toNat) (by omega), Nat.mod_eq_of_lt (by rw [Nat.shiftLeft_eq]; omega), Nat.or_comm,
    ← Nat.shiftLeft_add_eq_or_of_lt (by omega), Nat.shiftLeft_eq]
  omega

theorem top_toNat (x : BitVec 32) : (x &&& (0xff#32 <<< 24)).toNat = x.toNat / 16777216 * 16777216 := by
  have e : x &&& (0xff#32 <<< 24) = (x >>> 24) <<< 24 := by
    apply BitVec.eq_of_getLsbD_eq
    intro i hi
    have table : ∀ i < 32, (0xff#32 <<< 24).getLsbD i = decide (24 ≤ i) := by decide
    rw [BitVec.getLsbD_and, table i hi, BitVec.getLsbD_shiftLeft, BitVec.getLsbD_ushiftRight]
    by_cases h : 24 ≤ i
    · have : 24 + (i - 24) = i := by omega
      have nl : ¬ i < 24 := by omega
      simp [h, this, hi, nl]
    · have lt : i < 24 := by omega
      simp [h, lt]
  rw [e, BitVec.toNat_shiftLeft, BitVec.toNat_ushiftRight, Nat.shiftRight_eq_div_pow, Nat.shiftLeft_eq]
  have := x.isLt
  omega

/-- The word with some bytes: the last one on top. -/
def word : List (BitVec 8) → Nat
  | [] => 0
  | [a] => a.toNat * 16777216
  | [a, b] => a.toNat * 65536 + b.toNat * 16777216
  | [a, b, c] => a.toNat * 256 + b.toNat * 65536 + c.toNat * 16777216
  | a :: b :: c :: d :: _ => a.toNat + b.toNat * 256 + c.toNat * 65536 + d.toNat * 16777216

/-- The word holds exactly the pending bytes. -/
def Holds (buffer : BitVec 32) (size : Nat) (p : List (BitVec 8)) : Prop := p.length = size ∧ size ≤ 4 ∧ buffer.toNat = word p

theorem holds_push (buffer : BitVec 32) (size : Nat) (p : List (BitVec 8)) (d : BitVec 8) (h : Holds buffer size p) (hs : size < 4) :
    Holds ((buffer >>> 8) ||| (d.setWidth 32 <<< 24)) (size + 1) (p ++ [d]) := by
  obtain ⟨h1, h2, h3⟩ := h
  refine ⟨by simp [h1], by omega, ?_⟩
  rw [push_toNat, h3]
  rcases p with _ | ⟨a, _ | ⟨b, _ | ⟨c, _ | ⟨e, r⟩⟩⟩⟩
  · simp [word]
  · simp [word]; omega
  · simp [word]; omega
  · have := a.isLt; simp [word]; omega
  · simp at h1; omega

theorem fill_spec (q : List (BitVec 8)) : ∀ buffer size p, Holds buffer size p → ∃ p', p ++ q = p' ++ (fill q buffer size).1 ∧
    Holds (fill q buffer size).2.1 (fill q buffer size).2.2 p' ∧ ((fill q buffer size).1 = [] ∨ (fill q buffer size).2.2 = 4) := by
  induction q with
  | nil => intro buffer size p h; exact ⟨p, rfl, h, Or.inl rfl⟩
  | cons d r ih =>
    intro buffer size p h
    unfold fill
    by_cases lt : size < 4
    · rw [if_pos lt]
      obtain ⟨p', e, hh, o⟩ := ih _ _ _ (holds_push buffer size p d h lt)
      exact ⟨p', by rw [← e]; simp, hh, o⟩
    · rw [if_neg lt]
      have := h.2.1
      exact ⟨p, rfl, h, Or.inr (by simp only; omega)⟩

def Inv (s : State) (accepted : List (BitVec 8)) : Prop :=
  ∃ p, Holds s.buffer s.size p ∧ accepted = s.out ++ p ++ s.txBuffer

theorem ext_byte (a b : BitVec 8) (h : a.toNat = b.toNat) : a = b := BitVec.eq_of_toNat_eq h

/-- An update keeps all bytes, and sends at least one if the port is free. -/
theorem update_spec (s : State) (r : Bool) (acc : List (BitVec 8)) (h : Inv s acc) : Inv (update s true r) acc ∧ (update s true r).cap = s.cap ∧
    (r = true → s.out.length < acc.length → s.out.length < (update s true r).out.length) := by
  obtain ⟨p, hp, ha⟩ := h
  obtain ⟨p', e, hh, o⟩ := fill_spec s.txBuffer s.buffer s.size p hp
  have tot : acc = s.out ++ p' ++ (fill s.txBuffer s.buffer s.size).1 := by rw [ha, List.append_assoc, e, List.append_assoc]
  unfold update
  generalize hf : fill s.txBuffer s.buffer s.size = f at *
  obtain ⟨q, buffer, size⟩ := f
  simp only at hh o tot ⊢
  obtain ⟨h1, h2, h3⟩ := hh
  cases r with
  | false =>
    by_cases s3 : size = 3
    · rw [if_pos s3]
      simp only [writeItm]
      exact ⟨⟨p', ⟨h1, h2, h3⟩, tot⟩, rfl, by simp⟩
    · rw [if_neg s3]
      simp only [writeItm]
      exact ⟨⟨p', ⟨h1, h2, h3⟩, tot⟩, rfl, by simp⟩
  | true =>
    rcases p' with _ | ⟨a, _ | ⟨b, _ | ⟨c, _ | ⟨d, _ | ⟨e', r'⟩⟩⟩⟩⟩
    · simp only [List.length_nil] at h1
      subst h1
      rcases o with o | o
      · refine ⟨⟨[], ⟨rfl, by simp [writeItm], h3⟩, tot⟩, rfl, ?_⟩
        intro _ l
        rw [tot] at l
        simp [o] at l
      · omega
    · simp only [List.length_cons, List.length_nil] at h1
      subst h1
      have := a.isLt
      have x : (buffer >>> 24).setWidth 8 = a := by apply ext_byte; rw [byte_toNat, h3]; simp only [word]; omega
      refine ⟨⟨[], ⟨rfl, by simp [writeItm], by simp [writeItm, word]⟩, ?_⟩, rfl, ?_⟩
      · rw [tot]; simp [writeItm, x]
      · intro _ _; simp [writeItm]
    · simp only [List.length_cons, List.length_nil] at h1
      subst h1
      have := a.isLt
      have := b.isLt
      have x : (buffer >>> 16).setWidth 8 = a := by apply ext_byte; rw [byte_toNat, h3]; simp only [word]; omega
      have y : (buffer >>> 24).setWidth 8 = b := by apply ext_byte; rw [byte_toNat, h3]; simp only [word]; omega
      refine ⟨⟨[], ⟨rfl, by simp [writeItm], by simp [writeItm, word]⟩, ?_⟩, rfl, ?_⟩
      · rw [tot]; simp [writeItm, x, y]
      · intro _ _; simp [writeItm]
    · simp only [List.length_cons, List.length_nil] at h1
      subst h1
      have := a.isLt
      have := b.isLt
      have := c.isLt
      have sh : (buffer <<< 8).toNat = a.toNat * 65536 + b.toNat * 16777216 := by
        rw [BitVec.toNat_shiftLeft, h3, Nat.shiftLeft_eq]; simp only [word]; omega
      have x : ((buffer <<< 8) >>> 16).setWidth 8 = a := by apply ext_byte; rw [byte_toNat, sh]; omega
      have y : ((buffer <<< 8) >>> 24).setWidth 8 = b := by apply ext_byte; rw [byte_toNat, sh]; omega
      refine ⟨⟨[c], ⟨rfl, by simp [writeItm], ?_⟩, ?_⟩, rfl, ?_⟩
      · simp only [writeItm]
        change (buffer &&& (0xff#32 <<< 24)).toNat = _
        rw [top_toNat, h3]; simp only [word]; omega
      · rw [tot]; simp [writeItm, x, y]
      · intro _ _; simp [writeItm]
    · simp only [List.length_cons, List.length_nil] at h1
      subst h1
      have := a.isLt
      have := b.isLt
      have := c.isLt
      have := d.isLt
      have w : buffer.setWidth 8 = a := by
        apply ext_byte; rw [BitVec.toNat_setWidth, h3]; simp only [word]; omega
      have x : (buffer >>> 8).setWidth 8 = b := by apply ext_byte; rw [byte_toNat, h3]; simp only [word]; omega
      have y : (buffer >>> 16).setWidth 8 = c := by apply ext_byte; rw [byte_toNat, h3]; simp only [word]; omega
      have z : (buffer >>> 24).setWidth 8 = d := by apply ext_byte; rw [byte_toNat, h3]; simp only [word]; omega
      refine ⟨⟨[], ⟨rfl, by simp [writeItm], by simp [writeItm, word]⟩, ?_⟩, rfl, ?_⟩
      · rw [tot]; simp [writeItm, w, x, y, z]
      · intro _ _; simp [writeItm]
    · simp at h1; omega

theorem update_queue (s : State) (r : Bool) : (update s true r).txBuffer = (fill s.txBuffer s.buffer s.size).1 := by
  unfold update
  simp only
  split <;> split <;> rfl

theorem fill_shorter (q : List (BitVec 8)) : ∀ buffer size, (fill q buffer size).1.length ≤ q.length := by
  induction q with
  | nil => intro b s; simp [fill]
  | cons d r ih =>
    intro b s
    unfold fill
    split
    · have := ih ((b >>> 8) ||| (d.setWidth 32 <<< 24)) (s + 1)
      simp only [List.length_cons]; omega
    · simp

theorem step_inv (s : State × List (BitVec 8)) (o : Op) (h : Inv s.1 s.2 ∧ s.1.txBuffer.length ≤ s.1.cap) :
    Inv (step s o).1 (step s o).2 ∧ (step s o).1.txBuffer.length ≤ (step s o).1.cap ∧ (step s o).1.cap = s.1.cap := by
  obtain ⟨s, acc⟩ := s
  obtain ⟨h, hc⟩ := h
  simp only at h hc
  cases o with
  | update r =>
    obtain ⟨a, b, _⟩ := update_spec s r acc h
    refine ⟨a, ?_, b⟩
    simp only [step]
    rw [b, update_queue]
    exact Nat.le_trans (fill_shorter _ _ _) hc
  | write b r =>
    have push : ∀ s : State, Inv s acc → Inv { s with txBuffer := s.txBuffer ++ [b] } (acc ++ [b]) := by
      intro s ⟨p, hp, ha⟩
      exact ⟨p, hp, by rw [ha]; simp⟩
    simp only [step, write]
    by_cases lt : s.txBuffer.length < s.cap
    · simp only [lt, if_true]
      exact ⟨push s h, by simp; omega, trivial⟩
    · obtain ⟨u1, u2, _⟩ := update_spec s r acc h
      simp only [lt, if_false]
      by_cases lt2 : (update s true r).txBuffer.length < (update s true r).cap
      · simp only [lt2, if_true]
        exact ⟨push _ u1, by simp; omega, u2⟩
      · simp only [lt2, if_false]
        refine ⟨u1, ?_, u2⟩
        rw [u2, update_queue]
        exact Nat.le_trans (fill_shorter _ _ _) hc

theorem run_inv (cap : Nat) (ops : List Op) : Inv (run cap ops).1 (run cap ops).2 ∧ (run cap ops).1.txBuffer.length ≤ (run cap ops).1.cap ∧ (run cap ops).1.cap = cap := by
  have key : ∀ (ops : List Op) (s : State × List (BitVec 8)), Inv s.1 s.2 ∧ s.1.txBuffer.length ≤ s.1.cap →
      Inv (ops.foldl step s).1 (ops.foldl step s).2 ∧ (ops.foldl step s).1.txBuffer.length ≤ (ops.foldl step s).1.cap ∧ (ops.foldl step s).1.cap = s.1.cap := by
    intro ops
    induction ops with
    | nil => intro s h; exact ⟨h.1, h.2, rfl⟩
    | cons o ops ih =>
      intro s h
      obtain ⟨a, b, c⟩ := step_inv s o h
      obtain ⟨a', b', c'⟩ := ih (step s o) ⟨a, b⟩
      exact ⟨a', b', by rw [List.foldl_cons, c', c]⟩
  exact key ops (init cap, []) ⟨⟨[], ⟨rfl, by simp [init], by simp [init, word]⟩, by simp [init]⟩, by simp [init]⟩

def drain (s : State) : Nat → State
  | 0 => s
  | n + 1 => drain (update s true true) n

/-- C360: for all sequences of `write()` and `update()`, and all times at which the port is free: the bytes put out are the first ones of those accepted by `write()`,
in order, none lost or repeated; those missing are in the queue, except at most four; and as many updates with a free port as bytes are missing put
out all. -/
theorem C360_order (cap : Nat) (ops : List Op) :
    let s := (run cap ops).1
    let accepted := (run cap ops).2
    (∃ pending, pending.length ≤ 4 ∧ accepted = s.out ++ pending ++ s.txBuffer) ∧ s.txBuffer.length ≤ cap ∧
    ∀ n, accepted.length ≤ s.out.length + n → (drain s n).out = accepted := by
  intro s accepted
  obtain ⟨i, l, c⟩ := run_inv cap ops
  refine ⟨?_, by rw [← c]; exact l, ?_⟩
  · obtain ⟨p, hp, ha⟩ := i
    exact ⟨p, by rw [hp.1]; exact hp.2.1, ha⟩
  · have key : ∀ n (s : State) (acc : List (BitVec 8)), Inv s acc → acc.length ≤ s.out.length + n → (drain s n).out = acc := by
      intro n
      induction n with
      | zero =>
        intro s acc ⟨p, hp, ha⟩ hl
        have e : p ++ s.txBuffer = [] := by
          rw [ha] at hl
          simp only [List.length_append] at hl
          have : (p ++ s.txBuffer).length = 0 := by simp only [List.length_append]; omega
          exact List.eq_nil_of_length_eq_zero this
        rw [List.append_assoc, e, List.append_nil] at ha
        exact ha.symm
      | succ n ih =>
        intro s acc h hl
        obtain ⟨a, _, p⟩ := update_spec s true acc h
        apply ih _ _ a
        by_cases lt : s.out.length < acc.length
        · have := p rfl lt; omega
        · have mono : s.out.length ≤ (update s true true).out.length := by
            unfold update
            simp only
            split <;> split <;> simp
          omega
    exact fun n hn => key n s accepted i hn

/-- Case: five bytes into a queue of four, with a busy port meanwhile. -/
example : let r := run 4 [.write 1#8 true, .write 2#8 true, .write 3#8 true, .write 4#8 true, .write 5#8 false, .update true, .update true]
    r.1.out = [1#8, 2#8, 3#8, 4#8, 5#8] ∧ r.2 = [1#8, 2#8, 3#8, 4#8, 5#8] := by decide

/-- C361: when `flushWriteBuffer()` returns, all bytes accepted were put out in order except at most the last four. -/
theorem C361_flush_partial (cap : Nat) (ops : List Op) (rs : List Bool) (s' : State) (h : flushWriteBuffer (run cap ops).1 true rs = some s') :
    ∃ pending, pending.length ≤ 4 ∧ (run cap ops).2 = s'.out ++ pending := by
  have key : ∀ (rs : List Bool) (s : State) (acc : List (BitVec 8)), Inv s acc → flushWriteBuffer s true rs = some s' →
      ∃ pending, pending.length ≤ 4 ∧ acc = s'.out ++ pending := by
    have fin : ∀ (s : State) (acc : List (BitVec 8)), Inv s acc → isWriteFinished s = true → s = s' → ∃ pending, pending.length ≤ 4 ∧ acc = s'.out ++ pending := by
      intro s acc ⟨p, hp, ha⟩ f e
      subst e
      have q : s.txBuffer = [] := by simpa [isWriteFinished] using f
      exact ⟨p, by rw [hp.1]; exact hp.2.1, by rw [ha, q]; simp⟩
    intro rs
    induction rs with
    | nil =>
      intro s acc i f
      unfold flushWriteBuffer at f
      split at f
      next fi => exact fin s acc i fi (by simpa using f)
      next => simp at f
    | cons r rs ih =>
      intro s acc i f
      unfold flushWriteBuffer at f
      split at f
      next fi => exact fin s acc i fi (by simpa using f)
      next => exact ih _ _ (update_spec s r acc i).1 f
  exact key rs _ _ (run_inv cap ops).1 h

/-- C361 (refuted): only the queue is looked at. Three bytes are flushed as two, although the port is always free; with a busy port four bytes are
not put out at all, and `isWriteFinished()` is true. -/
theorem C361_flush_counterexample :
    (flushWriteBuffer (run 8 [.write 1#8 true, .write 2#8 true, .write 3#8 true]).1 true [true, true, true, true]).map (·.out) = some [1#8, 2#8] ∧
    (flushWriteBuffer (run 8 [.write 1#8 true, .write 2#8 true, .write 3#8 true, .write 4#8 true]).1 true [false, true, true]).map (·.out) = some [] ∧
    (flushWriteBuffer (run 8 [.write 1#8 true]).1 true [false, true]).map isWriteFinished = some true := by decide

end Props.Itm
