import Verif.Model.Dma

set_option autoImplicit false

namespace Props.Dma
open Model.Dma

/-! ### Specification: the flags of the reference manuals -/

/-- Flag `n` of a channel is bit `4 * channel + n` (0 global, 1 complete, 2 half, 3 error), of a stream one of six
bits (0 FIFO, 2 direct mode, 3 error, 4 half, 5 complete) from the position of the stream on. -/
def position (stream : Bool) (ch : Nat) : Nat :=
  if stream then (if ch % 4 = 0 then 0 else if ch % 4 = 1 then 6 else if ch % 4 = 2 then 16 else 22) + 32 * (ch / 4)
  else 4 * ch

def width (stream : Bool) : Nat := if stream then 6 else 4

def flag (stream : Bool) (s : St) (ch n : Nat) : Bool := s.isr.getLsbD (position stream ch + n)

def errorBit : Nat := 3
def halfBit (stream : Bool) : Nat := if stream then 4 else 2
def completeBit (stream : Bool) : Nat := if stream then 5 else 1

/-- The bits of a stream that are flags. -/
def isFlag (stream : Bool) (n : Nat) : Bool := if stream then decide (n < 6 ∧ n ≠ 1) else decide (n < 4)

/-- A channel transfers data. -/
def running (s : St) (ch : Nat) : Bool := s.clock && s.en ch

theorem offset_eq (stream : Bool) (ch : Nat) (h : ch < 8) : offset stream ch = position stream ch := by
  have : ∀ st : Bool, ∀ ch < 8, offset st ch = position st ch := by decide +kernel
  exact this stream ch h

theorem position_inj (stream : Bool) (ch ch' n n' : Nat) (h : ch < 8) (h' : ch' < 8) (hn : n < width stream) (hn' : n' < width stream)
    (e : position stream ch + n = position stream ch' + n') : ch = ch' ∧ n = n' := by
  have t1 : ∀ a < 8, ∀ b < 8, a < b → position true a + 6 ≤ position true b := by decide +kernel
  cases stream with
  | true =>
    have hn6 : n < 6 := hn
    have hn6' : n' < 6 := hn'
    rcases Nat.lt_trichotomy ch ch' with l | l | l
    · have := t1 ch h ch' h' l; omega
    · subst l; exact ⟨rfl, by omega⟩
    · have := t1 ch' h' ch h l; omega
  | false =>
    simp only [position, width, Bool.false_eq_true, if_false] at e hn hn'
    omega

theorem has_table : ∀ st : Bool, ∀ ch < 8,
    (flagError st).setWidth 64 <<< offset st ch = 1#64 <<< (position st ch + errorBit) ∧
    (flagHalf st).setWidth 64 <<< offset st ch = 1#64 <<< (position st ch + halfBit st) ∧
    (flagComplete st).setWidth 64 <<< offset st ch = 1#64 <<< (position st ch + completeBit st) ∧
    position st ch + 5 < 64 := by decide +kernel

theorem one_shift (n k : Nat) (hn : n < 64) : (1#64 <<< n).getLsbD k = decide (k = n) := by
  rw [BitVec.getLsbD_shiftLeft]
  by_cases e : k = n
  · subst e; simp [hn]
  · by_cases lt : k < n
    · simp [lt, e]
    · by_cases b : k < 64
      · have : ¬ (k - n = 0) := by omega
        simp [lt, e, b, this]
      · simp [b, e]

theorem and_one (x : BitVec 64) (n : Nat) (hn : n < 64) : decide (x &&& (1#64 <<< n) ≠ 0#64) = x.getLsbD n := by
  cases h : x.getLsbD n with
  | true =>
    rw [decide_eq_true_iff]
    intro e
    have : (x &&& (1#64 <<< n)).getLsbD n = false := by rw [e]; simp
    rw [BitVec.getLsbD_and, one_shift n n hn, h] at this
    simp at this
  | false =>
    rw [decide_eq_false_iff_not, Decidable.not_not]
    apply BitVec.eq_of_getLsbD_eq
    intro i hi
    rw [BitVec.getLsbD_and, one_shift n i hn]
    by_cases e : i = n
    · subst e; simp [h]
    · simp [e]

theorem has_eq (stream : Bool) (s : St) (ch : Nat) (h : ch < 8) :
    has stream s.isr (flagError stream) ch = flag stream s ch errorBit ∧
    has stream s.isr (flagHalf stream) ch = flag stream s ch (halfBit stream) ∧
    has stream s.isr (flagComplete stream) ch = flag stream s ch (completeBit stream) := by
  obtain ⟨a, b, c, d⟩ := has_table stream ch h
  have e1 : errorBit ≤ 5 := by decide
  have e2 : halfBit stream ≤ 5 := by cases stream <;> decide
  have e3 : completeBit stream ≤ 5 := by cases stream <;> decide
  unfold has flag
  rw [a, b, c]
  exact ⟨and_one _ _ (by omega), and_one _ _ (by omega), and_one _ _ (by omega)⟩

/-- What is cleared, for all values and channels. -/
theorem mask_table : ∀ st : Bool, ∀ ch < 8, ∀ v < 64, ∀ b < 64,
    (clearMask st (BitVec.ofNat 8 v) ch).getLsbD b =
      (decide (position st ch ≤ b) && (v.testBit (b - position st ch) && decide (st ∨ v < 16 ∨ 4 ≤ b - position st ch) ||
        (!st && v.testBit 0 && decide (b - position st ch < 4)))) ∨ (st = false ∧ 16 ≤ v) := by decide +kernel

theorem clear_flag (stream : Bool) (s : St) (v ch ch' n : Nat) (h : ch < 8) (h' : ch' < 8) (hn : n < width stream)
    (hv : v < 2 ^ width stream) (hc : s.clock = true) :
    flag stream (clearFlags stream s (BitVec.ofNat 8 v) ch) ch' n =
      (flag stream s ch' n && !(decide (ch' = ch) && (v.testBit n || (!stream && v.testBit 0)))) := by
  have hw : width stream ≤ 6 := by cases stream <;> decide
  have p5 := (has_table stream ch' h').2.2.2
  have hb : position stream ch' + n < 64 := by omega
  have hv64 : v < 64 := Nat.lt_of_lt_of_le hv (by cases stream <;> decide)
  have h16 : stream = false → v < 16 := by intro e; subst e; exact hv
  have t := mask_table stream ch h v hv64 (position stream ch' + n) hb
  unfold flag clearFlags
  rw [if_pos hc]
  simp only
  rw [BitVec.getLsbD_and, BitVec.getLsbD_not]
  simp only [hb, decide_true, Bool.true_and]
  congr 2
  rcases t with t | t
  · rw [t]
    by_cases e : ch' = ch
    · subst e
      have z : position stream ch' + n - position stream ch' = n := by omega
      rw [z]
      cases stream with
      | true => simp
      | false =>
        have := h16 rfl
        have n4 : n < 4 := hn
        simp [this, n4]
    · have out : ∀ m, m < width stream → position stream ch' + n ≠ position stream ch + m := by
        intro m hm q
        exact e (position_inj stream ch' ch n m h' h hn hm q).1
      simp only [e, decide_false, Bool.false_and]
      by_cases le : position stream ch ≤ position stream ch' + n
      · have far : width stream ≤ position stream ch' + n - position stream ch := by
          rcases Nat.lt_or_ge (position stream ch' + n - position stream ch) (width stream) with c | c
          · exact absurd (by omega) (out _ c)
          · exact c
        have tb : v.testBit (position stream ch' + n - position stream ch) = false :=
          Nat.testBit_lt_two_pow (Nat.lt_of_lt_of_le hv (Nat.pow_le_pow_right (by omega) far))
        rw [tb]
        cases stream with
        | true => simp
        | false =>
          have : ¬ (position false ch' + n - position false ch < 4) := by
            have : width false = 4 := rfl
            omega
          simp [this]
      · simp [le]
  · have := h16 t.1; omega

theorem event_flag (stream : Bool) (s : St) (e : Nat × Nat) (ch n : Nat) (h : ch < 8) (hn : n < width stream) (he : e.1 < 8)
    (hen : e.2 < width stream) : flag stream (event stream s e) ch n = (flag stream s ch n || decide ((ch, n) = e)) := by
  have hw : width stream ≤ 6 := by cases stream <;> decide
  have p5 := (has_table stream e.1 he).2.2.2
  unfold flag event
  simp only
  rw [BitVec.getLsbD_or, offset_eq stream e.1 he, one_shift _ _ (by omega)]
  congr 1
  rw [decide_eq_decide]
  constructor
  · intro q
    obtain ⟨a, b⟩ := position_inj stream ch e.1 n e.2 h he hn hen q
    rw [a, b]
  · intro q; rw [← q]

theorem events_flag (stream : Bool) (ch n : Nat) (h : ch < 8) (hn : n < width stream) (es : List (Nat × Nat)) :
    ∀ s, (∀ e ∈ es, e.1 < 8 ∧ e.2 < width stream) →
    flag stream (es.foldl (event stream) s) ch n = (flag stream s ch n || es.contains (ch, n)) ∧
    (es.foldl (event stream) s).clock = s.clock ∧ (es.foldl (event stream) s).en = s.en ∧
    (es.foldl (event stream) s).calls = s.calls := by
  induction es with
  | nil => intro s _; simp
  | cons e es ih =>
    intro s he
    obtain ⟨a, b, c, d⟩ := ih (event stream s e) fun x hx => he x (List.mem_cons_of_mem _ hx)
    have q := he e (by simp)
    refine ⟨?_, b, c, d⟩
    rw [List.foldl_cons, a, event_flag stream s e ch n h hn q.1 q.2, List.contains_cons, Bool.or_assoc]
    congr 2
    rw [Bool.eq_iff_iff]; simp

theorem call_rest (s : St) (h : Option Nat) : (call s h).isr = s.isr ∧ (call s h).clock = s.clock ∧ (call s h).en = s.en ∧
    (call s h).handlers = s.handlers ∧ (call s h).calls = s.calls ++ h.toList := by
  cases h <;> simp [call]

/-- The handlers that are to be called. -/
def expected (stream : Bool) (s : St) (ch : Nat) : List Nat :=
  (if flag stream s ch errorBit then (s.handlers ch).error.toList else []) ++
  (if flag stream s ch (halfBit stream) then (s.handlers ch).half.toList else []) ++
  (if flag stream s ch (completeBit stream) then (s.handlers ch).complete.toList else [])

/-- The state before the flags are cleared. -/
theorem before_clear (stream : Bool) (s : St) (ch : Nat) (env : List (Nat × Nat)) (h : ch < 8)
    (he : ∀ e ∈ env, e.1 < 8 ∧ e.2 < width stream) :
    ∃ t, interruptHandler stream s ch env = clearFlags stream t (flagGlobal stream) ch ∧
      t.calls = s.calls ++ expected stream s ch ∧ t.clock = (s.clock && !flag stream s ch errorBit) ∧ t.en = s.en ∧
      ∀ ch' n, ch' < 8 → n < width stream → flag stream t ch' n = (flag stream s ch' n || env.contains (ch', n)) := by
  obtain ⟨a, b, c⟩ := has_eq stream s ch h
  refine ⟨_, rfl, ?_, ?_, ?_, ?_⟩
  · rw [(events_flag stream 0 0 (by omega) (by cases stream <;> decide) env _ he).2.2.2]
    unfold expected
    rw [a, b, c]
    cases flag stream s ch errorBit <;> cases flag stream s ch (halfBit stream) <;> cases flag stream s ch (completeBit stream) <;>
      simp [call_rest, disable]
  · rw [(events_flag stream 0 0 (by omega) (by cases stream <;> decide) env _ he).2.1]
    rw [a, b, c]
    cases flag stream s ch errorBit <;> cases flag stream s ch (halfBit stream) <;> cases flag stream s ch (completeBit stream) <;>
      simp [call_rest, disable]
  · rw [(events_flag stream 0 0 (by omega) (by cases stream <;> decide) env _ he).2.2.1]
    rw [a, b, c]
    cases flag stream s ch errorBit <;> cases flag stream s ch (halfBit stream) <;> cases flag stream s ch (completeBit stream) <;>
      simp [call_rest, disable]
  · intro ch' n h' hn
    rw [(events_flag stream ch' n h' hn env _ he).1]
    congr 1
    unfold flag
    rw [a, b, c]
    cases flag stream s ch errorBit <;> cases flag stream s ch (halfBit stream) <;> cases flag stream s ch (completeBit stream) <;>
      simp [call_rest, disable]

theorem global_value (stream : Bool) : flagGlobal stream = BitVec.ofNat 8 (if stream then 61 else 1) := by cases stream <;> rfl

/-- C337: for all flags, handlers and channels of both kinds of controllers: exactly the handlers whose flags were
set when the status was read are called, in the order error, half, complete.  If the flag for errors is not set and
no event of this channel happens in between, all flags of the channel are cleared; flags of other channels are
kept, also new ones, and all channels go on. -/
theorem C337_interrupt_partial (stream : Bool) (s : St) (ch : Nat) (env : List (Nat × Nat)) (h : ch < 8) (hc : s.clock = true)
    (he : ∀ e ∈ env, e.1 < 8 ∧ e.2 < width stream) :
    (interruptHandler stream s ch env).calls = s.calls ++ expected stream s ch ∧
    (flag stream s ch errorBit = false → (∀ e ∈ env, e.1 ≠ ch) →
      (∀ n, isFlag stream n = true → flag stream (interruptHandler stream s ch env) ch n = false) ∧
      (∀ ch' n, ch' < 8 → ch' ≠ ch → n < width stream →
        flag stream (interruptHandler stream s ch env) ch' n = (flag stream s ch' n || env.contains (ch', n))) ∧
      (∀ ch', running (interruptHandler stream s ch env) ch' = running s ch')) := by
  obtain ⟨t, e, hcalls, hclock, hen, hflag⟩ := before_clear stream s ch env h he
  rw [e]
  refine ⟨by rw [← hcalls]; unfold clearFlags; split <;> rfl, ?_⟩
  intro noErr other
  have tc : t.clock = true := by rw [hclock, hc, noErr]; rfl
  have gv : (if stream then 61 else 1) < 2 ^ width stream := by cases stream <;> decide
  have hw : 0 < width stream := by cases stream <;> decide
  refine ⟨?_, ?_, ?_⟩
  · intro n hn
    have hn' : n < width stream := by cases stream <;> simp [isFlag] at hn <;> simp [width] <;> omega
    rw [global_value, clear_flag stream t _ ch ch n h h hn' gv tc]
    have : ((if stream then 61 else 1 : Nat).testBit n || (!stream && (if stream then 61 else 1 : Nat).testBit 0)) = true := by
      cases stream with
      | false => simp
      | true =>
        have : ∀ n < 6, n ≠ 1 → (61 : Nat).testBit n = true := by decide
        simp [isFlag] at hn
        simp [this n hn.1 hn.2]
    rw [this]; simp
  · intro ch' n h' ne hn
    rw [global_value, clear_flag stream t _ ch ch' n h h' hn gv tc, hflag ch' n h' hn]
    simp [ne]
  · intro ch'
    unfold running
    have : (clearFlags stream t (flagGlobal stream) ch).clock = t.clock ∧ (clearFlags stream t (flagGlobal stream) ch).en = t.en := by
      unfold clearFlags; split <;> exact ⟨rfl, rfl⟩
    rw [this.1, this.2, tc, hc, hen]

/-- Two channels with handlers, both run. -/
def two : St := ⟨true, 0, fun ch => ch == 1 || ch == 2, fun ch => ⟨some (10 * ch), some (10 * ch + 1), some (10 * ch + 2)⟩, []⟩

/-- Case: half of the transfer and an event of another channel. -/
example : (interruptHandler false (event false two (1, 2)) 1 [(2, 1)]).calls = [11] ∧
    flag false (interruptHandler false (event false two (1, 2)) 1 [(2, 1)]) 2 1 = true := by decide +kernel
example : (interruptHandler true (event true (event true two (5, 4)) (5, 5)) 5 []).calls = [51, 52] := by decide +kernel

/-- C337 (refuted): all flags are cleared, not those that were read.  The transfer completes while the handler for
its first half runs: the flag is cleared, and the handler for the completion is never called. -/
theorem C337_lost_counterexample :
    let s := interruptHandler false (event false two (1, 2)) 1 [(1, 0), (1, 1)]
    s.calls = [11] ∧ flag false s 1 1 = false ∧ (interruptHandler false s 1 []).calls = [11] := by decide +kernel

/-- C338: an error calls the handler for errors first, and without an error no channel is stopped. -/
theorem C338_error_partial (stream : Bool) (s : St) (ch : Nat) (h : ch < 8) (hc : s.clock = true) :
    (flag stream s ch errorBit = true → ∃ rest, (interruptHandler stream s ch []).calls =
      s.calls ++ (s.handlers ch).error.toList ++ rest) ∧
    (flag stream s ch errorBit = true → running (interruptHandler stream s ch []) ch = false) ∧
    (flag stream s ch errorBit = false → ∀ ch', running (interruptHandler stream s ch []) ch' = running s ch') := by
  obtain ⟨t, e, hcalls, hclock, hen, hflag⟩ := before_clear stream s ch [] h (by simp)
  have q := C337_interrupt_partial stream s ch [] h hc (by simp)
  refine ⟨fun f => ?_, fun f => ?_, fun f => (q.2 f (by simp)).2.2⟩
  · rw [q.1]; unfold expected; rw [f]
    exact ⟨_, by simp only [if_true, List.append_assoc]; rfl⟩
  · rw [e]; unfold running
    have : (clearFlags stream t (flagGlobal stream) ch).clock = t.clock := by unfold clearFlags; split <;> rfl
    rw [this, hclock, f]; simp

example : (interruptHandler false (event false two (1, 3)) 1 []).calls = [10] := by decide +kernel

/-- C338 (refuted): after an error of channel 1 not the channel is disabled but the clock of the controller: channel
2 no longer transfers data, channel 1 is still enabled when the clock comes back, and the flag is still set. -/
theorem C338_controller_counterexample :
    let s := interruptHandler false (event false two (1, 3)) 1 []
    running two 2 = true ∧ running s 2 = false ∧ s.en 1 = true ∧ flag false s 1 3 = true := by decide +kernel

/-- C339: for all channels and flags: `getInterruptFlags()` has exactly the flags of the channel;
`clearInterruptFlags()` clears exactly those asked for (with the global flag of a channel all four) and none of
other channels; `start()` clears all flags of the channel and starts only it, `stop()` stops only it. -/
theorem C339_flags (stream : Bool) (s : St) (ch : Nat) (h : ch < 8) (hc : s.clock = true) :
    (∀ n, (getFlags stream s ch).getLsbD n = (flag stream s ch n && isFlag stream n)) ∧
    (∀ v ch' n, v < 2 ^ width stream → ch' < 8 → n < width stream →
      flag stream (clearFlags stream s (BitVec.ofNat 8 v) ch) ch' n =
        (flag stream s ch' n && !(decide (ch' = ch) && (v.testBit n || (!stream && v.testBit 0))))) ∧
    (∀ n, isFlag stream n = true → flag stream (start stream s ch) ch n = false) ∧
    (∀ ch' n, ch' < 8 → ch' ≠ ch → n < width stream → flag stream (start stream s ch) ch' n = flag stream s ch' n) ∧
    (∀ ch', running (start stream s ch) ch' = if ch' = ch then true else running s ch') ∧
    (∀ ch', running (stop s ch) ch' = if ch' = ch then false else running s ch') := by
  have hw : width stream ≤ 6 := by cases stream <;> decide
  have av : flagAll stream = BitVec.ofNat 8 (if stream then 61 else 15) := by cases stream <;> rfl
  have ab : (if stream then 61 else 15) < 2 ^ width stream := by cases stream <;> decide
  have st : ∀ ch' n, flag stream (start stream s ch) ch' n = flag stream (clearFlags stream s (flagAll stream) ch) ch' n :=
    fun ch' n => rfl
  refine ⟨?_, ?_, ?_, ?_, ?_, ?_⟩
  · intro n
    unfold getFlags flag
    rw [BitVec.getLsbD_and, BitVec.getLsbD_setWidth, BitVec.getLsbD_ushiftRight, offset_eq stream ch h]
    have t : ∀ st : Bool, ∀ n < 8, (flagAll st).getLsbD n = isFlag st n := by decide +kernel
    by_cases n8 : n < 8
    · rw [t stream n n8]; simp [n8]
    · have : isFlag stream n = false := by cases stream <;> simp [isFlag] <;> omega
      simp [n8, this]
  · intro v ch' n hv h' hn
    exact clear_flag stream s v ch ch' n h h' hn hv hc
  · intro n hn
    have hn' : n < width stream := by cases stream <;> simp [isFlag] at hn <;> simp [width] <;> omega
    rw [st, av, clear_flag stream s _ ch ch n h h hn' ab hc]
    have : ((if stream then 61 else 15 : Nat).testBit n || (!stream && (if stream then 61 else 15 : Nat).testBit 0)) = true := by
      cases stream with
      | false => simp
      | true =>
        have : ∀ n < 6, n ≠ 1 → (61 : Nat).testBit n = true := by decide
        simp [isFlag] at hn
        simp [this n hn.1 hn.2]
    rw [this]; simp
  · intro ch' n h' ne hn
    rw [st, av, clear_flag stream s _ ch ch' n h h' hn ab hc]; simp [ne]
  · intro ch'
    unfold running start clearFlags
    rw [if_pos hc]
    by_cases e : ch' = ch
    · subst e; simp [hc]
    · simp [e]
  · intro ch'
    unfold running stop
    by_cases e : ch' = ch
    · subst e; simp
    · simp [e]

/-- Case: the flags of stream 6 do not touch those of stream 5. -/
example : (getFlags true (event true (event true two (5, 5)) (6, 3)) 6) = 0b1000#8 := by decide +kernel

end Props.Dma
