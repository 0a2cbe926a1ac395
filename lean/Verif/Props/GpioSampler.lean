import Verif.Model.GpioSampler

set_option autoImplicit false

namespace Props.GpioSampler
open Model.GpioSampler

/-! ### Specification -/

inductive Event where
  | edge
  | handler (cycles : BitVec 32) (during : Bool)
deriving DecidableEq

def step (s : Sampler) : Event → Sampler
  | .edge => edge s
  | .handler t d => handler s t d

def run (s : Sampler) (es : List Event) : Sampler := es.foldl step s

/-- The number of changes of the pin. -/
def changes : List Event → Nat
  | [] => 0
  | .edge :: r => changes r + 1
  | .handler _ _ :: r => changes r

/-- The pin does not change while the handler runs. -/
def quiet (es : List Event) : Prop := ∀ t, Event.handler t true ∉ es

/-- The level after `n` changes. -/
def levelAfter (level : Bool) (n : Nat) : Bool := if n % 2 = 0 then level else !level

/-- A sample: the level in bit 0, the time in the others. -/
def sample (cycles : BitVec 32) (level : Bool) : BitVec 32 := ((cycles >>> 1).setWidth 31).concat level

/-- The samples: one for each run of the handler with at least one change before it since the last one. -/
def recorded (level : Bool) : Bool → List Event → List (BitVec 32)
  | _, [] => []
  | _, .edge :: r => recorded (!level) true r
  | true, .handler t _ :: r => sample t level :: recorded level false r
  | false, .handler _ _ :: r => recorded level false r

theorem sample_eq (t : BitVec 32) (l : Bool) : (if l then getTime t ||| 1#32 else getTime t) = sample t l := by
  unfold getTime sample
  apply BitVec.eq_of_getLsbD_eq
  intro i hi
  rw [BitVec.getLsbD_concat]
  have table : ∀ i < 32, i ≠ 0 → (4294967294#32).getLsbD i = true := by decide
  cases l <;> by_cases z : i = 0
  · subst z; simp
  · have e : 1 + (i - 1) = i := by omega
    have m := table i hi z
    rw [BitVec.getLsbD_eq_getElem hi] at m
    have lt : i - 1 < 31 := by omega
    simp [z, e, hi, m, lt]
  · subst z; simp
  · have e : 1 + (i - 1) = i := by omega
    have m := table i hi z
    rw [BitVec.getLsbD_eq_getElem hi] at m
    have lt : i - 1 < 31 := by omega
    simp [z, e, hi, m, lt]

theorem sample_toNat (t : BitVec 32) (l : Bool) : (sample t l).toNat = 2 * (t.toNat / 2) + l.toNat := by
  unfold sample
  rw [BitVec.toNat_concat]
  simp only [BitVec.toNat_setWidth, BitVec.toNat_ushiftRight, Nat.shiftRight_eq_div_pow]
  have := t.isLt
  omega

theorem sample_level (t : BitVec 32) (l : Bool) : decide (sample t l &&& 1#32 ≠ 0#32) = l := by
  have e : sample t l &&& 1#32 = BitVec.ofNat 32 l.toNat := by
    apply BitVec.eq_of_toNat_eq
    rw [BitVec.toNat_and, sample_toNat]
    have : (1#32).toNat = 1 := rfl
    rw [this, Nat.and_one_is_mod]
    cases l <;> simp <;> omega
  rw [e]
  cases l <;> decide

theorem levelAfter_succ (l : Bool) (n : Nat) : levelAfter (!l) n = levelAfter l (n + 1) := by
  unfold levelAfter
  by_cases h : n % 2 = 0
  · rw [if_pos h, if_neg (by omega)]
  · rw [if_neg h, if_pos (by omega)]; simp

theorem add_data (c : Channel) (t : BitVec 32) (all : List (BitVec 32)) (h : c.data = all.take c.maxCount) :
    (add c t).data = (all ++ [t]).take c.maxCount ∧ (add c t).maxCount = c.maxCount := by
  unfold add
  split
  next lt =>
    rw [h, List.length_take] at lt
    have le : all.length < c.maxCount := by omega
    refine ⟨?_, rfl⟩
    simp only
    rw [h, List.take_of_length_le (by omega), List.take_of_length_le (by simp; omega)]
  next ge =>
    rw [h, List.length_take] at ge
    have le : c.maxCount ≤ all.length := by omega
    refine ⟨?_, rfl⟩
    rw [h, List.take_append_of_le_length le]

theorem run_data (es : List Event) : ∀ (s : Sampler) (all : List (BitVec 32)), quiet es → s.channel.data = all.take s.channel.maxCount →
    (run s es).channel.data = (all ++ recorded s.level s.flag es).take s.channel.maxCount ∧
    (run s es).level = levelAfter s.level (changes es) ∧ (run s es).channel.maxCount = s.channel.maxCount := by
  induction es with
  | nil => intro s all _ h; simp [run, recorded, h, levelAfter, changes]
  | cons e es ih =>
    intro s all q h
    have q' : quiet es := fun t m => q t (List.mem_cons_of_mem _ m)
    cases e with
    | edge =>
      have := ih (edge s) all q' h
      obtain ⟨a, b, c⟩ := this
      refine ⟨?_, ?_, c⟩
      · simpa [run, step, edge, recorded] using a
      · simp only [changes]
        rw [← levelAfter_succ]
        simpa [run, step, edge] using b
    | handler t d =>
      have d0 : d = false := by
        cases d with
        | false => rfl
        | true => exact absurd (List.mem_cons_self) (q t)
      subst d0
      cases f : s.flag with
      | false =>
        have hs : handler s t false = s := by simp [handler, f]
        have := ih s all q' h
        rw [f] at this
        simpa [run, step, hs, recorded, changes] using this
      | true =>
        have hs : handler s t false = ⟨add s.channel (sample t s.level), s.level, false⟩ := by
          simp only [handler, f, if_true]
          rw [sample_eq]
          rfl
        obtain ⟨a1, a2⟩ := add_data s.channel (sample t s.level) all h
        have := ih ⟨add s.channel (sample t s.level), s.level, false⟩ (all ++ [sample t s.level]) q' (by simp only; rw [a1, a2])
        simp only [a2] at this
        simpa [run, step, hs, recorded, changes] using this

/-- C356: for all times of changes of the pin and runs of the handler (if the pin does not change while the handler runs): the channel has the first
sample and then one for each run of the handler after a change, in order, at most `max_samples + 1`, each with its time and the level. -/
theorem C356_samples_partial (n : Nat) (level flag : Bool) (t : BitVec 32) (es : List Event) (q : quiet es) :
    (run (restart ⟨allocate n, level, flag⟩ t) es).channel.data = (sample t level :: recorded level flag es).take (n + 1) ∧
    (run (restart ⟨allocate n, level, flag⟩ t) es).channel.data.length ≤ n + 1 := by
  have r : restart ⟨allocate n, level, flag⟩ t = ⟨⟨n + 1, [sample t level]⟩, level, flag⟩ := by
    simp only [restart, reset, allocate, add]
    rw [sample_eq]
    simp
  have := (run_data es ⟨⟨n + 1, [sample t level]⟩, level, flag⟩ [sample t level] q (by simp)).1
  rw [r, this]
  refine ⟨by simp, ?_⟩
  rw [List.length_take]
  exact Nat.min_le_left _ _

/-- C356: a handler has run after the last change and there is space: then the last sample is the level of the pin now. -/
theorem C356_last_partial (n : Nat) (level flag : Bool) (t t' : BitVec 32) (es : List Event) (q : quiet es)
    (hn : (recorded level flag (es ++ [.handler t' false])).length ≤ n) :
    let s := run (restart ⟨allocate n, level, flag⟩ t) (es ++ [.handler t' false])
    read s.channel (s.channel.data.length - 1) = some (levelAfter level (changes es)) ∧ s.level = levelAfter level (changes es) := by
  have key : ∀ (es : List Event) (l f : Bool) (x : BitVec 32), decide (x &&& 1#32 ≠ 0#32) = l ∨ f = true →
      ((x :: recorded l f (es ++ [.handler t' false])).getLast?).map (fun d => decide (d &&& 1#32 ≠ 0#32)) = some (levelAfter l (changes es)) := by
    intro es
    induction es with
    | nil =>
      intro l f x h
      cases f with
      | true => simpa [recorded, levelAfter, changes] using sample_level t' l
      | false => simpa [recorded, levelAfter, changes] using h
    | cons e es ih =>
      intro l f x h
      cases e with
      | edge =>
        simp only [List.cons_append, recorded, changes]
        rw [← levelAfter_succ]
        exact ih (!l) true x (Or.inr rfl)
      | handler u d =>
        cases f with
        | true =>
          simp only [List.cons_append, recorded, changes, List.getLast?_cons_cons]
          exact ih l false (sample u l) (Or.inl (sample_level u l))
        | false =>
          simp only [List.cons_append, recorded, changes]
          exact ih l false x (Or.inl (by simpa using h))
  have q2 : quiet (es ++ [.handler t' false]) := by
    intro u m
    rcases List.mem_append.1 m with m | m
    · exact q u m
    · simp at m
  have ch : changes (es ++ [.handler t' false]) = changes es := by
    clear hn q q2
    induction es with
    | nil => rfl
    | cons e es ih => cases e <;> simp [changes, ih]
  have r : restart ⟨allocate n, level, flag⟩ t = ⟨⟨n + 1, [sample t level]⟩, level, flag⟩ := by
    simp only [restart, reset, allocate, add]
    rw [sample_eq]
    simp
  obtain ⟨a, b, _⟩ := run_data (es ++ [.handler t' false]) ⟨⟨n + 1, [sample t level]⟩, level, flag⟩ [sample t level] q2 (by simp)
  simp only at a b
  rw [List.take_of_length_le (by simp; omega)] at a
  intro s
  refine ⟨?_, ?_⟩
  · have sd : s.channel.data = sample t level :: recorded level flag (es ++ [.handler t' false]) := by
      change (run (restart _ t) _).channel.data = _
      rw [r, a]; rfl
    have := key es level flag (sample t level) (Or.inl (sample_level t level))
    rw [← sd, List.getLast?_eq_getElem?] at this
    unfold Model.GpioSampler.read Model.GpioSampler.get
    have pos : 0 < s.channel.data.length := by rw [sd]; simp
    rw [if_pos (by omega)]
    exact this
  · change (run (restart _ t) _).level = _
    rw [r, b, ch]

/-- C357: the difference of two samples is the time between them, up to two cycles, also if the counter overflows between. -/
theorem C357_diff (c : Channel) (i : Nat) (t t' : BitVec 32) (l l' : Bool) (h0 : c.data[i]? = some (sample t l)) (h1 : c.data[i + 1]? = some (sample t' l')) :
    ∃ d, diff c (i + 1) = some d ∧ (d - (t' - t) + 2#32).toNat ≤ 4 := by
  have b1 : i + 1 < c.data.length := by
    rcases Nat.lt_or_ge (i + 1) c.data.length with h | h
    · exact h
    · rw [List.getElem?_eq_none h] at h1; simp at h1
  refine ⟨sample t' l' - sample t l, ?_, ?_⟩
  · unfold diff Model.GpioSampler.get
    rw [if_neg (by omega), if_pos b1, Nat.add_sub_cancel, if_pos (by omega), h0, h1]
    rfl
  · simp only [BitVec.toNat_add, BitVec.toNat_sub, sample_toNat]
    have a := t.isLt
    have b := t'.isLt
    have : (2#32).toNat = 2 := rfl
    rw [this]
    have x : l.toNat ≤ 1 := by cases l <;> decide
    have y : l'.toNat ≤ 1 := by cases l' <;> decide
    omega

/-- Case: two changes before a run of the handler are one sample; three samples fit. -/
example : (run (restart ⟨allocate 2, false, false⟩ 7#32) [.edge, .handler 20#32 false, .edge, .edge, .handler 31#32 false, .edge, .handler 40#32 false]).channel.data =
    [6#32, 21#32, 31#32] ∧ diff ⟨3, [6#32, 21#32, 31#32]⟩ 1 = some 15#32 ∧
    sample 7#32 false = 6#32 ∧ sample 20#32 true = 21#32 := by decide

/-- C356 (refuted): the flag is acknowledged after the pin is read, so a change between the two is lost: the last sample is high although the pin has
gone low, and no handler will run. -/
theorem C356_lost_counterexample :
    let s := run (restart ⟨allocate 10, false, false⟩ 0#32) [.edge, .handler 20#32 true, .handler 40#32 false]
    s.channel.data = [0#32, 21#32] ∧ read s.channel 1 = some true ∧ s.level = false ∧ s.flag = false := by decide

end Props.GpioSampler
