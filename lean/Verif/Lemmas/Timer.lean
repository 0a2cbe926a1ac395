import Verif.Spec.Timer
set_option autoImplicit false
set_option linter.unusedSimpArgs false
namespace Modm.Timer
open Spec.Timer (A)

theorem sub_now {W t0 t : Nat} (_hW : 0 < W) (h : t0 ≤ t) (hd : t - t0 < W) :
    sub W (now W t) (now W t0) = t - t0 := by
  unfold sub now
  have e1 := Nat.mod_add_div t W
  have e2 := Nat.mod_add_div t0 W
  have l1 := Nat.mod_lt t _hW
  have l2 := Nat.mod_lt t0 _hW
  generalize t % W = a at *
  generalize t0 % W = b at *
  generalize hq1 : t / W = q1 at *
  generalize hq2 : t0 / W = q2 at *
  by_cases hq : q1 = q2
  · subst hq
    rw [show a + W - b = (t - t0) + W by omega, Nat.add_mod_right, Nat.mod_eq_of_lt hd]
  · have hlt : q2 < q1 := by
      rw [← hq1, ← hq2] at *
      have := Nat.div_le_div_right (c := W) h
      omega
    have hq1' : q1 = q2 + 1 := by
      apply Nat.le_antisymm _ hlt
      apply Nat.le_of_not_lt; intro hc
      have : W * (q2 + 2) ≤ W * q1 := Nat.mul_le_mul_left _ hc
      rw [Nat.mul_add] at this
      omega
    subst hq1'
    rw [Nat.mul_add] at e1
    rw [Nat.mod_eq_of_lt (by omega)]
    omega

/-- abstraction relation -/
def Abs (W : Nat) (x : T) : A → Prop
  | .off => x.state = STOPPED ∧ x.interval = 0
  | .on t0 i seen fired =>
    x.start = now W t0 ∧ x.interval = i ∧ i < W ∧ (fired = true → seen = true) ∧
      x.state = (if fired then EXPIRED ||| EXECUTED else if seen then EXPIRED else ARMED)

theorem step_refines {W t : Nat} (hW : 0 < W) {x : T} {a a' : A} {o : Op} {r : Option Bool}
    (h : Abs W x a) (hs : Spec.Timer.step W t a o = some (a', r)) :
    (step W t x o).2 = r ∧ Abs W (step W t x o).1 a' := by
  cases o with
  | restart i =>
    simp only [Spec.Timer.step] at hs
    split at hs <;> simp at hs
    obtain ⟨rfl, rfl⟩ := hs
    exact ⟨rfl, rfl, rfl, by assumption, by simp, rfl⟩
  | restartSame =>
    simp only [Spec.Timer.step, Option.some.injEq, Prod.mk.injEq] at hs
    obtain ⟨rfl, rfl⟩ := hs
    cases a with
    | off => exact ⟨rfl, rfl, h.2, hW, by simp, rfl⟩
    | on t0 i seen fired => exact ⟨rfl, rfl, h.2.1, h.2.2.1, by simp, rfl⟩
  | stop =>
    simp only [Spec.Timer.step, Option.some.injEq, Prod.mk.injEq] at hs
    obtain ⟨rfl, rfl⟩ := hs
    exact ⟨rfl, rfl, rfl⟩
  | isStopped =>
    simp only [Spec.Timer.step, Option.some.injEq, Prod.mk.injEq] at hs
    obtain ⟨rfl, rfl⟩ := hs
    refine ⟨?_, h⟩
    cases a with
    | off => simp [step, isStopped, h.1]
    | on t0 i seen fired =>
      simp only [step, isStopped, h.2.2.2.2]
      cases fired <;> cases seen <;> simp [EXPIRED, EXECUTED, ARMED, STOPPED]
  | execute =>
    cases a with
    | off =>
      simp only [Spec.Timer.step, Option.some.injEq, Prod.mk.injEq] at hs
      obtain ⟨rfl, rfl⟩ := hs
      simp only [step, execute, h.1]
      exact ⟨rfl, h⟩
    | on t0 i seen fired =>
      simp only [Spec.Timer.step] at hs
      split at hs <;> simp at hs
      rename_i hc
      obtain ⟨rfl, rfl⟩ := hs
      obtain ⟨h1, h2, h3, h4, h5⟩ := h
      obtain ⟨s, iv, st⟩ := x
      simp only at h1 h2 h5
      subst h2
      cases fired with
      | true =>
        have : seen = true := h4 rfl
        subst this
        simp at h5; subst h5
        refine ⟨by simp [step, execute, EXECUTED, STOPPED, EXPIRED], ?_⟩
        simp [step, execute, EXECUTED, STOPPED, EXPIRED]
        exact ⟨h1, rfl, h3, by simp, rfl⟩
      | false =>
        cases seen with
        | true =>
          simp at h5; subst h5
          refine ⟨by simp [step, execute, EXECUTED, STOPPED, EXPIRED], ?_⟩
          simp [step, execute, EXECUTED, STOPPED, EXPIRED]
          exact ⟨h1, rfl, h3, by simp, rfl⟩
        | false =>
          simp at h5; subst h5
          simp at hc
          have hn := sub_now hW hc.1 hc.2
          rw [← h1] at hn
          by_cases he : iv ≤ t - t0
          · refine ⟨by simp [step, execute, checkExpiration, EXECUTED, STOPPED, EXPIRED, ARMED, hn, he], ?_⟩
            simp [step, execute, checkExpiration, EXECUTED, STOPPED, EXPIRED, ARMED, hn, he]
            exact ⟨h1, rfl, h3, by simp, rfl⟩
          · refine ⟨by simp [step, execute, checkExpiration, EXECUTED, STOPPED, EXPIRED, ARMED, hn, he], ?_⟩
            simp [step, execute, checkExpiration, EXECUTED, STOPPED, EXPIRED, ARMED, hn, he]
            exact ⟨h1, rfl, h3, by simp, rfl⟩
  | isExpired =>
    cases a with
    | off =>
      simp only [Spec.Timer.step, Option.some.injEq, Prod.mk.injEq] at hs
      obtain ⟨rfl, rfl⟩ := hs
      have hce : checkExpiration W t x = false := by simp [checkExpiration, h.1, STOPPED, ARMED]
      refine ⟨by simp [step, isExpired, state, hce, h.1, STOPPED, EXPIRED, STATUS_MASK], ?_⟩
      simpa [step, isExpired, state, hce] using h
    | on t0 i seen fired =>
      simp only [Spec.Timer.step] at hs
      split at hs <;> simp at hs
      rename_i hc
      obtain ⟨rfl, rfl⟩ := hs
      obtain ⟨h1, h2, h3, h4, h5⟩ := h
      obtain ⟨s, iv, st⟩ := x
      simp only at h1 h2 h5
      subst h2
      cases fired with
      | true =>
        have : seen = true := h4 rfl
        subst this
        simp at h5; subst h5
        refine ⟨by simp [step, isExpired, state, checkExpiration, EXECUTED, EXPIRED, ARMED, STATUS_MASK], ?_⟩
        simp [step, isExpired, state, checkExpiration, EXECUTED, ARMED, EXPIRED]
        exact ⟨h1, rfl, h3, by simp, rfl⟩
      | false =>
        cases seen with
        | true =>
          simp at h5; subst h5
          refine ⟨by simp [step, isExpired, state, checkExpiration, EXPIRED, ARMED, STATUS_MASK], ?_⟩
          simp [step, isExpired, state, checkExpiration, ARMED, EXPIRED]
          exact ⟨h1, rfl, h3, by simp, rfl⟩
        | false =>
          simp at h5; subst h5
          simp at hc
          have hn := sub_now hW hc.1 hc.2
          rw [← h1] at hn
          by_cases he : iv ≤ t - t0
          · refine ⟨by simp [step, isExpired, state, checkExpiration, EXPIRED, ARMED, STATUS_MASK, hn, he], ?_⟩
            simp [step, isExpired, state, checkExpiration, EXPIRED, ARMED, hn, he]
            exact ⟨h1, rfl, h3, by simp, rfl⟩
          · refine ⟨by simp [step, isExpired, state, checkExpiration, EXPIRED, ARMED, STATUS_MASK, hn, he], ?_⟩
            simp [step, isExpired, state, checkExpiration, EXPIRED, ARMED, hn, he]
            exact ⟨h1, rfl, h3, by simp, rfl⟩
  | isArmed =>
    cases a with
    | off =>
      simp only [Spec.Timer.step, Option.some.injEq, Prod.mk.injEq] at hs
      obtain ⟨rfl, rfl⟩ := hs
      have hce : checkExpiration W t x = false := by simp [checkExpiration, h.1, STOPPED, ARMED]
      refine ⟨by simp [step, isArmed, state, hce, h.1, STOPPED, ARMED, STATUS_MASK], ?_⟩
      simpa [step, isArmed, state, hce] using h
    | on t0 i seen fired =>
      simp only [Spec.Timer.step] at hs
      split at hs <;> simp at hs
      rename_i hc
      obtain ⟨rfl, rfl⟩ := hs
      obtain ⟨h1, h2, h3, h4, h5⟩ := h
      obtain ⟨s, iv, st⟩ := x
      simp only at h1 h2 h5
      subst h2
      cases fired with
      | true =>
        have : seen = true := h4 rfl
        subst this
        simp at h5; subst h5
        refine ⟨by simp [step, isArmed, state, checkExpiration, EXECUTED, EXPIRED, ARMED, STATUS_MASK], ?_⟩
        simp [step, isArmed, state, checkExpiration, EXECUTED, ARMED, EXPIRED]
        exact ⟨h1, rfl, h3, by simp, rfl⟩
      | false =>
        cases seen with
        | true =>
          simp at h5; subst h5
          refine ⟨by simp [step, isArmed, state, checkExpiration, EXPIRED, ARMED, STATUS_MASK], ?_⟩
          simp [step, isArmed, state, checkExpiration, ARMED, EXPIRED]
          exact ⟨h1, rfl, h3, by simp, rfl⟩
        | false =>
          simp at h5; subst h5
          simp at hc
          have hn := sub_now hW hc.1 hc.2
          rw [← h1] at hn
          by_cases he : iv ≤ t - t0
          · refine ⟨by simp [step, isArmed, state, checkExpiration, EXPIRED, ARMED, STATUS_MASK, hn, he], ?_⟩
            simp [step, isArmed, state, checkExpiration, EXPIRED, ARMED, hn, he]
            exact ⟨h1, rfl, h3, by simp, rfl⟩
          · refine ⟨by simp [step, isArmed, state, checkExpiration, EXPIRED, ARMED, STATUS_MASK, hn, he], ?_⟩
            simp [step, isArmed, state, checkExpiration, EXPIRED, ARMED, hn, he]
            exact ⟨h1, rfl, h3, by simp, rfl⟩

theorem run_refines {W : Nat} (hW : 0 < W) (os : List (Nat × Op)) : ∀ {x : T} {a a' : A}
    {rs : List (Option Bool)}, Abs W x a → Spec.Timer.run W a os = some (a', rs) →
    (run W x os).2 = rs ∧ Abs W (run W x os).1 a' := by
  induction os with
  | nil => intro x a a' rs h hs; simp [Spec.Timer.run] at hs; obtain ⟨rfl, rfl⟩ := hs; exact ⟨rfl, h⟩
  | cons o os ih =>
    intro x a a' rs h hs
    obtain ⟨t, o⟩ := o
    simp only [Spec.Timer.run, Option.bind_eq_bind, Option.bind_eq_some_iff] at hs
    obtain ⟨⟨a1, r⟩, h1, ⟨a2, rs2⟩, h2, h3⟩ := hs
    simp at h3; obtain ⟨rfl, rfl⟩ := h3
    obtain ⟨e1, R1⟩ := step_refines hW h h1
    obtain ⟨e2, R2⟩ := ih R1 h2
    simp only [run]
    exact ⟨by rw [e1, e2], R2⟩

theorem abs_init (W : Nat) : Abs W init .off := ⟨rfl, rfl⟩

/-! ### periodic timer -/

theorem now_add {W : Nat} (s i : Nat) : (now W s + i) % W = now W (s + i) := by
  unfold now; rw [Nat.mod_add_mod]

/-- number the loop adds to `count` when `e` ticks have elapsed since the phase start -/
def added (e i : Nat) : Nat := if e % i = 0 ∧ 2 ≤ e / i then e / i - 1 else e / i

theorem added_base {e i : Nat} (h0 : 0 < i) (h1 : i ≤ e) (h2 : e - i < i) : added e i = 1 := by
  have : e / i = 1 := by
    rw [Nat.div_eq_sub_div h0 h1, Nat.div_eq_of_lt h2]
  simp [added, this]

theorem added_step {e i : Nat} (h0 : 0 < i) (h1 : i ≤ e) (h2 : i ≤ e - i) :
    added e i = (if e - i ≠ i then 1 else 0) + added (e - i) i := by
  have hd : e / i = (e - i) / i + 1 := Nat.div_eq_sub_div h0 h1
  have hm : e % i = (e - i) % i := Nat.mod_eq_sub_mod h1
  have hp : 1 ≤ (e - i) / i := (Nat.one_le_div_iff h0).2 h2
  have hdm := Nat.div_add_mod (e - i) i
  unfold added
  rw [hd, hm]
  by_cases hz : (e - i) % i = 0
  · simp only [hz, true_and]
    by_cases he : e - i = i
    · have : (e - i) / i = 1 := by rw [he]; exact Nat.div_self h0
      rw [this]; simp [he]
    · have : 2 ≤ (e - i) / i := by
        rcases Nat.lt_or_ge ((e - i) / i) 2 with hlt | hge
        · have : (e - i) / i = 1 := by omega
          rw [this, hz] at hdm; omega
        · exact hge
      rw [if_pos (by omega), if_pos this, if_pos he]; omega
  · simp only [hz, false_and, if_false]
    have he : e - i ≠ i := by intro he; rw [he] at hz; simp at hz
    rw [if_pos he]; omega

theorem catchUp_eq {W i t : Nat} (hi : 0 < i) (fuel : Nat) : ∀ (s c : Nat),
    s + i ≤ t → t - s < W → (t - s) / i ≤ fuel →
    catchUp W (now W t) i fuel (now W s) c = some (now W (s + (t - s) / i * i), c + added (t - s) i) := by
  induction fuel with
  | zero =>
    intro s c h1 h2 h3
    have : 1 ≤ (t - s) / i := (Nat.one_le_div_iff hi).2 (by omega)
    omega
  | succ f ih =>
    intro s c h1 h2 h3
    have hW : 0 < W := by omega
    have hdiff : sub W (now W t) (now W (s + i)) = t - s - i := by
      rw [sub_now hW h1 (by omega)]; omega
    have hd : (t - s) / i = (t - s - i) / i + 1 := Nat.div_eq_sub_div hi (by omega)
    have hts : t - (s + i) = t - s - i := by omega
    rw [catchUp]
    simp only [now_add, hdiff]
    by_cases hlt : t - s - i < i
    · rw [if_pos hlt, added_base hi (by omega) hlt]
      have hk : (t - s) / i = 1 := by rw [hd, Nat.div_eq_of_lt hlt]
      rw [hk, Nat.one_mul]
      have : (t - s - i != i) = true := by simp; omega
      simp [this]
    · rw [if_neg hlt]
      rw [ih (s + i) _ (by omega) (by omega) (by rw [hts]; omega)]
      have ha := added_step (e := t - s) hi (by omega) (by omega)
      rw [hts, hd, ha]
      have e1 : s + i + (t - s - i) / i * i = s + ((t - s - i) / i + 1) * i := by
        rw [Nat.add_mul, Nat.one_mul]; omega
      rw [e1]
      by_cases he : t - s - i = i
      · simp [he]
      · have : (t - s - i != i) = true := by simpa using he
        simp [this, he, Nat.add_assoc]

end Modm.Timer
