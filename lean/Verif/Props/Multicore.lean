import Verif.Model.Multicore
set_option autoImplicit false

/-! # Properties of the locks for two cores -/

namespace Props.Multicore
open Model.Multicore

/-! ## Mutual exclusion -/

/-- In how many sections the frames of a core are. -/
def secs : List Frame → Nat
  | [] => 0
  | f :: l => f.secs + secs l

theorem secs_append : ∀ (l l' : List Frame), secs (l ++ l') = secs l + secs l' := by
  intro l
  induction l with
  | nil => intro l'; simp [secs]
  | cons f l ih => intro l'; simp only [List.cons_append, secs, ih]; omega

/-- Sections are left as often as entered. -/
def Chk : List Op → Nat → Prop
  | [], n => n = 0
  | .acq :: r, n => Chk r (n + 1)
  | .rel :: r, n => 0 < n ∧ Chk r (n - 1)
  | .rd :: r, n => Chk r n
  | .cpsid :: r, n => Chk r n
  | .wr :: r, n => Chk r n
  | .work :: r, n => Chk r n

theorem chk_compile : ∀ (p : Prog) (k : List Op) (n : Nat), Chk k n → Chk (compile p ++ k) n := by
  intro p
  induction p with
  | nil => intro k n h; exact h
  | work k ih => intro k' n h; exact ih k' n h
  | lock b k ihb ihk =>
    intro k' n h
    have h2 : Chk (lockOut ++ (compile k ++ k')) (n + 1) := ⟨by omega, ihk k' n h⟩
    show Chk (lockIn ++ (compile b ++ (lockOut ++ compile k)) ++ k') n
    simp only [List.append_assoc]
    exact ihb _ _ h2
  | guard b k ihb ihk =>
    intro k' n h
    have h2 : Chk (guardOut ++ (compile k ++ k')) (n + 1) := ⟨by omega, ihk k' n h⟩
    show Chk (guardIn ++ (compile b ++ (guardOut ++ compile k)) ++ k') n
    simp only [List.append_assoc]
    exact ihb _ _ h2

theorem chk_prog (p : Prog) : Chk (compile p) 0 := by
  have := chk_compile p [] 0 rfl
  rw [List.append_nil] at this
  exact this

/-- The invariant: the lock is claimed exactly by the section there is. -/
def Inv (s : St) : Prop :=
  (∀ i, ∀ f ∈ (s.core i).frames, Chk f.ops f.secs)
  ∧ secs (s.core false).frames + secs (s.core true).frames = if s.held then 1 else 0

theorem upd_total (s : St) (i : Bool) (c : Core) (h : Bool) (d : Nat)
    (hd : secs (s.core i).frames + d = secs c.frames + (if h then 0 else 1))
    (e : (if s.held then 1 else 0) + d = 1)
    (hs : secs (s.core false).frames + secs (s.core true).frames = if s.held then 1 else 0) :
    secs (Function.update s.core i c false).frames + secs (Function.update s.core i c true).frames = if h then 1 else 0 := by
  cases i <;> cases h <;> simp [Function.update] at * <;> omega

theorem upd_same (s : St) (i : Bool) (c : Core) (hd : secs (s.core i).frames = secs c.frames) :
    secs (Function.update s.core i c false).frames + secs (Function.update s.core i c true).frames
      = secs (s.core false).frames + secs (s.core true).frames := by
  cases i <;> simp [Function.update] at * <;> omega

theorem upd_add (s : St) (i : Bool) (c : Core) (hd : secs c.frames = secs (s.core i).frames + 1) :
    secs (Function.update s.core i c false).frames + secs (Function.update s.core i c true).frames
      = secs (s.core false).frames + secs (s.core true).frames + 1 := by
  cases i <;> simp [Function.update] at * <;> omega

theorem upd_sub (s : St) (i : Bool) (c : Core) (hd : secs c.frames + 1 = secs (s.core i).frames) :
    secs (Function.update s.core i c false).frames + secs (Function.update s.core i c true).frames + 1
      = secs (s.core false).frames + secs (s.core true).frames := by
  cases i <;> simp [Function.update] at * <;> omega

theorem upd_chk (s : St) (i : Bool) (c : Core) (h : ∀ i, ∀ f ∈ (s.core i).frames, Chk f.ops f.secs)
    (hc : ∀ f ∈ c.frames, Chk f.ops f.secs) : ∀ j, ∀ f ∈ (Function.update s.core i c j).frames, Chk f.ops f.secs := by
  intro j
  by_cases e : j = i
  · subst e
    rw [Function.update_self]
    exact hc
  · rw [Function.update_of_ne e]
    exact h j

theorem inv_step (H : Prog → Prop) (s s' : St) (hst : Step H s s') (h : Inv s) : Inv s' := by
  obtain ⟨hc, ht⟩ := h
  cases hst with
  | exec _ i f l o r hf ho hs =>
    have hcf := hc i f (by rw [hf]; simp)
    have hcl : ∀ g ∈ l, Chk g.ops g.secs := fun g hg => hc i g (by rw [hf]; simp [hg])
    have hsum : secs (s.core i).frames = f.secs + secs l := by rw [hf]; rfl
    rw [ho] at hcf
    have cons_chk : ∀ f' : Frame, Chk f'.ops f'.secs → ∀ g ∈ f' :: l, Chk g.ops g.secs := by
      intro f' h' g hg
      rcases List.mem_cons.1 hg with e | e
      · rw [e]; exact h'
      · exact hcl g e
    cases o with
    | acq =>
      unfold exec at hs
      simp only at hs
      split at hs
      · cases hs
      · rename_i hh
        cases hs
        refine ⟨upd_chk s i _ hc (cons_chk _ hcf), ?_⟩
        show secs (Function.update s.core i _ false).frames + secs (Function.update s.core i _ true).frames = 1
        rw [upd_add s i _ (by simp only [secs]; omega), ht, if_neg hh]
    | rel =>
      cases hs
      refine ⟨upd_chk s i _ hc (cons_chk _ hcf.2), ?_⟩
      show secs (Function.update s.core i _ false).frames + secs (Function.update s.core i _ true).frames = 0
      have h1 := hcf.1
      have := upd_sub s i ⟨(s.core i).pri, { f with ops := r, secs := f.secs - 1 } :: l⟩ (by simp only [secs]; omega)
      rw [ht] at this
      split at this <;> omega
    | rd =>
      cases hs
      refine ⟨upd_chk s i _ hc (cons_chk _ hcf), ?_⟩
      rw [← ht]
      exact upd_same s i _ (by simp only [secs]; omega)
    | cpsid =>
      cases hs
      refine ⟨upd_chk s i _ hc (cons_chk _ hcf), ?_⟩
      rw [← ht]
      exact upd_same s i _ (by simp only [secs]; omega)
    | wr =>
      cases hs
      refine ⟨upd_chk s i _ hc (cons_chk _ hcf), ?_⟩
      rw [← ht]
      exact upd_same s i _ (by simp only [secs]; omega)
    | work =>
      cases hs
      refine ⟨upd_chk s i _ hc (cons_chk _ hcf), ?_⟩
      rw [← ht]
      exact upd_same s i _ (by simp only [secs]; omega)
  | irq i p hp hi =>
    refine ⟨upd_chk s i _ hc ?_, ?_⟩
    · intro g hg
      rcases List.mem_cons.1 hg with e | e
      · rw [e]; exact chk_prog p
      · exact hc i g e
    · rw [← ht]
      exact upd_same s i _ (by simp only [secs]; omega)
  | ret i f l hf hl ho =>
    have hcf := hc i f (by rw [hf]; simp)
    rw [ho] at hcf
    have hcf : f.secs = 0 := hcf
    refine ⟨upd_chk s i _ hc (fun g hg => hc i g (by rw [hf]; simp [hg])), ?_⟩
    rw [← ht]
    apply upd_same s i
    rw [hf]
    simp only [secs]
    omega

theorem inv_boot (p : Bool → Prog) : Inv (boot p) := by
  refine ⟨?_, rfl⟩
  intro i f hf
  rw [List.mem_singleton.1 hf]
  exact chk_prog (p i)

theorem inv_reach (H : Prog → Prop) (s0 s : St) (h0 : Inv s0) (h : Reach H s0 s) : Inv s := by
  induction h with
  | refl => exact h0
  | step _ hs ih => exact inv_step H _ _ hs ih

/-- **C246** At any time at most one section with `modm::atomic::Lock` or
`SystemSpinLockGuard` is being executed, on both cores and in all handlers
together. -/
theorem C246_exclusive (H : Prog → Prop) (p : Bool → Prog) (s : St) (h : Reach H (boot p) s) :
    secs (s.core false).frames + secs (s.core true).frames ≤ 1 := by
  rw [(inv_reach H _ s (inv_boot p) h).2]
  split <;> omega

/-- A run of one core without interrupts. -/
def run (i : Bool) : Nat → St → St
  | 0, s => s
  | n + 1, s => match (s.core i).frames with
    | f :: l => match f.ops with
      | o :: r => match exec i o r f l s with
        | some s' => run i n s'
        | none => s
      | [] => s
    | [] => s

theorem reach_run (H : Prog → Prop) (s0 : St) (i : Bool) : ∀ (n : Nat) (s : St), Reach H s0 s → Reach H s0 (run i n s) := by
  intro n
  induction n with
  | zero => intro s h; exact h
  | succ n ih =>
    intro s h
    unfold run
    split
    · rename_i f l hf
      split
      · rename_i o r ho
        split
        · rename_i s' hs
          exact ih _ (Reach.step h (Step.exec s s' i f l o r hf ho hs))
        · exact h
      · exact h
    · exact h

/-- Core 0 enters a section, core 1 waits for it. -/
example : ((run true 9 (run false 4 (boot fun _ => .lock (.work .nil) .nil))).core true).frames = [⟨compile (.lock (.work .nil) .nil), [], 0⟩]
    ∧ secs ((run true 9 (run false 4 (boot fun _ => .lock (.work .nil) .nil))).core false).frames = 1
    ∧ secs ((run true 4 (run false 9 (boot fun _ => .lock (.work .nil) .nil))).core true).frames = 1 := by decide

/-! ## Deadlocks -/

/-- A frame `h` waits for the lock, which it holds itself, or one of the frames
`t` it has interrupted. -/
theorem stuck (H : Prog → Prop) (i : Bool) (h : Frame) (t : List Frame) (r : List Op) (hh : h.ops = .acq :: r)
    (hsec : 1 ≤ secs (h :: t)) (s s' : St) (hi : Inv s) (hs : ∃ l, (s.core i).frames = l ++ h :: t) (hr : Reach H s s') :
    (∃ l, (s'.core i).frames = l ++ h :: t) ∧ s'.held = true := by
  have hheld : ∀ u : St, Inv u → (∃ l, (u.core i).frames = l ++ h :: t) → u.held = true := by
    intro u hu hl
    obtain ⟨l, hl⟩ := hl
    have := hu.2
    have h1 : secs (h :: t) ≤ secs (u.core i).frames := by
      rw [hl, secs_append]; omega
    cases hb : u.held with
    | true => rfl
    | false =>
      rw [hb] at this
      cases i <;> simp at this <;> omega
  induction hr with
  | refl => exact ⟨hs, hheld _ hi hs⟩
  | @step u u' hu hst ih =>
    have hinv := inv_reach H s u hi hu
    have hinv' := inv_step H u u' hst hinv
    obtain ⟨⟨l, hl⟩, hb⟩ := ih
    suffices hx : ∃ l, (u'.core i).frames = l ++ h :: t from ⟨hx, hheld u' hinv' hx⟩
    cases hst with
    | exec _ j f l' o r' hf ho hs =>
      by_cases e : j = i
      · subst e
        rw [hl] at hf
        cases l with
        | nil =>
          obtain ⟨rfl, rfl⟩ := List.cons.inj hf
          rw [hh] at ho
          obtain ⟨rfl, rfl⟩ := List.cons.inj ho
          simp [exec, hb] at hs
        | cons g l =>
          obtain ⟨rfl, rfl⟩ := List.cons.inj hf
          cases o with
          | acq => simp [exec, hb] at hs
          | rel => cases hs; exact ⟨_ :: l, by simp [Function.update_self]; rfl⟩
          | rd => cases hs; exact ⟨_ :: l, by simp [Function.update_self]; rfl⟩
          | cpsid => cases hs; exact ⟨_ :: l, by simp [Function.update_self]; rfl⟩
          | wr => cases hs; exact ⟨_ :: l, by simp [Function.update_self]; rfl⟩
          | work => cases hs; exact ⟨_ :: l, by simp [Function.update_self]; rfl⟩
      · have e' : i ≠ j := fun h => e h.symm
        refine ⟨l, ?_⟩
        rw [← hl]
        cases o with
        | acq => simp [exec, hb] at hs
        | rel => cases hs; simp [Function.update_of_ne e']
        | rd => cases hs; simp [Function.update_of_ne e']
        | cpsid => cases hs; simp [Function.update_of_ne e']
        | wr => cases hs; simp [Function.update_of_ne e']
        | work => cases hs; simp [Function.update_of_ne e']
    | irq j p hp hpri =>
      by_cases e : j = i
      · subst e
        refine ⟨⟨compile p, [], 0⟩ :: l, ?_⟩
        simp [Function.update_self, hl]
      · have e' : i ≠ j := fun h => e h.symm
        exact ⟨l, by simp [Function.update_of_ne e', hl]⟩
    | ret j f l' hf hne ho =>
      by_cases e : j = i
      · subst e
        rw [hl] at hf
        cases l with
        | nil =>
          obtain ⟨rfl, rfl⟩ := List.cons.inj hf
          rw [hh] at ho
          cases ho
        | cons g l =>
          obtain ⟨rfl, rfl⟩ := List.cons.inj hf
          exact ⟨l, by simp [Function.update_self]⟩
      · have e' : i ≠ j := fun h => e h.symm
        exact ⟨l, by simp [Function.update_of_ne e', hl]⟩

/-- Core 0 runs a program, core 1 does nothing. -/
def single (p : Prog) : Bool → Prog := fun i => if i then .nil else p

/-- **C247** A `Lock` inside of a `Lock` on the same core waits for ever. -/
theorem C247_nested_counterexample (H : Prog → Prop) :
    ∃ s h, Reach H (boot (single (.lock (.lock (.work .nil) .nil) .nil))) s
      ∧ (∃ r, h.ops = .acq :: r) ∧ ∀ s', Reach H s s' → ∃ l, (s'.core false).frames = l ++ [h] := by
  refine ⟨run false 3 (boot (single (.lock (.lock (.work .nil) .nil) .nil))), ⟨[.acq, .rd, .cpsid, .work, .wr, .rel, .wr, .rel], [false], 1⟩, reach_run H _ false 3 _ Reach.refl, ⟨_, rfl⟩, ?_⟩
  intro s' h
  exact (stuck H false _ [] _ rfl (by decide) _ s' (inv_reach H _ _ (inv_boot _) (reach_run H _ false 3 _ Reach.refl)) ⟨[], rfl⟩ h).1

/-- **C247** An interrupt that comes after the lock was claimed but before
interrupts are disabled, whose handler uses `Lock`: it waits for ever. -/
theorem C247_constructor_counterexample :
    ∃ s h m, Reach (fun _ => True) (boot (single (.lock (.work .nil) .nil))) s
      ∧ (∃ r, h.ops = .acq :: r) ∧ ∀ s', Reach (fun _ => True) s s' → ∃ l, (s'.core false).frames = l ++ [h, m] := by
  have hr := Reach.step (reach_run (fun _ => True) (boot (single (.lock (.work .nil) .nil))) false 1 _ Reach.refl)
    (Step.irq _ false (.lock (.work .nil) .nil) trivial rfl)
  refine ⟨_, ⟨[.acq, .rd, .cpsid, .work, .wr, .rel], [], 0⟩, ⟨[.rd, .cpsid, .work, .wr, .rel], [], 1⟩, hr, ⟨_, rfl⟩, ?_⟩
  intro s' h
  exact (stuck _ false _ _ _ rfl (by decide) _ s' (inv_reach _ _ _ (inv_boot _) hr) ⟨[], rfl⟩ h).1

/-- **C247** The same at the end: interrupts are enabled before the lock is
released. -/
theorem C247_destructor_counterexample :
    ∃ s h m, Reach (fun _ => True) (boot (single (.lock (.work .nil) .nil))) s ∧ m.ops = [.rel]
      ∧ (∃ r, h.ops = .acq :: r) ∧ ∀ s', Reach (fun _ => True) s s' → ∃ l, (s'.core false).frames = l ++ [h, m] := by
  have hr := Reach.step (reach_run (fun _ => True) (boot (single (.lock (.work .nil) .nil))) false 5 _ Reach.refl)
    (Step.irq _ false (.lock (.work .nil) .nil) trivial rfl)
  refine ⟨_, ⟨[.acq, .rd, .cpsid, .work, .wr, .rel], [], 0⟩, ⟨[.rel], [], 1⟩, hr, rfl, ⟨_, rfl⟩, ?_⟩
  intro s' h
  exact (stuck _ false _ _ _ rfl (by decide) _ s' (inv_reach _ _ _ (inv_boot _) hr) ⟨[], rfl⟩ h).1

/-! ## SystemSpinLockGuard -/

/-- Only work. -/
def Works : Prog → Prop
  | .nil => True
  | .work k => Works k
  | _ => False

/-- Sections with guards that are not nested. -/
def Flat : Prog → Prop
  | .nil => True
  | .work k => Flat k
  | .guard b k => Works b ∧ Flat k
  | .lock _ _ => False

/-- Where a frame is: outside, after reading `PRIMASK`, interrupts disabled, in
the section, after it. -/
inductive Ph where
  | idle
  | p1
  | p2
  | p3
  | p4

/-- The accesses fit. -/
def ChkG : List Op → Ph → Prop
  | [], .idle => True
  | .work :: r, .idle => ChkG r .idle
  | .rd :: r, .idle => ChkG r .p1
  | .cpsid :: r, .p1 => ChkG r .p2
  | .acq :: r, .p2 => ChkG r .p3
  | .work :: r, .p3 => ChkG r .p3
  | .rel :: r, .p3 => ChkG r .p4
  | .wr :: r, .p4 => ChkG r .idle
  | _, _ => False

theorem chkG_works : ∀ (p : Prog), Works p → ∀ k, ChkG k .p3 → ChkG (compile p ++ k) .p3 := by
  intro p
  induction p with
  | nil => intro _ k h; exact h
  | work k ih => intro h k' hk; exact ih h k' hk
  | lock b k _ _ => intro h; exact absurd h id
  | guard b k _ _ => intro h; exact absurd h id

theorem chkG_flat : ∀ (p : Prog), Flat p → ChkG (compile p) .idle := by
  intro p
  induction p with
  | nil => intro _; trivial
  | work k ih => intro h; exact ih h
  | lock b k _ _ => intro h; exact absurd h id
  | guard b k _ ihk =>
    intro h
    exact chkG_works b h.1 (guardOut ++ compile k) (ihk h.2)

/-- Interrupts are disabled. -/
def Ph.Off : Ph → Prop
  | .idle => False
  | .p1 => False
  | _ => True

/-- Number of sections. -/
def Ph.sec : Ph → Nat
  | .p3 => 1
  | _ => 0

/-- The invariant of a core. -/
def CoreInv (c : Core) : Prop :=
  ∃ f l ph, c.frames = f :: l ∧ ChkG f.ops ph ∧ f.secs = ph.sec ∧ (ph.Off → c.pri = true)
    ∧ ∀ g ∈ l, g.secs = 0 ∧ ∃ ph' : Ph, ¬ ph'.Off ∧ ChkG g.ops ph'

theorem off_sec (ph : Ph) (h : ¬ ph.Off) : ph.sec = 0 := by
  cases ph <;> first | rfl | exact absurd trivial h

theorem coreInv_upd (s : St) (i : Bool) (c : Core) (h : ∀ i, CoreInv (s.core i)) (hc : CoreInv c) :
    ∀ j, CoreInv (Function.update s.core i c j) := by
  intro j
  by_cases e : j = i
  · subst e; rw [Function.update_self]; exact hc
  · rw [Function.update_of_ne e]; exact h j

theorem core_step (s s' : St) (hst : Step Flat s s') (h : ∀ i, CoreInv (s.core i)) : ∀ i, CoreInv (s'.core i) := by
  cases hst with
  | exec _ i f l o r hf ho hs =>
    obtain ⟨f0, l0, ph, hf0, hc, hsec, hoff, hl⟩ := h i
    rw [hf] at hf0
    obtain ⟨rfl, rfl⟩ := List.cons.inj hf0
    rw [ho] at hc
    cases o with
    | acq =>
      cases ph <;> simp only [ChkG] at hc
      unfold exec at hs
      simp only at hs
      split at hs
      · cases hs
      · cases hs
        exact coreInv_upd s i _ h ⟨_, _, .p3, rfl, hc, by simp [hsec, Ph.sec], hoff, hl⟩
    | rel =>
      cases ph <;> simp only [ChkG] at hc
      cases hs
      exact coreInv_upd s i _ h ⟨_, _, .p4, rfl, hc, by simp [hsec, Ph.sec], hoff, hl⟩
    | rd =>
      cases ph <;> simp only [ChkG] at hc
      cases hs
      exact coreInv_upd s i _ h ⟨_, _, .p1, rfl, hc, hsec, fun h => absurd h id, hl⟩
    | cpsid =>
      cases ph <;> simp only [ChkG] at hc
      cases hs
      exact coreInv_upd s i _ h ⟨_, _, .p2, rfl, hc, hsec, fun _ => rfl, hl⟩
    | wr =>
      cases ph <;> simp only [ChkG] at hc
      cases hs
      exact coreInv_upd s i _ h ⟨_, _, .idle, rfl, hc, hsec, fun h => absurd h id, hl⟩
    | work =>
      cases ph <;> simp only [ChkG] at hc
      · cases hs
        exact coreInv_upd s i _ h ⟨_, _, .idle, rfl, hc, hsec, fun h => absurd h id, hl⟩
      · cases hs
        exact coreInv_upd s i _ h ⟨_, _, .p3, rfl, hc, hsec, hoff, hl⟩
  | irq i p hp hi =>
    obtain ⟨f0, l0, ph, hf0, hc, hsec, hoff, hl⟩ := h i
    have hno : ¬ ph.Off := by
      intro h'
      have := hoff h'
      rw [hi] at this
      cases this
    refine coreInv_upd s i _ h ⟨_, _, .idle, rfl, chkG_flat p hp, rfl, fun h => absurd h id, ?_⟩
    intro g hg
    rw [hf0] at hg
    rcases List.mem_cons.1 hg with e | e
    · rw [e]
      exact ⟨by rw [hsec, off_sec ph hno], ph, hno, hc⟩
    · exact hl g e
  | ret i f l hf hl ho =>
    obtain ⟨f0, l0, ph, hf0, hc, hsec, hoff, hl0⟩ := h i
    rw [hf] at hf0
    obtain ⟨rfl, rfl⟩ := List.cons.inj hf0
    cases l with
    | nil => exact absurd rfl hl
    | cons g l =>
      obtain ⟨h1, ph', h2, h3⟩ := hl0 g (by simp)
      exact coreInv_upd s i _ h ⟨g, l, ph', rfl, h3, by rw [h1, off_sec ph' h2], fun h => absurd h h2, fun x hx => hl0 x (by simp [hx])⟩

theorem core_reach (p : Bool → Prog) (hp : ∀ i, Flat (p i)) (s : St) (h : Reach Flat (boot p) s) : ∀ i, CoreInv (s.core i) := by
  induction h with
  | refl => intro i; exact ⟨_, [], .idle, rfl, chkG_flat _ (hp i), rfl, fun h => absurd h id, by simp⟩
  | step _ hs ih => exact core_step _ _ hs ih

theorem secs_zero : ∀ (l : List Frame) (P : Frame → Prop), (∀ g ∈ l, g.secs = 0 ∧ P g) → secs l = 0 := by
  intro l P
  induction l with
  | nil => intro _; rfl
  | cons f l ih =>
    intro h
    have := (h f (by simp)).1
    have := ih fun g hg => h g (by simp [hg])
    simp only [secs]
    omega

theorem chkG_leave : ∀ (ops : List Op), ChkG ops .p3 → ∃ n r, ops = List.replicate n .work ++ .rel :: r := by
  intro ops
  induction ops with
  | nil => intro h; exact absurd h id
  | cons o ops ih =>
    intro h
    cases o with
    | work =>
      obtain ⟨n, r, e⟩ := ih h
      exact ⟨n + 1, r, by rw [e]; rfl⟩
    | rel => exact ⟨0, ops, rfl⟩
    | acq => exact absurd h id
    | rd => exact absurd h id
    | cpsid => exact absurd h id
    | wr => exact absurd h id

theorem reach_trans (H : Prog → Prop) (a b c : St) (h : Reach H a b) (h' : Reach H b c) : Reach H a c := by
  induction h' with
  | refl => exact h
  | step _ hs ih => exact Reach.step ih hs

theorem run_leave (H : Prog → Prop) (s0 : St) (j : Bool) (n : Nat) : ∀ (s : St) (f : Frame) (l : List Frame) (r : List Op),
    Reach H s0 s → (s.core j).frames = f :: l → f.ops = List.replicate n .work ++ .rel :: r →
    ∃ s', Reach H s s' ∧ s'.held = false ∧ s'.core (!j) = s.core (!j) := by
  induction n with
  | zero =>
    intro s f l r _ hf ho
    refine ⟨_, Reach.step Reach.refl (Step.exec s _ j f l .rel r hf ho rfl), rfl, ?_⟩
    exact Function.update_of_ne (by cases j <;> decide) _ _
  | succ n ih =>
    intro s f l r hr hf ho
    have h1 : Step H s _ := Step.exec s _ j f l .work (List.replicate n .work ++ .rel :: r) hf (by rw [ho]; rfl) rfl
    obtain ⟨s', a, b, c⟩ := ih _ { f with ops := List.replicate n .work ++ .rel :: r } l r (Reach.step hr h1)
      (by simp [Function.update_self]) rfl
    refine ⟨s', ?_, b, ?_⟩
    · exact reach_trans H s _ s' (Reach.step Reach.refl h1) a
    · rw [c]
      exact Function.update_of_ne (by cases j <;> decide) _ _

/-- **C247** With `SystemSpinLockGuard`, not nested, there is no deadlock: if a
core waits for the lock, it is the other core that is in a section, this core
cannot be interrupted, and its next accesses end the section. -/
theorem C247_guard_partial (p : Bool → Prog) (hp : ∀ i, Flat (p i)) (s : St) (h : Reach Flat (boot p) s)
    (i : Bool) (f : Frame) (l : List Frame) (r : List Op) (hf : (s.core i).frames = f :: l) (ho : f.ops = .acq :: r) (hh : s.held = true) :
    (s.core (!i)).pri = true
    ∧ (∃ g l', (s.core (!i)).frames = g :: l' ∧ g.secs = 1 ∧ ∃ n r', g.ops = List.replicate n .work ++ .rel :: r')
    ∧ ∃ s', Reach Flat s s' ∧ s'.held = false ∧ s'.core i = s.core i := by
  have hinv := inv_reach Flat _ s (inv_boot p) h
  have hci := core_reach p hp s h
  obtain ⟨f0, l0, ph, hf0, hc, hsec, hoff, hl⟩ := hci i
  rw [hf] at hf0
  obtain ⟨rfl, rfl⟩ := List.cons.inj hf0
  rw [ho] at hc
  have hi0 : secs (s.core i).frames = 0 := by
    rw [hf]
    have h1 := secs_zero l _ hl
    have h2 : f.secs = 0 := by
      cases ph <;> simp only [ChkG] at hc
      exact hsec
    simp only [secs]
    omega
  have ht : secs (s.core (!i)).frames = 1 := by
    have := hinv.2
    rw [if_pos hh] at this
    cases i
    · show secs (s.core true).frames = 1
      omega
    · show secs (s.core false).frames = 1
      omega
  obtain ⟨g, l', ph', hg, hcg, hsg, hoffg, hlg⟩ := hci (!i)
  have hg1 : g.secs = 1 := by
    have h1 := secs_zero l' _ hlg
    rw [hg] at ht
    simp only [secs] at ht
    omega
  have hph : ph' = .p3 := by
    rw [hg1] at hsg
    cases ph' <;> first | rfl | cases hsg
  subst hph
  obtain ⟨n, r', hn⟩ := chkG_leave _ hcg
  refine ⟨hoffg trivial, ⟨g, l', hg, hg1, n, r', hn⟩, ?_⟩
  obtain ⟨s', a, b, c⟩ := run_leave Flat _ (!i) n s g l' r' h hg hn
  refine ⟨s', a, b, ?_⟩
  rw [Bool.not_not] at c
  exact c

/-- Core 1 waits for core 0. -/
example : Flat (.work (.guard (.work .nil) (.work .nil)))
    ∧ (run true 9 (run false 4 (boot fun _ => .work (.guard (.work .nil) .nil)))).held = true
    ∧ ((run true 9 (run false 4 (boot fun _ => .work (.guard (.work .nil) .nil)))).core true).frames = [⟨[.acq, .work, .rel, .wr], [false], 0⟩] := by
  exact ⟨⟨trivial, trivial⟩, by decide, by decide⟩

/-! ## C248: Mutex -/

/-- Between the end of `lock` and the end of `unlock`. -/
def Inside (pc : Mpc) : Prop := pc = .crit ∨ pc = .rel

/-- The invariant. -/
structure Minv (s : Mst) : Prop where
  one : s.locked = true → ∃ i, Inside (s.pc i) ∧ ¬ Inside (s.pc (!i))
  free : s.locked = false → ∀ i, ¬ Inside (s.pc i)
  wake : ∀ i, s.pc i = .wfe → s.ev i = true ∨ s.locked = true ∨ s.pc (!i) = .sev

theorem minv_step (s s' : Mst) (hst : Mstep s s') (h : Minv s) : Minv s' := by
  obtain ⟨h1, h2, h3⟩ := h
  cases hst with
  | event i =>
    refine ⟨h1, h2, ?_⟩
    intro j hj
    rcases h3 j hj with a | a
    · left
      show Function.update s.ev i true j = true
      by_cases e : j = i
      · subst e; rw [Function.update_self]
      · rw [Function.update_of_ne e]; exact a
    · exact Or.inr a
  | exec _ i hs =>
    have hk := h3 (!i)
    have hki := h3 i
    have f1 := h1
    have f2 := fun h => h2 h false
    have f3 := fun h => h2 h true
    unfold mexec at hs
    obtain ⟨lk, pc, ev⟩ := s
    simp only at *
    have hb : ∀ (P : Bool → Prop), P i → P (!i) → ∀ j, P j := by
      intro P a b j
      cases i <;> cases j <;> assumption
    have hne : (!i) ≠ i := by cases i <;> decide
    cases hp : pc i with
    | out =>
      rw [hp] at hs
      cases hs
      refine ⟨?_, ?_, ?_⟩
      · intro hl
        obtain ⟨j, a, b⟩ := h1 hl
        have hj : j = !i := by
          cases i <;> cases j <;> first | rfl | (rw [hp] at a; rcases a with a | a <;> cases a)
        subst hj
        refine ⟨!i, ?_, ?_⟩
        · show Inside (Function.update pc i .try_ (!i)); rw [Function.update_of_ne hne]; exact a
        · show ¬ Inside (Function.update pc i .try_ (!!i)); rw [Bool.not_not, Function.update_self]; rintro (a | a) <;> cases a
      · intro hl
        refine hb _ ?_ ?_
        · show ¬ Inside (Function.update pc i .try_ i); rw [Function.update_self]; rintro (a | a) <;> cases a
        · show ¬ Inside (Function.update pc i .try_ (!i)); rw [Function.update_of_ne hne]; exact h2 hl _
      · refine hb _ ?_ ?_
        · show Function.update pc i .try_ i = .wfe → _
          rw [Function.update_self]; intro h; cases h
        · show Function.update pc i .try_ (!i) = .wfe → ev (!i) = true ∨ lk = true ∨ Function.update pc i .try_ (!!i) = .sev
          rw [Function.update_of_ne hne, Bool.not_not, Function.update_self]
          intro h
          rcases hk h with a | a | a
          · exact Or.inl a
          · exact Or.inr (Or.inl a)
          · rw [Bool.not_not, hp] at a; cases a
    | try_ =>
      rw [hp] at hs
      simp only at hs
      split at hs
      · rename_i hlk
        cases hs
        refine ⟨?_, ?_, ?_⟩
        · intro hl
          obtain ⟨j, a, b⟩ := h1 hl
          have hj : j = !i := by
            cases i <;> cases j <;> first | rfl | (rw [hp] at a; rcases a with a | a <;> cases a)
          subst hj
          refine ⟨!i, ?_, ?_⟩
          · show Inside (Function.update pc i .wfe (!i)); rw [Function.update_of_ne hne]; exact a
          · show ¬ Inside (Function.update pc i .wfe (!!i)); rw [Bool.not_not, Function.update_self]; rintro (a | a) <;> cases a
        · intro hl
          rw [hlk] at hl; cases hl
        · intro j _
          exact Or.inr (Or.inl hlk)
      · rename_i hlk
        cases hs
        have hlk : lk = false := by cases lk <;> simp_all
        refine ⟨?_, ?_, ?_⟩
        · intro _
          refine ⟨i, ?_, ?_⟩
          · show Inside (Function.update pc i .crit i); rw [Function.update_self]; exact Or.inl rfl
          · show ¬ Inside (Function.update pc i .crit (!i)); rw [Function.update_of_ne hne]; exact h2 hlk _
        · intro hl; cases hl
        · intro j _
          exact Or.inr (Or.inl rfl)
    | wfe =>
      rw [hp] at hs
      simp only at hs
      split at hs
      · cases hs
        refine ⟨?_, ?_, ?_⟩
        · intro hl
          obtain ⟨j, a, b⟩ := h1 hl
          have hj : j = !i := by
            cases i <;> cases j <;> first | rfl | (rw [hp] at a; rcases a with a | a <;> cases a)
          subst hj
          refine ⟨!i, ?_, ?_⟩
          · show Inside (Function.update pc i .try_ (!i)); rw [Function.update_of_ne hne]; exact a
          · show ¬ Inside (Function.update pc i .try_ (!!i)); rw [Bool.not_not, Function.update_self]; rintro (a | a) <;> cases a
        · intro hl
          refine hb _ ?_ ?_
          · show ¬ Inside (Function.update pc i .try_ i); rw [Function.update_self]; rintro (a | a) <;> cases a
          · show ¬ Inside (Function.update pc i .try_ (!i)); rw [Function.update_of_ne hne]; exact h2 hl _
        · refine hb _ ?_ ?_
          · show Function.update pc i .try_ i = .wfe → _
            rw [Function.update_self]; intro h; cases h
          · show Function.update pc i .try_ (!i) = .wfe → Function.update ev i false (!i) = true ∨ lk = true ∨ Function.update pc i .try_ (!!i) = .sev
            rw [Function.update_of_ne hne, Function.update_of_ne hne, Bool.not_not, Function.update_self]
            intro h
            rcases hk h with a | a | a
            · exact Or.inl a
            · exact Or.inr (Or.inl a)
            · rw [Bool.not_not, hp] at a; cases a
      · cases hs
    | crit =>
      rw [hp] at hs
      cases hs
      have hlk : lk = true := by
        cases lk with
        | true => rfl
        | false => exact absurd (Or.inl hp) (h2 rfl i)
      refine ⟨?_, ?_, ?_⟩
      · intro hl
        obtain ⟨j, a, b⟩ := h1 hl
        have hj : j = i := by
          by_cases e : j = i
          · exact e
          · have : i = !j := by cases i <;> cases j <;> simp_all
            rw [← this] at b
            exact absurd (Or.inl hp) b
        subst hj
        refine ⟨j, ?_, ?_⟩
        · show Inside (Function.update pc j .rel j); rw [Function.update_self]; exact Or.inr rfl
        · show ¬ Inside (Function.update pc j .rel (!j)); rw [Function.update_of_ne hne]; exact b
      · intro hl; rw [hlk] at hl; cases hl
      · intro j _
        exact Or.inr (Or.inl hlk)
    | rel =>
      rw [hp] at hs
      cases hs
      have hlk : lk = true := by
        cases lk with
        | true => rfl
        | false => exact absurd (Or.inr hp) (h2 rfl i)
      refine ⟨fun hl => (by cases hl), ?_, ?_⟩
      · intro _
        obtain ⟨j, a, b⟩ := h1 hlk
        have hj : j = i := by
          by_cases e : j = i
          · exact e
          · have : i = !j := by cases i <;> cases j <;> simp_all
            rw [← this] at b
            exact absurd (Or.inr hp) b
        subst hj
        refine hb _ ?_ ?_
        · show ¬ Inside (Function.update pc j .sev j); rw [Function.update_self]; rintro (a | a) <;> cases a
        · show ¬ Inside (Function.update pc j .sev (!j)); rw [Function.update_of_ne hne]; exact b
      · refine hb _ ?_ ?_
        · show Function.update pc i .sev i = .wfe → _
          rw [Function.update_self]; intro h; cases h
        · intro _
          right; right
          show Function.update pc i .sev (!!i) = .sev
          rw [Bool.not_not, Function.update_self]
    | sev =>
      rw [hp] at hs
      cases hs
      refine ⟨?_, ?_, fun j _ => Or.inl rfl⟩
      · intro hl
        obtain ⟨j, a, b⟩ := h1 hl
        have hj : j = !i := by
          cases i <;> cases j <;> first | rfl | (rw [hp] at a; rcases a with a | a <;> cases a)
        subst hj
        refine ⟨!i, ?_, ?_⟩
        · show Inside (Function.update pc i .out (!i)); rw [Function.update_of_ne hne]; exact a
        · show ¬ Inside (Function.update pc i .out (!!i)); rw [Bool.not_not, Function.update_self]; rintro (a | a) <;> cases a
      · intro hl
        refine hb _ ?_ ?_
        · show ¬ Inside (Function.update pc i .out i); rw [Function.update_self]; rintro (a | a) <;> cases a
        · show ¬ Inside (Function.update pc i .out (!i)); rw [Function.update_of_ne hne]; exact h2 hl _

theorem minv_reach (s : Mst) (h : Mreach s) : Minv s := by
  induction h with
  | init ev =>
    refine ⟨fun h => (by cases h), ?_, ?_⟩
    · intro _ i
      rintro (a | a) <;> cases a
    · intro i h; cases h
  | step _ hs ih => exact minv_step _ _ hs ih

/-- **C248** The cores are never both between `lock` and `unlock`. -/
theorem C248_exclusive (s : Mst) (h : Mreach s) : ¬ (Inside (s.pc false) ∧ Inside (s.pc true)) := by
  rintro ⟨a, b⟩
  have hi := minv_reach s h
  cases hl : s.locked with
  | false => exact hi.free hl false a
  | true =>
    obtain ⟨i, c, d⟩ := hi.one hl
    cases i
    · exact d b
    · exact d a

/-- **C248** No wake-up is lost: a core that sleeps in `lock` is woken, because
the other one is between `lock` and the end of `unlock`. -/
theorem C248_wake (s : Mst) (h : Mreach s) (i : Bool) (hs : mexec i s = none) :
    Inside (s.pc (!i)) ∨ s.pc (!i) = .sev := by
  have hi := minv_reach s h
  have hw : s.pc i = .wfe ∧ s.ev i = false := by
    unfold mexec at hs
    cases hp : s.pc i <;> rw [hp] at hs <;> simp only at hs <;> try (cases hs)
    · split at hs <;> cases hs
    · split at hs
      · cases hs
      · rename_i he
        exact ⟨rfl, by cases hb : s.ev i <;> simp_all⟩
  rcases hi.wake i hw.1 with a | a | a
  · rw [hw.2] at a; cases a
  · obtain ⟨j, b, c⟩ := hi.one a
    by_cases e : j = i
    · subst e
      rw [hw.1] at b
      rcases b with b | b <;> cases b
    · have : j = !i := by cases i <;> cases j <;> simp_all
      rw [← this]
      exact Or.inl b
  · exact Or.inr a

/-- A sequence of steps of the cores. -/
def mrun : List Bool → Mst → Option Mst
  | [], s => some s
  | i :: l, s => (mexec i s).bind (mrun l)

/-- Core 1 finds the mutex locked; core 0 unlocks it before core 1 sleeps; the
event is kept. -/
example : ((mrun [false, false, true, true] ⟨false, fun _ => .out, fun _ => false⟩).map fun s => (s.locked, s.pc true)) = some (true, .wfe)
    ∧ ((mrun [false, false, true, true, true] ⟨false, fun _ => .out, fun _ => false⟩).isNone)
    ∧ ((mrun [false, false, true, true, false, false, false, true, true] ⟨false, fun _ => .out, fun _ => false⟩).map
        fun s => (s.locked, s.pc true)) = some (true, .crit) := by decide

/-! ## C249: the stack of core 1 -/

/-- **C249** `runCore1` places the two words for the start at the top of the
memory it is given. -/
theorem C249_runCore1 (bottom size : Nat) (h : 8 ≤ size) (h4 : size % 4 = 0) :
    bottom ≤ runCore1 bottom size ∧ runCore1 bottom size + 8 = bottom + size := by
  unfold runCore1
  omega

/-- **C249** But `Core1::run` passes the top of the stack for its bottom: the
stack of core 1 always begins outside of it, above. -/
theorem C249_outside_counterexample (start top : Nat) (h : start + 8 ≤ top) : top ≤ core1Run start top := by
  unfold core1Run runCore1
  omega

/-- **C249** With the default of 3 KiB it begins in the middle of the stack of
core 0 (0x20041000 to 0x20041C00). -/
theorem C249_core0_counterexample : core1Run 0x20040000 0x20040C00 = 0x200417F8
    ∧ 0x20041000 ≤ core1Run 0x20040000 0x20040C00 ∧ core1Run 0x20040000 0x20040C00 + 8 ≤ 0x20041C00 := by decide

example : runCore1 0x20040000 0xC00 = 0x20040BF8 := by decide

end Props.Multicore
