import Verif.Model.AtomicLock
set_option autoImplicit false

/-! # Properties of critical sections and atomic operations -/

namespace Props.AtomicLock
open Model.AtomicLock

/-! ## Specification -/

/-- The innermost object that switches interrupts on or off. -/
def innermost : List Obj → Option Obj
  | [] => none
  | .prio _ :: l => innermost l
  | o :: _ => some o

/-- The operations `log` (the last one first) done one after the other lead from
`v0` to `v`, and the result of each is the value before it. -/
def Linear (v0 : Val) : List ((Val → Val) × Val) → Val → Prop
  | [], v => v = v0
  | (f, r) :: l, v => v = f r ∧ Linear v0 l r

/-! ## Invariant -/

/-- The value for `BASEPRI`. -/
def enc (c : Cfg) (q : Nat) : Nat := (q <<< (8 - c.bits)) % 256

/-- Where a frame is. -/
inductive Ph where
  | idle
  | pri
  | base
  | lo
  | hi
  | mid (f : Val → Val)

/-- The accesses fit to the objects. -/
def Chk (c : Cfg) : List Op → Ph → List Obj → Prop
  | [], .idle, [] => True
  | .rdPri :: r, .idle, st => Chk c r .pri st
  | .cpsid :: r, .pri, st => Chk c r .idle (.lock :: st)
  | .cpsie :: r, .pri, st => Chk c r .idle (.unlock :: st)
  | .wrPri :: r, .idle, .lock :: st => Chk c r .idle st
  | .wrPri :: r, .idle, .unlock :: st => Chk c r .idle st
  | .rdBase :: r, .idle, st => Chk c r .base st
  | .maxBase q v :: r, .base, st => v = enc c q ∧ Chk c r .idle (.prio q :: st)
  | .wrBase :: r, .idle, .prio _ :: st => Chk c r .idle st
  | .work :: r, .idle, st => Chk c r .idle st
  | .ldLo :: r, .idle, .lock :: st => Chk c r .lo (.lock :: st)
  | .ldHi :: r, .lo, st => Chk c r .hi st
  | .stLo f :: r, .hi, st => Chk c r (.mid f) st
  | .stHi g :: r, .mid f, st => g = f ∧ Chk c r .idle st
  | _, _, _ => False

theorem chk_compile (c : Cfg) : ∀ (p : Prog) (k : List Op) (st : List Obj), Chk c k .idle st → Chk c (compile c p ++ k) .idle st := by
  intro p
  induction p with
  | nil => intro k st h; exact h
  | work k ih => intro k' st h; exact ih k' st h
  | rmw f k ih =>
    intro k' st h
    show Chk c (rmwOps f ++ compile c k ++ k') .idle st
    simp only [rmwOps, lockIn, lockOut, List.cons_append, List.nil_append, Chk, true_and]
    exact ih k' st h
  | lock b k ihb ihk =>
    intro k' st h
    have h2 : Chk c (lockOut ++ (compile c k ++ k')) .idle (.lock :: st) := ihk k' st h
    have h3 := ihb _ _ h2
    show Chk c (lockIn ++ (compile c b ++ (lockOut ++ compile c k)) ++ k') .idle st
    simp only [List.append_assoc]
    exact h3
  | unlock b k ihb ihk =>
    intro k' st h
    have h2 : Chk c (lockOut ++ (compile c k ++ k')) .idle (.unlock :: st) := ihk k' st h
    have h3 := ihb _ _ h2
    show Chk c (unlockIn ++ (compile c b ++ (lockOut ++ compile c k)) ++ k') .idle st
    simp only [List.append_assoc]
    exact h3
  | prio q b k ihb ihk =>
    intro k' st h
    show Chk c (prioIn c q ++ (compile c b ++ (prioOut c ++ compile c k)) ++ k') .idle st
    simp only [List.append_assoc]
    unfold prioIn prioOut
    split
    · have h2 : Chk c (lockOut ++ (compile c k ++ k')) .idle (.lock :: st) := ihk k' st h
      exact ihb _ _ h2
    · have h2 : Chk c ([Op.wrBase] ++ (compile c k ++ k')) .idle (.prio q :: st) := ihk k' st h
      exact ⟨rfl, ihb _ _ h2⟩

/-- The members of the objects are the registers before them. -/
inductive Match (c : Cfg) (e : Regs) : List Nat → List Obj → Regs → Prop where
  | nil : Match c e [] [] e
  | lock {sv ob rg} : Match c e sv ob rg → Match c e (rg.pri :: sv) (.lock :: ob) { rg with pri := 1 }
  | unlock {sv ob rg} : Match c e sv ob rg → Match c e (rg.pri :: sv) (.unlock :: ob) { rg with pri := 0 }
  | prio {sv ob rg} (q : Nat) : Match c e sv ob rg →
      Match c e (rg.base :: sv) (.prio q :: ob) { rg with base := setMax rg.base (enc c q) }

/-- The same inside of a constructor, or of an atomic operation. -/
def MatchP (c : Cfg) (e : Regs) : Ph → List Nat → List Obj → Regs → Prop
  | .idle, sv, ob, rg => Match c e sv ob rg
  | .pri, sv, ob, rg => ∃ sv', sv = rg.pri :: sv' ∧ Match c e sv' ob rg
  | .base, sv, ob, rg => ∃ sv', sv = rg.base :: sv' ∧ Match c e sv' ob rg
  | _, sv, ob, rg => Match c e sv ob rg ∧ ∃ ob', ob = .lock :: ob'

/-- Not inside of an atomic operation. -/
def Ph.Quiet : Ph → Prop
  | .idle => True
  | .pri => True
  | .base => True
  | _ => False

/-- The memory and the value that was loaded; `a` is the value of the object. -/
def MemRel (a : Val) : Ph → Val → Val → Prop
  | .lo, r, m => m = a ∧ r.1 = a.1
  | .hi, r, m => m = a ∧ r = a
  | .mid f, r, m => r = a ∧ m = ((f a).1, a.2)
  | _, _, m => m = a

/-- The frames that were interrupted; `e` are the registers at that time, `lv`
the priority of the interrupt. -/
def Below (c : Cfg) (regs0 : Regs) : Regs → Nat → List Frame → Prop
  | e, _, [] => e = regs0
  | e, lv, f :: l => (∃ ph : Ph, ph.Quiet ∧ Chk c f.ops ph f.objs ∧ MatchP c f.entry ph f.saved f.objs e)
      ∧ e.pri = 0 ∧ (e.base = 0 ∨ lv <<< (8 - c.bits) < e.base) ∧ lv < f.level ∧ Below c regs0 f.entry f.level l

/-- The invariant. -/
def Inv (c : Cfg) (regs0 : Regs) (m0 : Val) (s : St) : Prop :=
  ∃ f l ph a, s.frames = f :: l ∧ Chk c f.ops ph f.objs ∧ MatchP c f.entry ph f.saved f.objs s.regs
    ∧ MemRel a ph f.r s.mem ∧ Linear m0 s.log a ∧ Below c regs0 f.entry f.level l

theorem match_pri (c : Cfg) (e : Regs) {sv : List Nat} {ob : List Obj} {rg : Regs} (h : Match c e sv ob rg) :
    (innermost ob = some .lock → rg.pri = 1) ∧ (innermost ob = some .unlock → rg.pri = 0) := by
  induction h with
  | nil => exact ⟨fun h => by simp [innermost] at h, fun h => by simp [innermost] at h⟩
  | lock _ _ => exact ⟨fun _ => rfl, fun h => by simp [innermost] at h⟩
  | unlock _ _ => exact ⟨fun h => by simp [innermost] at h, fun _ => rfl⟩
  | prio q _ ih => exact ih

theorem matchP_match (c : Cfg) (e : Regs) {ph : Ph} {sv : List Nat} {ob : List Obj} {rg : Regs} (h : MatchP c e ph sv ob rg) :
    ∃ sv', Match c e sv' ob rg := by
  cases ph with
  | idle => exact ⟨_, h⟩
  | pri => obtain ⟨sv', _, h⟩ := h; exact ⟨sv', h⟩
  | base => obtain ⟨sv', _, h⟩ := h; exact ⟨sv', h⟩
  | lo => exact ⟨_, h.1⟩
  | hi => exact ⟨_, h.1⟩
  | mid f => exact ⟨_, h.1⟩

theorem quiet_of_pri (c : Cfg) (e : Regs) {ph : Ph} {sv : List Nat} {ob : List Obj} {rg : Regs} (h : MatchP c e ph sv ob rg)
    (h0 : rg.pri = 0) : ph.Quiet := by
  have key : ∀ ob', ob = .lock :: ob' → Match c e sv ob rg → False := by
    intro ob' ho hm
    have := (match_pri c e hm).1 (by rw [ho]; rfl)
    omega
  cases ph with
  | idle => trivial
  | pri => trivial
  | base => trivial
  | lo => obtain ⟨hm, ob', ho⟩ := h; exact key ob' ho hm
  | hi => obtain ⟨hm, ob', ho⟩ := h; exact key ob' ho hm
  | mid f => obtain ⟨hm, ob', ho⟩ := h; exact key ob' ho hm

theorem inv_boot (c : Cfg) (p : Prog) (regs : Regs) (m : Val) : Inv c regs m (boot c p regs m) := by
  refine ⟨_, [], .idle, m, rfl, ?_, Match.nil, rfl, rfl, rfl⟩
  have := chk_compile c p [] [] trivial
  rw [List.append_nil] at this
  exact this

theorem inv_exec (c : Cfg) (regs0 : Regs) (m0 : Val) (s : St) (f : Frame) (l : List Frame) (o : Op) (r : List Op)
    (hf : s.frames = f :: l) (ho : f.ops = o :: r) (h : Inv c regs0 m0 s) : Inv c regs0 m0 (exec o r s f l) := by
  obtain ⟨f1, l1, ph, a, e1, hc, hm, hr, hl, hb⟩ := h
  rw [hf] at e1
  obtain ⟨rfl, rfl⟩ := List.cons.inj e1
  rw [ho] at hc
  cases o with
  | rdPri =>
    cases ph <;> simp only [Chk] at hc
    exact ⟨_, _, .pri, a, rfl, hc, ⟨_, rfl, hm⟩, hr, hl, hb⟩
  | cpsid =>
    cases ph <;> simp only [Chk] at hc
    obtain ⟨sv', e, hm⟩ := hm
    refine ⟨_, _, .idle, a, rfl, hc, ?_, hr, hl, hb⟩
    show Match c f.entry f.saved _ _
    rw [e]
    exact Match.lock hm
  | cpsie =>
    cases ph <;> simp only [Chk] at hc
    obtain ⟨sv', e, hm⟩ := hm
    refine ⟨_, _, .idle, a, rfl, hc, ?_, hr, hl, hb⟩
    show Match c f.entry f.saved _ _
    rw [e]
    exact Match.unlock hm
  | wrPri =>
    cases ph <;> try (simp only [Chk] at hc)
    cases ho' : f.objs with
    | nil => rw [ho'] at hc; simp only [Chk] at hc
    | cons x ob =>
      rw [ho'] at hc
      have hm' : Match c f.entry f.saved (x :: ob) s.regs := by rw [← ho']; exact hm
      cases x with
      | prio q => simp only [Chk] at hc
      | lock =>
        simp only [Chk] at hc
        generalize hsv : f.saved = sv at hm'
        generalize hrg : s.regs = rg at hm'
        cases hm' with
        | lock hm2 =>
          refine ⟨_, _, .idle, a, rfl, ?_, ?_, hr, hl, hb⟩
          · show Chk c r .idle f.objs.tail
            rw [ho']; exact hc
          · show Match c f.entry f.saved.tail f.objs.tail { s.regs with pri := f.saved.headD 0 }
            rw [ho', hsv, hrg]
            exact hm2
      | unlock =>
        simp only [Chk] at hc
        generalize hsv : f.saved = sv at hm'
        generalize hrg : s.regs = rg at hm'
        cases hm' with
        | unlock hm2 =>
          refine ⟨_, _, .idle, a, rfl, ?_, ?_, hr, hl, hb⟩
          · show Chk c r .idle f.objs.tail
            rw [ho']; exact hc
          · show Match c f.entry f.saved.tail f.objs.tail { s.regs with pri := f.saved.headD 0 }
            rw [ho', hsv, hrg]
            exact hm2
  | rdBase =>
    cases ph <;> simp only [Chk] at hc
    exact ⟨_, _, .base, a, rfl, hc, ⟨_, rfl, hm⟩, hr, hl, hb⟩
  | maxBase q v =>
    cases ph <;> simp only [Chk] at hc
    obtain ⟨sv', e, hm⟩ := hm
    refine ⟨_, _, .idle, a, rfl, hc.2, ?_, hr, hl, hb⟩
    show Match c f.entry f.saved _ _
    rw [e, hc.1]
    exact Match.prio q hm
  | wrBase =>
    cases ph <;> try (simp only [Chk] at hc)
    cases ho' : f.objs with
    | nil => rw [ho'] at hc; simp only [Chk] at hc
    | cons x ob =>
      rw [ho'] at hc
      have hm' : Match c f.entry f.saved (x :: ob) s.regs := by rw [← ho']; exact hm
      cases x with
      | lock => simp only [Chk] at hc
      | unlock => simp only [Chk] at hc
      | prio q =>
        simp only [Chk] at hc
        generalize hsv : f.saved = sv at hm'
        generalize hrg : s.regs = rg at hm'
        cases hm' with
        | prio _ hm2 =>
          refine ⟨_, _, .idle, a, rfl, ?_, ?_, hr, hl, hb⟩
          · show Chk c r .idle f.objs.tail
            rw [ho']; exact hc
          · show Match c f.entry f.saved.tail f.objs.tail { s.regs with base := f.saved.headD 0 }
            rw [ho', hsv, hrg]
            exact hm2
  | work =>
    cases ph <;> simp only [Chk] at hc
    exact ⟨_, _, .idle, a, rfl, hc, hm, hr, hl, hb⟩
  | ldLo =>
    cases ph <;> try (simp only [Chk] at hc)
    cases ho' : f.objs with
    | nil => rw [ho'] at hc; simp only [Chk] at hc
    | cons x ob =>
      cases x with
      | prio q => rw [ho'] at hc; simp only [Chk] at hc
      | unlock => rw [ho'] at hc; simp only [Chk] at hc
      | lock =>
        rw [ho'] at hc
        simp only [Chk] at hc
        refine ⟨_, _, .lo, a, rfl, ?_, ⟨hm, ob, ho'⟩, ⟨hr, ?_⟩, hl, hb⟩
        · show Chk c r .lo f.objs
          rw [ho']; exact hc
        · show s.mem.1 = a.1
          have : s.mem = a := hr
          rw [this]
  | ldHi =>
    cases ph <;> simp only [Chk] at hc
    refine ⟨_, _, .hi, a, rfl, hc, hm, ⟨hr.1, ?_⟩, hl, hb⟩
    show (f.r.1, s.mem.2) = a
    rw [hr.2, hr.1]
  | stLo g =>
    cases ph <;> simp only [Chk] at hc
    refine ⟨_, _, .mid g, a, rfl, hc, hm, ⟨hr.2, ?_⟩, hl, hb⟩
    show ((g f.r).1, s.mem.2) = _
    rw [hr.2, hr.1]
  | stHi g =>
    cases ph <;> simp only [Chk] at hc
    rename_i f'
    obtain ⟨rfl, hc⟩ := hc
    refine ⟨_, _, .idle, g a, rfl, hc, hm.1, ?_, ⟨?_, ?_⟩, hb⟩
    · show (s.mem.1, (g f.r).2) = g a
      rw [hr.2, hr.1]
    · rw [hr.1]
    · rw [hr.1]; exact hl

theorem inv_step (c : Cfg) (regs0 : Regs) (m0 : Val) (s s' : St) (hst : Step c s s') (h : Inv c regs0 m0 s) :
    Inv c regs0 m0 s' := by
  cases hst with
  | exec f l o r hf ho => exact inv_exec c regs0 m0 s f l o r hf ho h
  | irq f l p hd hf hp =>
    obtain ⟨f1, l1, ph, a, e1, hc, hm, hr, hl, hb⟩ := h
    rw [hf] at e1
    obtain ⟨rfl, rfl⟩ := List.cons.inj e1
    obtain ⟨p1, p2, p3⟩ := hp
    have hq := quiet_of_pri c f.entry hm p1
    have hmem : s.mem = a := by
      cases ph <;> first | exact hr | exact absurd hq id
    refine ⟨_, _, .idle, a, rfl, ?_, Match.nil, hmem, hl, ⟨ph, hq, hc, hm⟩, p1, p2, p3, hb⟩
    have := chk_compile c hd [] [] trivial
    rw [List.append_nil] at this
    exact this
  | ret f f' l hf ho =>
    obtain ⟨f1, l1, ph, a, e1, hc, hm, hr, hl, hb⟩ := h
    rw [hf] at e1
    obtain ⟨rfl, rfl⟩ := List.cons.inj e1
    rw [ho] at hc
    obtain ⟨⟨ph', hq, hc', hm'⟩, _, _, _, hb'⟩ := hb
    cases ph <;> try (simp only [Chk] at hc)
    have hmem : s.mem = a := hr
    have hobj : f.objs = [] := by
      cases hx : f.objs with
      | nil => rfl
      | cons x l => rw [hx] at hc; simp only [Chk] at hc
    have hreg : s.regs = f.entry := by
      have hm2 : Match c f.entry f.saved f.objs s.regs := hm
      rw [hobj] at hm2
      generalize f.saved = sv at hm2
      generalize s.regs = rg at hm2
      cases hm2
      rfl
    refine ⟨f', l, ph', a, rfl, hc', ?_, ?_, hl, hb'⟩
    · show MatchP c f'.entry ph' f'.saved f'.objs s.regs
      rw [hreg]; exact hm'
    · show MemRel a ph' f'.r s.mem
      cases ph' <;> first | exact hmem | exact absurd hq id

theorem inv_reach (c : Cfg) (p : Prog) (regs : Regs) (m : Val) (s : St) (h : Reach c (boot c p regs m) s) : Inv c regs m s := by
  induction h with
  | refl => exact inv_boot c p regs m
  | step _ hs ih => exact inv_step c regs m _ _ hs ih

/-! ## C241: Lock, Unlock -/

/-- **C241** When a handler or the main program ends, the registers are what
they were at its begin, whatever interrupts came between. -/
theorem C241_restore (c : Cfg) (p : Prog) (regs : Regs) (m : Val) (s : St) (h : Reach c (boot c p regs m) s)
    (f : Frame) (l : List Frame) (hf : s.frames = f :: l) (hend : f.ops = []) :
    s.regs = f.entry ∧ (l = [] → s.regs = regs) := by
  obtain ⟨f1, l1, ph, a, e1, hc, hm, hr, hl, hb⟩ := inv_reach c p regs m s h
  rw [hf] at e1
  obtain ⟨rfl, rfl⟩ := List.cons.inj e1
  rw [hend] at hc
  cases ph <;> try (simp only [Chk] at hc)
  have hobj : f.objs = [] := by
    cases hx : f.objs with
    | nil => rfl
    | cons x l => rw [hx] at hc; simp only [Chk] at hc
  have hreg : s.regs = f.entry := by
    have hm2 : Match c f.entry f.saved f.objs s.regs := hm
    rw [hobj] at hm2
    generalize f.saved = sv at hm2
    generalize s.regs = rg at hm2
    cases hm2
    rfl
  refine ⟨hreg, ?_⟩
  intro hl0
  subst hl0
  rw [hreg]
  exact hb

theorem below_lock (c : Cfg) (regs0 : Regs) : ∀ (l : List Frame) (e : Regs) (lv : Nat), Below c regs0 e lv l →
    ∀ g ∈ l, innermost g.objs ≠ some .lock := by
  intro l
  induction l with
  | nil => intro _ _ _ g hg; simp at hg
  | cons f l ih =>
    intro e lv hb g hg
    obtain ⟨⟨ph, _, _, hm⟩, h0, _, _, hb'⟩ := hb
    rcases List.mem_cons.1 hg with e1 | e1
    · intro hi
      rw [e1] at hi
      obtain ⟨sv', hm⟩ := matchP_match c f.entry hm
      have := (match_pri c f.entry hm).1 hi
      omega
    · exact ih _ _ hb' g e1

/-- **C241** No interrupt is taken in a section with a `Lock` (except inside of
an `Unlock`): not in what runs, and nothing that was interrupted is in such a
section. -/
theorem C241_lock (c : Cfg) (p : Prog) (regs : Regs) (m : Val) (s : St) (h : Reach c (boot c p regs m) s)
    (f : Frame) (l : List Frame) (hf : s.frames = f :: l) :
    (innermost f.objs = some .lock → ∀ q, ¬ CanTake c s f.level q) ∧ ∀ g ∈ l, innermost g.objs ≠ some .lock := by
  obtain ⟨f1, l1, ph, a, e1, hc, hm, hr, hl, hb⟩ := inv_reach c p regs m s h
  rw [hf] at e1
  obtain ⟨rfl, rfl⟩ := List.cons.inj e1
  refine ⟨?_, below_lock c regs l _ _ hb⟩
  intro hi q hq
  obtain ⟨sv', hm⟩ := matchP_match c f.entry hm
  have := (match_pri c f.entry hm).1 hi
  have := hq.1
  omega

/-- **C241** In a section with an `Unlock` `PRIMASK` masks no interrupt. -/
theorem C241_unlock (c : Cfg) (p : Prog) (regs : Regs) (m : Val) (s : St) (h : Reach c (boot c p regs m) s)
    (f : Frame) (l : List Frame) (hf : s.frames = f :: l) (hu : innermost f.objs = some .unlock) : s.regs.pri = 0 := by
  obtain ⟨f1, l1, ph, a, e1, hc, hm, hr, hl, hb⟩ := inv_reach c p regs m s h
  rw [hf] at e1
  obtain ⟨rfl, rfl⟩ := List.cons.inj e1
  obtain ⟨sv', hm⟩ := matchP_match c f.entry hm
  exact (match_pri c f.entry hm).2 hu

/-! ## LockPriority -/

theorem setMax_le (b v q : Nat) (h : b ≠ 0 ∧ b ≤ q) : setMax b v ≠ 0 ∧ setMax b v ≤ q := by
  unfold setMax
  split
  · omega
  · exact h

theorem setMax_v (b v : Nat) (h : v ≠ 0) : setMax b v ≠ 0 ∧ setMax b v ≤ v := by
  unfold setMax
  split
  · omega
  · omega

theorem match_base (c : Cfg) (e : Regs) (q : Nat) (hq : enc c q ≠ 0) {sv : List Nat} {ob : List Obj} {rg : Regs}
    (h : Match c e sv ob rg) : Obj.prio q ∈ ob → rg.base ≠ 0 ∧ rg.base ≤ enc c q := by
  induction h with
  | nil => intro h; simp at h
  | lock _ ih => intro h; exact ih (by simpa using h)
  | unlock _ ih => intro h; exact ih (by simpa using h)
  | prio q' _ ih =>
    intro h
    rcases List.mem_cons.1 h with e1 | e1
    · cases e1
      exact setMax_v _ _ hq
    · exact setMax_le _ _ _ (ih e1)

theorem enc_eq (c : Cfg) (hb : c.bits ≤ 8) (q : Nat) (hq : q < 2 ^ c.bits) : enc c q = q * 2 ^ (8 - c.bits) := by
  unfold enc
  rw [Nat.shiftLeft_eq]
  apply Nat.mod_eq_of_lt
  have h1 : 2 ^ c.bits * 2 ^ (8 - c.bits) = 256 := by
    rw [← Nat.pow_add, Nat.add_sub_cancel' hb]
  have h2 : q * 2 ^ (8 - c.bits) < 2 ^ c.bits * 2 ^ (8 - c.bits) := Nat.mul_lt_mul_of_pos_right hq (Nat.two_pow_pos _)
  omega

theorem take_lt (c : Cfg) (hb : c.bits ≤ 8) (q lv b : Nat) (_hq : 0 < q) (hq2 : q < 2 ^ c.bits)
    (h1 : b ≠ 0 ∧ b ≤ enc c q) (h2 : b = 0 ∨ lv <<< (8 - c.bits) < b) : lv < q := by
  rw [enc_eq c hb q hq2] at h1
  rw [Nat.shiftLeft_eq] at h2
  have h3 : lv * 2 ^ (8 - c.bits) < q * 2 ^ (8 - c.bits) := by omega
  exact Nat.lt_of_mul_lt_mul_right h3

theorem enc_pos (c : Cfg) (hb : c.bits ≤ 8) (q : Nat) (hq : 0 < q) (hq2 : q < 2 ^ c.bits) : enc c q ≠ 0 := by
  rw [enc_eq c hb q hq2]
  have := Nat.mul_pos hq (Nat.two_pow_pos (8 - c.bits))
  omega

theorem below_prio (c : Cfg) (hbits : c.bits ≤ 8) (regs0 : Regs) (q : Nat) (hq : 0 < q) (hq2 : q < 2 ^ c.bits) :
    ∀ (l : List Frame) (e : Regs) (lv : Nat), Below c regs0 e lv l → ∀ g ∈ l, Obj.prio q ∈ g.objs → lv < q := by
  intro l
  induction l with
  | nil => intro _ _ _ g hg; simp at hg
  | cons f l ih =>
    intro e lv hb g hg ho
    obtain ⟨⟨ph, _, _, hm⟩, h0, h1, h2, hb'⟩ := hb
    rcases List.mem_cons.1 hg with e1 | e1
    · rw [e1] at ho
      obtain ⟨sv', hm⟩ := matchP_match c f.entry hm
      exact take_lt c hbits q lv e.base hq hq2 (match_base c f.entry q (enc_pos c hbits q hq hq2) hm ho) h1
    · have := ih _ _ hb' g e1 ho
      omega

/-- **C242** In a section with `LockPriority(q)` only interrupts that are more
urgent than `q` are taken, and none but those run above it. -/
theorem C242_priority_partial (c : Cfg) (hbits : c.bits ≤ 8) (p : Prog) (regs : Regs) (m : Val) (s : St)
    (h : Reach c (boot c p regs m) s) (q : Nat) (hq : 0 < q) (hq2 : q < 2 ^ c.bits)
    (f : Frame) (l : List Frame) (hf : s.frames = f :: l) :
    (Obj.prio q ∈ f.objs → ∀ x, CanTake c s f.level x → x < q)
    ∧ ((∃ g ∈ l, Obj.prio q ∈ g.objs) → f.level < q) := by
  obtain ⟨f1, l1, ph, a, e1, hc, hm, hr, hl, hb⟩ := inv_reach c p regs m s h
  rw [hf] at e1
  obtain ⟨rfl, rfl⟩ := List.cons.inj e1
  obtain ⟨sv', hm⟩ := matchP_match c f.entry hm
  refine ⟨?_, ?_⟩
  · intro ho x hx
    exact take_lt c hbits q x s.regs.base hq hq2 (match_base c f.entry q (enc_pos c hbits q hq hq2) hm ho) hx.2.1
  · rintro ⟨g, hg, ho⟩
    exact below_prio c hbits regs q hq hq2 l _ _ hb g hg ho

/-- The state after the first `n` accesses, without interrupts. -/
def run : Nat → St → St
  | 0, s => s
  | n + 1, s =>
    match s.frames with
    | f :: l => match f.ops with
      | o :: r => run n (exec o r s f l)
      | [] => s
    | [] => s

theorem reach_run (c : Cfg) (s0 : St) : ∀ (n : Nat) (s : St), Reach c s0 s → Reach c s0 (run n s) := by
  intro n
  induction n with
  | zero => intro s h; exact h
  | succ n ih =>
    intro s h
    unfold run
    split
    · rename_i f l hf
      split
      · rename_i o r ho
        exact ih _ (Reach.step h (Step.exec s f l o r hf ho))
      · exact h
    · exact h

/-- STM32: four bits. -/
def stm : Cfg := ⟨4, false⟩

/-- A section with `LockPriority(5)` inside of which there is a `Lock` and an
atomic increment. -/
def sample : Prog := .prio 5 (.work (.lock (.rmw (fun v => (v.1 + 1, v.2)) .nil) (.work .nil))) .nil

/-- The hypotheses are met: in the section the priorities 0 to 4 are let through,
inside of `Lock` none, and at the end all is as before. -/
example : ((run 3 (boot stm sample ⟨0, 0⟩ (7, 8))).frames.map fun f => (f.objs, f.saved)) = [([.prio 5], [0])]
    ∧ (run 3 (boot stm sample ⟨0, 0⟩ (7, 8))).regs = ⟨0, 0x50⟩
    ∧ ((run 5 (boot stm sample ⟨0, 0⟩ (7, 8))).frames.map fun f => (f.objs, f.saved)) = [([.lock, .prio 5], [0, 0])]
    ∧ (run 5 (boot stm sample ⟨0, 0⟩ (7, 8))).regs = ⟨1, 0x50⟩
    ∧ ((run 15 (boot stm sample ⟨0, 0⟩ (7, 8))).frames.map fun f => f.ops.length) = [0]
    ∧ (run 15 (boot stm sample ⟨0, 0⟩ (7, 8))).regs = ⟨0, 0⟩
    ∧ (run 15 (boot stm sample ⟨0, 0⟩ (7, 8))).mem = (8, 8) := by decide

example : CanTake stm (run 3 (boot stm sample ⟨0, 0⟩ (7, 8))) 256 4 ∧ ¬ CanTake stm (run 3 (boot stm sample ⟨0, 0⟩ (7, 8))) 256 5 := by
  unfold CanTake; decide

/-- An interrupt of priority 4 in the section: the handler runs above it. -/
example : ∃ s f g, Reach stm (boot stm sample ⟨0, 0⟩ (7, 8)) s ∧ s.frames = [f, g] ∧ Obj.prio 5 ∈ g.objs ∧ f.level = 4 :=
  ⟨_, _, _, Reach.step (reach_run stm _ 3 _ Reach.refl) (Step.irq _ _ _ 4 .nil rfl (by unfold CanTake; decide)),
    rfl, by decide, rfl⟩

/-- **C242** `LockPriority(0)`, the most urgent priority, masks nothing: an
interrupt of any priority is taken. -/
theorem C242_zero_counterexample (x : Nat) (hx : x < 16) :
    ∃ s f, Reach stm (boot stm (.prio 0 (.work .nil) .nil) ⟨0, 0⟩ (0, 0)) s ∧ s.frames = [f] ∧ f.objs = [.prio 0]
      ∧ CanTake stm s f.level x := by
  refine ⟨run 2 (boot stm (.prio 0 (.work .nil) .nil) ⟨0, 0⟩ (0, 0)), _, reach_run stm _ 2 _ Reach.refl, rfl, rfl, rfl, Or.inl rfl, ?_⟩
  show x < 256
  omega

/-- **C242** With a priority that has more than the implemented bits nothing is
masked either: `LockPriority(16)` on STM32. -/
theorem C242_range_counterexample (x : Nat) (hx : x < 16) :
    ∃ s f, Reach stm (boot stm (.prio 16 (.work .nil) .nil) ⟨0, 0⟩ (0, 0)) s ∧ s.frames = [f] ∧ f.objs = [.prio 16]
      ∧ CanTake stm s f.level x := by
  refine ⟨run 2 (boot stm (.prio 16 (.work .nil) .nil) ⟨0, 0⟩ (0, 0)), _, reach_run stm _ 2 _ Reach.refl, rfl, rfl, rfl, Or.inl rfl, ?_⟩
  show x < 256
  omega

/-- **C242** On Cortex-M0 `LockPriority` is a `Lock`: no interrupt is taken,
whatever the priority. -/
theorem C242_m0 (c : Cfg) (hc : c.m0 = true) (q : Nat) (b k : Prog) : compile c (.prio q b k) = compile c (.lock b k) := by
  show prioIn c q ++ (compile c b ++ (prioOut c ++ compile c k)) = lockIn ++ (compile c b ++ (lockOut ++ compile c k))
  unfold prioIn prioOut
  rw [if_pos hc, if_pos hc]

/-! ## C243: atomic operations -/

/-- **C243** The atomic operations of the main program and of all handlers
happen one after the other: the result of each is the value that the operation
before it left, and between the operations this value is in memory, in
particular at the end. -/
theorem C243_atomic (c : Cfg) (p : Prog) (regs : Regs) (m : Val) (s : St) (h : Reach c (boot c p regs m) s) :
    ∃ v, Linear m s.log v ∧ ∀ f l, s.frames = f :: l → (f.ops = [] ∨ innermost f.objs ≠ some .lock) → s.mem = v := by
  obtain ⟨f1, l1, ph, a, e1, hc, hm, hr, hl, hb⟩ := inv_reach c p regs m s h
  refine ⟨a, hl, ?_⟩
  intro f l hf hx
  rw [hf] at e1
  obtain ⟨rfl, rfl⟩ := List.cons.inj e1
  have busy : (∃ ob', f.objs = .lock :: ob') → f.ops = [] → False := by
    rintro ⟨ob', ho⟩ h0
    rw [h0, ho] at hc
    cases ph <;> simp only [Chk] at hc
  cases ph with
  | idle => exact hr
  | pri => exact hr
  | base => exact hr
  | lo => exact hr.1
  | hi => exact hr.1
  | mid g =>
    rcases hx with hx | hx
    · exact absurd hx (busy hm.2)
    · obtain ⟨_, ob', ho⟩ := hm
      exact absurd (by rw [ho]; rfl) hx

/-- Increments in the main program and in a handler that interrupts it just
before it locks: both are counted. -/
example : ∃ s, Reach stm (boot stm (.rmw (fun v => (v.1 + 1, v.2)) .nil) ⟨0, 0⟩ (7, 8)) s ∧ s.mem = (9, 8)
    ∧ s.log.map (fun x => x.2) = [(8, 8), (7, 8)] :=
  ⟨_, reach_run stm _ 6 _ (Reach.step (reach_run stm _ 7 _ (Reach.step (reach_run stm _ 1 _ Reach.refl)
    (Step.irq _ _ _ 3 (.rmw (fun v => (v.1 + 1, v.2)) .nil) rfl (by unfold CanTake; decide)))) (Step.ret _ _ _ _ rfl rfl)), rfl, rfl⟩

end Props.AtomicLock
