import Verif.Model.Resumable
import Verif.Spec.Resumable

set_option autoImplicit false

namespace Props.Resumable

open Modm.Resumable
open Modm.Spec.Resumable (Rest Ends callees positions Steady Compiles Calls Allowed Idle)

variable {S V : Type}

/-! ## Entering and leaving a function -/

/-- The state a function uses, at its entry. -/
def slotOf (p : Place) (m : Mem) : Nat :=
  match p.kind with
  | .nested _ => m.level p.obj
  | .indexed _ => p.index
  | .thread => 0

/-- After `pushRf`. -/
def enter (p : Place) (m : Mem) : Mem :=
  match p.kind with
  | .nested _ => m.setLevel p.obj (m.level p.obj + 1)
  | .indexed _ => m
  | .thread => m

/-- Memory while the function runs, with its state `x`. -/
def inside (p : Place) (m : Mem) (x : Nat) : Mem := (enter p m).write p.obj (slotOf p m) x

/-- There is a place for the state of the function. -/
def Room (p : Place) (m : Mem) : Prop :=
  match p.kind with
  | .nested levels => m.level p.obj < levels ∧ levels < 256
  | .indexed functions => p.index < functions
  | .thread => True

theorem mem_ext {m m' : Mem} (hl : m.level = m'.level) (hs : m.state = m'.state) : m = m' := by
  cases m; cases m'; simp_all

theorem write_write (m : Mem) (o i v w : Nat) : (m.write o i v).write o i w = m.write o i w := by
  apply mem_ext <;> simp [Mem.write]

theorem write_self (m : Mem) (o i v : Nat) (h : m.state o i = v) : m.write o i v = m := by
  subst h
  apply mem_ext <;> simp [Mem.write]

theorem read_write (m : Mem) (o i v o' i' : Nat) :
    (m.write o i v).state o' i' = if o' = o ∧ i' = i then v else m.state o' i' := by
  simp only [Mem.write, Function.update]
  by_cases h : o' = o
  · subst h
    by_cases h' : i' = i
    · simp [h']
    · simp [h']
  · simp [h]

theorem push_of {p : Place} {m : Mem} (h : Room p m) :
    pushRf p m = .ok (m.state p.obj (slotOf p m), enter p m) := by
  unfold Room at h
  unfold pushRf slotOf enter
  cases hk : p.kind <;> simp_all

theorem nestingOk_of {p : Place} {m : Mem} (c : Bool) (h : Room p m) : nestingOk c p m = true := by
  unfold Room at h
  unfold nestingOk
  cases hk : p.kind <;> simp_all

theorem set_inside {p : Place} {m : Mem} (h : Room p m) (x v : Nat) :
    setRf p v (inside p m x) = .ok (inside p m v) := by
  unfold Room at h
  unfold setRf inside slotOf enter
  cases hk : p.kind with
  | nested levels =>
    simp only [hk] at h
    simp only []
    rw [if_pos]
    · simp only [Mem.write, Mem.setLevel, Function.update_self, Nat.add_sub_cancel]
      refine congrArg _ (mem_ext rfl ?_)
      simp
    · simp only [Mem.write, Mem.setLevel, Function.update_self]
      omega
  | indexed functions =>
    simp only [hk] at h
    simp only []
    rw [if_pos h, write_write]
  | thread =>
    simp only []
    rw [write_write]

theorem set_enter {p : Place} {m : Mem} (h : Room p m) (v : Nat) :
    setRf p v (enter p m) = .ok (inside p m v) := by
  have := set_inside h ((enter p m).state p.obj (slotOf p m)) v
  rwa [inside, write_self _ _ _ _ rfl] at this

theorem enter_eq {p : Place} {m : Mem} :
    enter p m = inside p m (m.state p.obj (slotOf p m)) := by
  rw [inside, write_self]
  unfold enter
  cases p.kind <;> rfl

theorem pop_inside {p : Place} {m : Mem} (h : Room p m) (x : Nat) :
    popRf p (inside p m x) = m.write p.obj (slotOf p m) x := by
  unfold Room at h
  unfold popRf inside slotOf enter
  cases hk : p.kind with
  | nested levels =>
    simp only [hk] at h
    simp only []
    apply mem_ext
    · simp only [Mem.write, Mem.setLevel, Function.update_self, Function.update_idem]
      have : (m.level p.obj + 1 + 255) % 256 = m.level p.obj := by omega
      rw [this, Function.update_eq_self]
    · rfl
  | indexed functions => rfl
  | thread => rfl

/-! ## Suspended functions -/

/-- The label `l` in a body, what is left when it is jumped to, and the call it is in (if any). -/
inductive At (k : Kind) (a : V) : Src S V → Nat → Rest S V → Option (Nat × V × Rest S V) → Prop where
  | yield (pos : Nat) : At k a (.yield pos) (label k pos) (.src .skip) none
  | wait (pos : Nat) (c : V → S → Bool × S) :
      At k a (.waitWhile pos c) (label k pos) (.src (.waitWhile pos c)) none
  | call (pos g : Nat) (arg : V → S → V) (use : V → Option V → S → S) (s : S) (r : Rest S V) :
      At k a (.call pos g arg use) (label k pos) (.inCall g (arg a s) r use) (some (g, arg a s, r))
  | retCall (pos g : Nat) (arg : V → S → V) (s : S) (r : Rest S V) :
      At k a (.retCall pos g arg) (label k pos) (.inRetCall g (arg a s) r) (some (g, arg a s, r))
  | seqL (x y : Src S V) (l : Nat) (r : Rest S V) (i : Option (Nat × V × Rest S V)) :
      At k a x l r i → At k a (.seq x y) l (.seq r y) i
  | seqR (x y : Src S V) (l : Nat) (r : Rest S V) (i : Option (Nat × V × Rest S V)) :
      At k a y l r i → At k a (.seq x y) l r i
  | iteL (c : V → S → Bool) (x y : Src S V) (l : Nat) (r : Rest S V)
      (i : Option (Nat × V × Rest S V)) : At k a x l r i → At k a (.ite c x y) l r i
  | iteR (c : V → S → Bool) (x y : Src S V) (l : Nat) (r : Rest S V)
      (i : Option (Nat × V × Rest S V)) : At k a y l r i → At k a (.ite c x y) l r i
  | loop (c : V → S → Bool) (x : Src S V) (l : Nat) (r : Rest S V)
      (i : Option (Nat × V × Rest S V)) : At k a x l r i → At k a (.loop c x) l (.seq r (.loop c x)) i

/-- `m` is `base` with function `g` suspended in it, with `r` left to do. -/
inductive Chain (P : Prog S V) : Mem → Nat → V → Rest S V → Mem → Prop where
  | start (base : Mem) (g : Nat) (a : V) : Chain P base g a (.src (P.fn g).body) base
  | leaf (base : Mem) (g : Nat) (a : V) (l : Nat) (r : Rest S V) :
      Room (P.fn g).place base → base.state (P.fn g).place.obj (slotOf (P.fn g).place base) = 0 →
      At (P.fn g).place.kind a (P.fn g).body l r none →
      Chain P base g a r (base.write (P.fn g).place.obj (slotOf (P.fn g).place base) l)
  | call (base : Mem) (g : Nat) (a : V) (l : Nat) (r : Rest S V) (h : Nat) (x : V) (r' : Rest S V)
      (m : Mem) : Room (P.fn g).place base →
      base.state (P.fn g).place.obj (slotOf (P.fn g).place base) = 0 →
      At (P.fn g).place.kind a (P.fn g).body l r (some (h, x, r')) →
      Chain P (inside (P.fn g).place base l) h x r' m →
      Chain P base g a r (popRf (P.fn g).place m)

theorem enter_pop {p : Place} {base m : Mem} (hr : Room p base) (hl : m.level = (enter p base).level) :
    enter p (popRf p m) = m ∧ (popRf p m).level = base.level := by
  unfold Room at hr
  unfold enter at hl ⊢
  unfold popRf
  cases hk : p.kind with
  | nested levels =>
    simp only [hk] at hr hl ⊢
    have h1 : m.level p.obj = base.level p.obj + 1 := by rw [hl]; simp [Mem.setLevel]
    have h2 : (m.level p.obj + 255) % 256 = base.level p.obj := by omega
    constructor
    · apply mem_ext
      · simp only [Mem.setLevel, Function.update_self, Function.update_idem, h2]
        rw [← h1, Function.update_eq_self]
      · rfl
    · simp only [Mem.setLevel, h2]
      rw [hl]
      simp [Mem.setLevel]
  | indexed functions =>
    simp only [hk] at hl ⊢
    exact ⟨trivial, hl⟩
  | thread =>
    simp only [hk] at hl ⊢
    exact ⟨trivial, hl⟩

theorem inside_level (p : Place) (m : Mem) (x : Nat) : (inside p m x).level = (enter p m).level := rfl

theorem pop_state (p : Place) (m : Mem) : (popRf p m).state = m.state := by
  unfold popRf
  cases p.kind <;> rfl

theorem enter_state (p : Place) (m : Mem) : (enter p m).state = m.state := by
  unfold enter
  cases p.kind <;> rfl

theorem inside_read (p : Place) (m : Mem) (x o i : Nat) :
    (inside p m x).state o i = if o = p.obj ∧ i = slotOf p m then x else m.state o i := by
  rw [inside, read_write, enter_state]

theorem chain_level {P : Prog S V} {base : Mem} {g : Nat} {a : V} {r : Rest S V} {m : Mem}
    (h : Chain P base g a r m) : m.level = base.level := by
  induction h with
  | start => rfl
  | leaf => rfl
  | call base g a l r h x r' m hr h0 hat hc ih =>
    exact (enter_pop hr ih).2

theorem chain_keeps {P : Prog S V} {base : Mem} {g : Nat} {a : V} {r : Rest S V} {m : Mem}
    (h : Chain P base g a r m) (o i : Nat) (hn : base.state o i ≠ 0) :
    m.state o i = base.state o i := by
  induction h with
  | start => rfl
  | leaf base g a l r hr h0 hat =>
    rw [read_write, if_neg]
    rintro ⟨rfl, rfl⟩
    exact hn h0
  | call base g a l r h x r' m hr h0 hat hc ih =>
    rw [pop_state]
    have hne : ¬ (o = (P.fn g).place.obj ∧ i = slotOf (P.fn g).place base) := by
      rintro ⟨rfl, rfl⟩
      exact hn h0
    rw [ih, inside_read, if_neg hne]
    rw [inside_read, if_neg hne]
    exact hn

/-- `base` has room for `g` and everything it calls, `d` deep. -/
def Ok (P : Prog S V) : Nat → Mem → Nat → Prop
  | 0, _, _ => True
  | d + 1, m, g =>
    Room (P.fn g).place m ∧ m.state (P.fn g).place.obj (slotOf (P.fn g).place m) = 0 ∧
      ∀ h ∈ callees (P.fn g).body, (P.fn h).place.kind ≠ .thread ∧
        ∀ l, l ≠ 0 → Ok P d (inside (P.fn g).place m l) h

/-- The two ways to run a statement agree. -/
inductive Match (P : Prog S V) (p : Place) (base : Mem) (a : V) (s : Src S V) :
    Except Stuck (Out S V) → Except Stuck (Ends S V) → Prop where
  | error (e : Stuck) : Match P p base a s (.error e) (.error e)
  | done (x : Nat) (σ : S) :
      Match P p base a s (.ok (.next none (inside p base x) σ)) (.ok (.done σ))
  | ret (v : Option V) (σ : S) :
      Match P p base a s (.ok (.ret codeStop v (base.write p.obj (slotOf p base) (endState p.kind)) σ))
        (.ok (.ret v σ))
  | restart (σ : S) :
      Match P p base a s (.ok (.ret codeRunning none (base.write p.obj (slotOf p base) 0) σ))
        (.ok (.restart σ))
  | susp (l : Nat) (r : Rest S V) (σ : S) : At p.kind a s l r none →
      Match P p base a s (.ok (.ret codeRunning none (base.write p.obj (slotOf p base) l) σ))
        (.ok (.susp r σ))
  | suspCall (l : Nat) (r : Rest S V) (h : Nat) (x : V) (r' : Rest S V) (m : Mem) (σ : S) :
      At p.kind a s l r (some (h, x, r')) → Chain P (inside p base l) h x r' m →
      Match P p base a s (.ok (.ret codeRunning none (popRf p m) σ)) (.ok (.susp r σ))

/-- The two ways to call a function agree. -/
inductive MatchR (P : Prog S V) (g : Nat) (base : Mem) (a : V) :
    Except Stuck (Reply S V) → Except Stuck (Modm.Spec.Resumable.Reply S V) → Prop where
  | error (e : Stuck) : MatchR P g base a (.error e) (.error e)
  | fin (v : Option V) (σ : S) :
      MatchR P g base a
        (.ok ⟨codeStop, v, base.write (P.fn g).place.obj (slotOf (P.fn g).place base)
          (endState (P.fn g).place.kind), σ⟩) (.ok (.fin v σ))
  | susp (r : Rest S V) (m : Mem) (σ : S) : Chain P base g a r m →
      MatchR P g base a (.ok ⟨codeRunning, none, m, σ⟩) (.ok (.susp r σ))

/-- The specification of a call, `d` deep. -/
def againD (P : Prog S V) (n : Nat) : Nat → Nat → V → Rest S V → S →
    Except Stuck (Modm.Spec.Resumable.Reply S V)
  | 0, _, _, _, _ => .error .bound
  | d + 1, g, a, r, s => Modm.Spec.Resumable.close P g (Modm.Spec.Resumable.resume P n d a r s)

theorem start_again (P : Prog S V) (n d g : Nat) (a : V) (s : S) :
    Modm.Spec.Resumable.start P n d g a s = againD P n d g a (.src (P.fn g).body) s := by
  cases d with
  | zero => rfl
  | succ d => simp only [Modm.Spec.Resumable.start, againD, Modm.Spec.Resumable.resume]

/-- Calls `d` deep are right. -/
def Right (P : Prog S V) (n d : Nat) : Prop :=
  ∀ (base : Mem) (g : Nat) (a : V) (r : Rest S V) (m : Mem) (σ : S),
    Ok P d base g → Chain P base g a r m →
    MatchR P g base a (callFn P n d g a m σ) (againD P n d g a r σ)

theorem label_ne {k : Kind} (pos : Nat) (h : k ≠ .thread) : label k pos ≠ 0 := by
  cases k <;> simp_all [label]

theorem positions_at {k : Kind} {a : V} {s : Src S V} {l : Nat} {r : Rest S V}
    {i : Option (Nat × V × Rest S V)} (h : At k a s l r i) : l ∈ (positions s).map (label k) := by
  induction h <;> simp_all [positions]

theorem labels_expand (k : Kind) (s : Src S V) :
    (expand k s).labels = (positions s).map (label k) := by
  induction s <;> simp_all [expand, Cpp.labels, positions, suspend, finish]

theorem match_lift {P : Prog S V} {p : Place} {base : Mem} {a : V} {s s' : Src S V}
    (hf : ∀ l r i, At p.kind a s l r i → At p.kind a s' l r i)
    {x : Except Stuck (Out S V)} {y : Except Stuck (Ends S V)} (h : Match P p base a s x y) :
    Match P p base a s' x y := by
  cases h with
  | error e => exact .error e
  | done x σ => exact .done x σ
  | ret v σ => exact .ret v σ
  | restart σ => exact .restart σ
  | susp l r σ hat => exact .susp l _ σ (hf _ _ _ hat)
  | suspCall l r h x r' m σ hat hc => exact .suspCall l _ h x r' m σ (hf _ _ _ hat) hc

section

variable {P : Prog S V} {n d : Nat} {p : Place} {base : Mem} {a : V}

theorem skip_seek (callee : Nat → V → Mem → S → Except Stuck (Reply S V)) (c : Cpp S V) (l : Nat)
    (hl : l ∉ c.labels) (m : Mem) (σ : S) :
    exec callee n p a c (some l) m σ = .ok (.next (some l) m σ) := by
  induction c generalizing m σ with
  | seq x y ihx ihy =>
    simp only [Cpp.labels, List.mem_append, not_or] at hl
    rw [exec, ihx hl.1]
    exact ihy hl.2 _ _
  | ite c x y ihx ihy =>
    simp only [Cpp.labels, List.mem_append, not_or] at hl
    rw [exec, if_neg hl.1]
    exact ihy hl.2 _ _
  | loop c x ih =>
    simp only [Cpp.labels] at hl
    rw [exec, if_neg hl]
  | when c x ih =>
    simp only [Cpp.labels] at hl
    rw [exec]
    exact ih hl _ _
  | case v =>
    simp only [Cpp.labels, List.mem_singleton] at hl
    rw [exec, if_neg hl]
  | _ => rfl

theorem exec_suspend (callee : Nat → V → Mem → S → Except Stuck (Reply S V)) (m : Mem) (σ : S) :
    exec callee n p a suspend none m σ = .ok (.ret codeRunning none (popRf p m) σ) := rfl

theorem exec_finish (callee : Nat → V → Mem → S → Except Stuck (Reply S V)) (hr : Room p base)
    (x : Nat) (σ : S) :
    exec callee n p a (finish p.kind) none (inside p base x) σ =
      .ok (.next none (base.write p.obj (slotOf p base) (endState p.kind)) σ) := by
  simp only [finish, exec, set_inside hr, pop_inside hr]

/-- What is known about the running function. -/
structure Env (P : Prog S V) (d : Nat) (p : Place) (base : Mem) (s : Src S V) : Prop where
  room : Room p base
  steady : Steady s
  labels : 0 ∉ (positions s).map (label p.kind)
  callees : ∀ h ∈ callees s, (P.fn h).place.kind ≠ .thread ∧ ∀ l, l ≠ 0 → Ok P d (inside p base l) h

theorem Env.seq {x y : Src S V} (h : Env P d p base (.seq x y)) :
    Env P d p base x ∧ Env P d p base y := by
  obtain ⟨h1, h2, h3, h4⟩ := h
  simp only [positions, List.map_append, List.mem_append, not_or] at h3
  simp only [Modm.Spec.Resumable.callees, List.mem_append] at h4
  exact ⟨⟨h1, h2.1, h3.1, fun h hh => h4 h (Or.inl hh)⟩, ⟨h1, h2.2, h3.2, fun h hh => h4 h (Or.inr hh)⟩⟩

theorem Env.ite {c : V → S → Bool} {x y : Src S V} (h : Env P d p base (.ite c x y)) :
    Env P d p base x ∧ Env P d p base y := by
  obtain ⟨h1, h2, h3, h4⟩ := h
  simp only [positions, List.map_append, List.mem_append, not_or] at h3
  simp only [Modm.Spec.Resumable.callees, List.mem_append] at h4
  exact ⟨⟨h1, h2.1, h3.1, fun h hh => h4 h (Or.inl hh)⟩, ⟨h1, h2.2, h3.2, fun h hh => h4 h (Or.inr hh)⟩⟩

theorem Env.loop {c : V → S → Bool} {x : Src S V} (h : Env P d p base (.loop c x)) :
    Env P d p base x := by
  obtain ⟨h1, h2, h3, h4⟩ := h
  exact ⟨h1, h2, h3, h4⟩

/-- One call of a function from within another one. -/
theorem call_match (hR : Right P n d) (h : Nat) (x : V) (r : Rest S V) (l : Nat) (m : Mem) (σ : S)
    (hok : (P.fn h).place.kind ≠ .thread ∧ ∀ l, l ≠ 0 → Ok P d (inside p base l) h) (hl : l ≠ 0)
    (hc : Chain P (inside p base l) h x r m) :
    (∃ e, callFn P n d h x m σ = .error e ∧ againD P n d h x r σ = .error e) ∨
    (∃ v σ', callFn P n d h x m σ = .ok ⟨codeStop, v, inside p base l, σ'⟩ ∧
      againD P n d h x r σ = .ok (.fin v σ')) ∨
    (∃ r' m' σ', callFn P n d h x m σ = .ok ⟨codeRunning, none, m', σ'⟩ ∧
      againD P n d h x r σ = .ok (.susp r' σ') ∧ Chain P (inside p base l) h x r' m') := by
  have hm := hR _ _ _ _ _ σ (hok.2 l hl) hc
  generalize hA : callFn P n d h x m σ = A at hm
  generalize hB : againD P n d h x r σ = B at hm
  cases hm with
  | error e => exact Or.inl ⟨e, rfl, rfl⟩
  | fin v σ' =>
    refine Or.inr (Or.inl ⟨v, σ', ?_, rfl⟩)
    cases d with
    | zero => simp [callFn] at hA
    | succ d =>
      have h0 := (hok.2 l hl).2.1
      have he : endState (P.fn h).place.kind = 0 := by
        have := hok.1
        cases hk : (P.fn h).place.kind <;> simp_all [endState, stopped]
      rw [he, write_self _ _ _ _ h0]
  | susp r' m' σ' hc' => exact Or.inr (Or.inr ⟨r', m', σ', rfl, rfl, hc'⟩)

theorem loop_match {c : V → S → Bool} {b : Src S V}
    (hb : ∀ x σ, Match P p base a b (exec (callFn P n d) n p a (expand p.kind b) none (inside p base x) σ)
      (Modm.Spec.Resumable.eval (Modm.Spec.Resumable.start P n d) n a b σ)) (k x : Nat) (σ : S) :
    Match P p base a (.loop c b)
      (iter (c a) (fun m s => exec (callFn P n d) n p a (expand p.kind b) none m s) k (inside p base x) σ)
      (Modm.Spec.Resumable.iter (c a) (fun s =>
        match Modm.Spec.Resumable.eval (Modm.Spec.Resumable.start P n d) n a b s with
        | .ok (.susp r s') => .ok (.susp (.seq r (.loop c b)) s')
        | r => r) k σ) := by
  induction k generalizing x σ with
  | zero =>
    simp only [iter, Modm.Spec.Resumable.iter]
    by_cases h : c a σ = true
    · simp only [if_pos h]; exact .error _
    · simp only [if_neg h]; exact .done _ _
  | succ k ih =>
    simp only [iter, Modm.Spec.Resumable.iter]
    by_cases h : c a σ = true
    · simp only [if_pos h]
      have hm := hb x σ
      generalize exec (callFn P n d) n p a (expand p.kind b) none (inside p base x) σ = A at hm ⊢
      generalize Modm.Spec.Resumable.eval (Modm.Spec.Resumable.start P n d) n a b σ = B at hm ⊢
      cases hm with
      | error e => exact .error e
      | done x σ => exact ih _ _
      | ret v σ => exact .ret v σ
      | restart σ => exact .restart σ
      | susp l r σ hat => exact .susp l _ σ (.loop _ _ _ _ _ hat)
      | suspCall l r h x r' m σ hat hc => exact .suspCall l _ h x r' m σ (.loop _ _ _ _ _ hat) hc
    · simp only [if_neg h]; exact .done _ _

/-- A statement run from its beginning does the same as in a fiber. -/
theorem exec_fresh (hR : Right P n d) (s : Src S V) (he : Env P d p base s) (x : Nat) (σ : S) :
    Match P p base a s (exec (callFn P n d) n p a (expand p.kind s) none (inside p base x) σ)
      (Modm.Spec.Resumable.eval (Modm.Spec.Resumable.start P n d) n a s σ) := by
  induction s generalizing x σ with
  | skip => exact .done _ _
  | act f => exact .done _ _
  | seq s t ihs iht =>
    simp only [expand, exec, Modm.Spec.Resumable.eval]
    have hm := ihs he.seq.1 x σ
    generalize exec (callFn P n d) n p a (expand p.kind s) none (inside p base x) σ = A at hm ⊢
    generalize Modm.Spec.Resumable.eval (Modm.Spec.Resumable.start P n d) n a s σ = B at hm ⊢
    cases hm with
    | error e => exact .error e
    | done x σ =>
      exact match_lift (fun l r i h => .seqR _ _ _ _ _ h) (iht he.seq.2 x σ)
    | ret v σ => exact .ret v σ
    | restart σ => exact .restart σ
    | susp l r σ hat => exact .susp l _ σ (.seqL _ _ _ _ _ hat)
    | suspCall l r h x r' m σ hat hc => exact .suspCall l _ h x r' m σ (.seqL _ _ _ _ _ hat) hc
  | ite c s t ihs iht =>
    simp only [expand, exec, Modm.Spec.Resumable.eval]
    by_cases h : c a σ = true
    · simp only [if_pos h]
      exact match_lift (fun l r i h => .iteL _ _ _ _ _ _ h) (ihs he.ite.1 x σ)
    · simp only [if_neg h]
      exact match_lift (fun l r i h => .iteR _ _ _ _ _ _ h) (iht he.ite.2 x σ)
  | loop c b ih =>
    simp only [expand, exec, Modm.Spec.Resumable.eval]
    exact loop_match (fun x σ => ih he.loop x σ) n x σ
  | yield pos =>
    simp only [expand, exec, set_inside he.room, suspend, pop_inside he.room, Modm.Spec.Resumable.eval]
    exact .susp _ _ _ (.yield pos)
  | waitWhile pos c =>
    simp only [expand, exec, set_inside he.room, Modm.Spec.Resumable.eval]
    by_cases h : (c a σ).1 = true
    · simp only [if_pos h, exec_suspend, pop_inside he.room]
      exact .susp _ _ _ (.wait pos c)
    · simp only [if_neg h]
      exact .done _ _
  | call pos g arg use =>
    simp only [expand, exec, set_inside he.room, Modm.Spec.Resumable.eval]
    have hl : label p.kind pos ≠ 0 := by
      have := he.labels
      simp only [positions, List.map_cons, List.map_nil, List.mem_singleton] at this
      exact fun h => this h.symm
    have hg := he.callees g (by simp [Modm.Spec.Resumable.callees])
    have hcs := call_match (σ := σ) hR g (arg a σ) _ _ _ hg hl (.start (inside p base (label p.kind pos)) g (arg a σ))
    rw [← start_again] at hcs
    rcases hcs with ⟨e, h1, h2⟩ | ⟨v, σ', h1, h2⟩ | ⟨r', m', σ', h1, h2, h3⟩
    · simp only [h1, h2]; exact .error e
    · simp only [h1, h2]
      rw [if_neg (by decide)]
      exact .done _ _
    · simp only [h1, h2]
      rw [if_pos (by decide), exec_suspend]
      exact .suspCall _ _ _ _ _ _ _ (.call pos g arg use σ r') h3
  | ret v =>
    simp only [expand, exec, exec_finish _ he.room, Modm.Spec.Resumable.eval]
    exact .ret _ _
  | exit =>
    simp only [expand, exec, exec_finish _ he.room, Modm.Spec.Resumable.eval]
    exact .ret _ _
  | retCall pos g arg =>
    simp only [expand, exec, set_inside he.room, Modm.Spec.Resumable.eval]
    have hl : label p.kind pos ≠ 0 := by
      have := he.labels
      simp only [positions, List.map_cons, List.map_nil, List.mem_singleton] at this
      exact fun h => this h.symm
    have hg := he.callees g (by simp [Modm.Spec.Resumable.callees])
    have hcs := call_match (σ := σ) hR g (arg a σ) _ _ _ hg hl (.start (inside p base (label p.kind pos)) g (arg a σ))
    rw [← start_again] at hcs
    rcases hcs with ⟨e, h1, h2⟩ | ⟨v, σ', h1, h2⟩ | ⟨r', m', σ', h1, h2, h3⟩
    · simp only [h1, h2]; exact .error e
    · simp only [h1, h2]
      rw [if_neg (by decide), exec_finish _ he.room]
      exact .ret _ _
    · simp only [h1, h2]
      rw [if_pos (by decide), exec_suspend]
      exact .suspCall _ _ _ _ _ _ _ (.retCall pos g arg σ r') h3
  | restart =>
    simp only [expand, exec, set_inside he.room, exec_suspend, pop_inside he.room, Modm.Spec.Resumable.eval]
    exact .restart _

/-- The memory belonging to a label. -/
def Holds (P : Prog S V) (p : Place) (base : Mem) (l : Nat) (m : Mem) : Option (Nat × V × Rest S V) → Prop
  | none => m = inside p base l
  | some (h, x, r) => Chain P (inside p base l) h x r m

/-- A statement entered at a label does the same as a fiber with the rest of it. -/
theorem exec_seek (hR : Right P n d) {s : Src S V} {l : Nat} {r : Rest S V}
    {i : Option (Nat × V × Rest S V)} (hat : At p.kind a s l r i) (he : Env P d p base s)
    (hd : ((positions s).map (label p.kind)).Nodup) (m : Mem) (hm : Holds P p base l m i) (σ : S) :
    Match P p base a s (exec (callFn P n d) n p a (expand p.kind s) (some l) m σ)
      (Modm.Spec.Resumable.resume P n d a r σ) := by
  induction hat with
  | yield pos =>
    simp only [Holds] at hm
    subst hm
    simp only [expand, exec, suspend, Modm.Spec.Resumable.resume, Modm.Spec.Resumable.eval, if_true]
    exact .done _ _
  | wait pos c =>
    simp only [Holds] at hm
    subst hm
    simp only [expand, exec, Modm.Spec.Resumable.resume, Modm.Spec.Resumable.eval, if_true]
    by_cases h : (c a σ).1 = true
    · simp only [if_pos h, exec_suspend, pop_inside he.room]
      exact .susp _ _ _ (.wait pos c)
    · simp only [if_neg h]
      exact .done _ _
  | call pos g arg use s0 r =>
    simp only [Holds] at hm
    simp only [expand, exec, if_true]
    have hl : label p.kind pos ≠ 0 := by
      have := he.labels
      simp only [positions, List.map_cons, List.map_nil, List.mem_singleton] at this
      exact fun h => this h.symm
    have hg := he.callees g (by simp [Modm.Spec.Resumable.callees])
    have hs : arg a σ = arg a s0 := he.steady a σ s0
    rw [hs]
    have hres : Modm.Spec.Resumable.resume P n d a (.inCall g (arg a s0) r use) σ =
        match againD P n d g (arg a s0) r σ with
        | .ok (.fin v s') => .ok (.done (use a v s'))
        | .ok (.susp r' s') => .ok (.susp (.inCall g (arg a s0) r' use) s')
        | .error e => .error e := by
      cases d <;> rfl
    rw [hres]
    rcases call_match (σ := σ) hR g (arg a s0) _ _ _ hg hl hm with
      ⟨e, h1, h2⟩ | ⟨v, σ', h1, h2⟩ | ⟨r', m', σ', h1, h2, h3⟩
    · simp only [h1, h2]; exact .error e
    · simp only [h1, h2]
      rw [if_neg (by decide)]
      exact .done _ _
    · simp only [h1, h2]
      rw [if_pos (by decide), exec_suspend]
      exact .suspCall _ _ _ _ _ _ _ (.call pos g arg use s0 r') h3
  | retCall pos g arg s0 r =>
    simp only [Holds] at hm
    simp only [expand, exec, if_true]
    have hl : label p.kind pos ≠ 0 := by
      have := he.labels
      simp only [positions, List.map_cons, List.map_nil, List.mem_singleton] at this
      exact fun h => this h.symm
    have hg := he.callees g (by simp [Modm.Spec.Resumable.callees])
    have hs : arg a σ = arg a s0 := he.steady a σ s0
    rw [hs]
    have hres : Modm.Spec.Resumable.resume P n d a (.inRetCall g (arg a s0) r) σ =
        match againD P n d g (arg a s0) r σ with
        | .ok (.fin v s') => .ok (.ret v s')
        | .ok (.susp r' s') => .ok (.susp (.inRetCall g (arg a s0) r') s')
        | .error e => .error e := by
      cases d <;> rfl
    rw [hres]
    rcases call_match (σ := σ) hR g (arg a s0) _ _ _ hg hl hm with
      ⟨e, h1, h2⟩ | ⟨v, σ', h1, h2⟩ | ⟨r', m', σ', h1, h2, h3⟩
    · simp only [h1, h2]; exact .error e
    · simp only [h1, h2]
      rw [if_neg (by decide), exec_finish _ he.room]
      exact .ret _ _
    · simp only [h1, h2]
      rw [if_pos (by decide), exec_suspend]
      exact .suspCall _ _ _ _ _ _ _ (.retCall pos g arg s0 r') h3
  | seqL s t l r i hat ih =>
    simp only [positions, List.map_append, List.nodup_append] at hd
    have hm' := ih he.seq.1 hd.1 hm
    simp only [expand, exec, Modm.Spec.Resumable.resume]
    generalize exec (callFn P n d) n p a (expand p.kind s) (some l) m σ = A at hm' ⊢
    generalize Modm.Spec.Resumable.resume P n d a r σ = B at hm' ⊢
    cases hm' with
    | error e => exact .error e
    | done x σ =>
      exact match_lift (fun l r i h => .seqR _ _ _ _ _ h)
        (exec_fresh hR t he.seq.2 x σ)
    | ret v σ => exact .ret v σ
    | restart σ => exact .restart σ
    | susp l r σ hat => exact .susp l _ σ (.seqL _ _ _ _ _ hat)
    | suspCall l r h x r' m σ hat hc => exact .suspCall l _ h x r' m σ (.seqL _ _ _ _ _ hat) hc
  | seqR s t l r i hat ih =>
    simp only [positions, List.map_append, List.nodup_append] at hd
    have hnot : l ∉ (expand p.kind s).labels := by
      rw [labels_expand]
      exact fun h => hd.2.2 l h l (positions_at hat) rfl
    simp only [expand, exec, skip_seek _ _ _ hnot]
    exact match_lift (fun l r i h => .seqR _ _ _ _ _ h) (ih he.seq.2 hd.2.1 hm)
  | iteL c s t l r i hat ih =>
    simp only [positions, List.map_append, List.nodup_append] at hd
    have hin : l ∈ (expand p.kind s).labels := by
      rw [labels_expand]
      exact positions_at hat
    simp only [expand, exec, if_pos hin]
    exact match_lift (fun l r i h => .iteL _ _ _ _ _ _ h) (ih he.ite.1 hd.1 hm)
  | iteR c s t l r i hat ih =>
    simp only [positions, List.map_append, List.nodup_append] at hd
    have hnot : l ∉ (expand p.kind s).labels := by
      rw [labels_expand]
      exact fun h => hd.2.2 l h l (positions_at hat) rfl
    simp only [expand, exec, if_neg hnot]
    exact match_lift (fun l r i h => .iteR _ _ _ _ _ _ h) (ih he.ite.2 hd.2.1 hm)
  | loop c b l r i hat ih =>
    simp only [positions] at hd
    have hin : l ∈ (expand p.kind b).labels := by
      rw [labels_expand]
      exact positions_at hat
    have hm' := ih he.loop hd hm
    simp only [expand, exec, Modm.Spec.Resumable.resume, if_pos hin]
    generalize exec (callFn P n d) n p a (expand p.kind b) (some l) m σ = A at hm' ⊢
    generalize Modm.Spec.Resumable.resume P n d a r σ = B at hm' ⊢
    cases hm' with
    | error e => exact .error e
    | done x σ =>
      simp only [Modm.Spec.Resumable.eval]
      exact loop_match (fun x σ => exec_fresh hR b he.loop x σ) n x σ
    | ret v σ => exact .ret v σ
    | restart σ => exact .restart σ
    | susp l r σ hat => exact .susp l _ σ (.loop _ _ _ _ _ hat)
    | suspCall l r h x r' m σ hat hc => exact .suspCall l _ h x r' m σ (.loop _ _ _ _ _ hat) hc

/-- The end of a function, after its body. -/
def tail (k : Kind) : Cpp S V := .seq (finish k) (.ret codeStop (fun _ _ => none))

/-- What the caller gets. -/
def toReply (p : Place) : Except Stuck (Out S V) → Except Stuck (Reply S V)
  | .error e => .error e
  | .ok (.ret code v m s) => .ok ⟨code, v, m, s⟩
  | .ok (.next _ m s) => otherwise p m s

theorem callFn_of (g : Nat) {m : Mem} (hr : Room (P.fn g).place m) (σ : S) :
    callFn P n (d + 1) g a m σ = toReply (P.fn g).place
      (exec (callFn P n d) n (P.fn g).place a (whole (P.fn g))
        (some (m.state (P.fn g).place.obj (slotOf (P.fn g).place m))) (enter (P.fn g).place m) σ) := by
  rw [callFn, if_pos (nestingOk_of _ hr), push_of hr]
  simp only []
  rcases exec (callFn P n d) n (P.fn g).place a (whole (P.fn g))
        (some (m.state (P.fn g).place.obj (slotOf (P.fn g).place m))) (enter (P.fn g).place m) σ
    with e | (_ | _) <;> rfl

theorem tail_match (g : Nat) (hr : Room (P.fn g).place base)
    (h0 : base.state (P.fn g).place.obj (slotOf (P.fn g).place base) = 0)
    (callee : Nat → V → Mem → S → Except Stuck (Reply S V)) (seek : Option Nat) (m : Mem) (σ : S)
    {B : Except Stuck (Ends S V)}
    (h : Match P (P.fn g).place base a (P.fn g).body
      (exec callee n (P.fn g).place a (expand (P.fn g).place.kind (P.fn g).body) seek m σ) B) :
    MatchR P g base a
      (toReply (P.fn g).place (exec callee n (P.fn g).place a
        (.seq (expand (P.fn g).place.kind (P.fn g).body) (tail (P.fn g).place.kind)) seek m σ))
      (Modm.Spec.Resumable.close P g B) := by
  rw [exec]
  generalize exec callee n (P.fn g).place a (expand (P.fn g).place.kind (P.fn g).body) seek m σ = A at h ⊢
  cases h with
  | error e => exact .error e
  | done x σ =>
    simp only [tail, exec, exec_finish _ hr, Modm.Spec.Resumable.close]
    exact .fin _ _
  | ret v σ => exact .fin _ _
  | restart σ =>
    simp only [Modm.Spec.Resumable.close]
    have := Chain.start (P := P) base g a
    rw [write_self _ _ _ _ h0]
    exact .susp _ _ _ this
  | susp l r σ hat => exact .susp _ _ _ (.leaf _ _ _ _ _ hr h0 hat)
  | suspCall l r h x r' m σ hat hc => exact .susp _ _ _ (.call _ _ _ _ _ _ _ _ _ hr h0 hat hc)

theorem exec_case_hit (callee : Nat → V → Mem → S → Except Stuck (Reply S V)) (v : Nat) (c : Cpp S V)
    (m : Mem) (σ : S) :
    exec callee n p a (.seq (.case v) c) (some v) m σ = exec callee n p a c none m σ := by
  simp only [exec, if_true]

theorem exec_case_miss (callee : Nat → V → Mem → S → Except Stuck (Reply S V)) (v l : Nat) (h : l ≠ v)
    (c : Cpp S V) (m : Mem) (σ : S) :
    exec callee n p a (.seq (.case v) c) (some l) m σ = exec callee n p a c (some l) m σ := by
  have : exec callee n p a (.case v) (some l) m σ = .ok (.next (some l) m σ) := by
    simp only [exec, if_neg h]
  rw [exec, this]

theorem whole_start (callee : Nat → V → Mem → S → Except Stuck (Reply S V)) (f : Fun S V)
    (hr : Room f.place base) (σ : S) :
    ∃ x, exec callee n f.place a (whole f) (some 0) (enter f.place base) σ =
      exec callee n f.place a (.seq (expand f.place.kind f.body) (tail f.place.kind)) none
        (inside f.place base x) σ := by
  unfold whole
  cases hk : f.place.kind with
  | thread =>
    refine ⟨base.state f.place.obj (slotOf f.place base), ?_⟩
    simp only [stopped, exec_case_hit, ← enter_eq, tail]
  | nested levels =>
    refine ⟨label (.nested levels) f.begin, ?_⟩
    simp only [stopped, exec_case_hit]
    rw [exec]
    simp only [exec, set_enter hr, tail]
  | indexed functions =>
    refine ⟨label (.indexed functions) f.begin, ?_⟩
    simp only [stopped, exec_case_hit]
    rw [exec]
    simp only [exec, set_enter hr, tail]

theorem whole_miss (callee : Nat → V → Mem → S → Except Stuck (Reply S V)) (f : Fun S V)
    (l : Nat) (h0 : l ≠ 0) (hb : f.place.kind ≠ .thread → l ≠ label f.place.kind f.begin)
    (m : Mem) (σ : S) :
    exec callee n f.place a (whole f) (some l) m σ =
      exec callee n f.place a (.seq (expand f.place.kind f.body) (tail f.place.kind)) (some l) m σ := by
  unfold whole
  cases hk : f.place.kind with
  | thread =>
    simp only [stopped]
    rw [exec_case_miss _ _ _ h0]
    rfl
  | nested levels =>
    simp only [hk] at hb
    have hb := hb (by simp)
    simp only [stopped]
    rw [exec_case_miss _ _ _ h0, exec, exec]
    simp only [exec, if_neg hb, tail]
  | indexed functions =>
    simp only [hk] at hb
    have hb := hb (by simp)
    simp only [stopped]
    rw [exec_case_miss _ _ _ h0, exec, exec]
    simp only [exec, if_neg hb, tail]

theorem whole_seek (callee : Nat → V → Mem → S → Except Stuck (Reply S V)) (f : Fun S V)
    (hc : Compiles f) (l : Nat) (hl : l ∈ (positions f.body).map (label f.place.kind)) (m : Mem) (σ : S) :
    exec callee n f.place a (whole f) (some l) m σ =
      exec callee n f.place a (.seq (expand f.place.kind f.body) (tail f.place.kind)) (some l) m σ := by
  unfold Compiles at hc
  apply whole_miss
  · cases hk : f.place.kind with
    | thread =>
      simp only [hk] at hc hl
      exact fun h => (List.nodup_cons.1 hc.1).1 (h ▸ hl)
    | nested levels =>
      simp only [hk] at hc hl
      exact fun h => (List.nodup_cons.1 hc).1 (List.mem_cons_of_mem _ (h ▸ hl))
    | indexed functions =>
      simp only [hk] at hc hl
      exact fun h => (List.nodup_cons.1 hc).1 (List.mem_cons_of_mem _ (h ▸ hl))
  · intro hk'
    cases hk : f.place.kind with
    | thread => exact absurd hk hk'
    | nested levels =>
      simp only [hk] at hc hl
      exact fun h => (List.nodup_cons.1 (List.nodup_cons.1 hc).2).1 (h ▸ hl)
    | indexed functions =>
      simp only [hk] at hc hl
      exact fun h => (List.nodup_cons.1 (List.nodup_cons.1 hc).2).1 (h ▸ hl)

theorem compiles_nodup {f : Fun S V} (hc : Compiles f) :
    0 ∉ (positions f.body).map (label f.place.kind) ∧
      ((positions f.body).map (label f.place.kind)).Nodup := by
  unfold Compiles at hc
  cases hk : f.place.kind with
  | thread =>
    simp only [hk] at hc ⊢
    exact List.nodup_cons.1 hc.1
  | nested levels =>
    simp only [hk] at hc ⊢
    obtain ⟨h1, h2⟩ := List.nodup_cons.1 hc
    exact ⟨fun h => h1 (List.mem_cons_of_mem _ h), (List.nodup_cons.1 h2).2⟩
  | indexed functions =>
    simp only [hk] at hc ⊢
    obtain ⟨h1, h2⟩ := List.nodup_cons.1 hc
    exact ⟨fun h => h1 (List.mem_cons_of_mem _ h), (List.nodup_cons.1 h2).2⟩

/-- A call in the memory of a suspended function. -/
theorem call_at (g : Nat) {m1 : Mem} {l : Nat} (hc : Compiles (P.fn g)) (σ : S)
    (hr : Room (P.fn g).place base)
    (hl : l ∈ (positions (P.fn g).body).map (label (P.fn g).place.kind)) {m : Mem}
    (hml : m.level = base.level) (hme : enter (P.fn g).place m = m1)
    (hms : m.state (P.fn g).place.obj (slotOf (P.fn g).place base) = l) :
    callFn P n (d + 1) g a m σ = toReply (P.fn g).place
      (exec (callFn P n d) n (P.fn g).place a
        (.seq (expand (P.fn g).place.kind (P.fn g).body) (tail (P.fn g).place.kind)) (some l) m1 σ) := by
  have hrm : Room (P.fn g).place m := by
    unfold Room at hr ⊢
    rw [hml]
    exact hr
  have hsm : slotOf (P.fn g).place m = slotOf (P.fn g).place base := by
    unfold slotOf
    rw [hml]
  rw [callFn_of g hrm, hsm, hms, hme, whole_seek _ _ hc l hl]

theorem right (hC : ∀ g, Compiles (P.fn g)) (hS : ∀ g, Steady (P.fn g).body) (n d : Nat) :
    Right P n d := by
  induction d with
  | zero =>
    intro base g a r m σ _ _
    exact .error _
  | succ d ih =>
    intro base g a r m σ hok hch
    obtain ⟨hr, h0, hcal⟩ := hok
    obtain ⟨hz, hnd⟩ := compiles_nodup (hC g)
    have he : Env P d (P.fn g).place base (P.fn g).body := ⟨hr, hS g, hz, hcal⟩
    simp only [againD]
    cases hch with
    | start =>
      obtain ⟨x, hx⟩ := whole_start (n := n) (a := a) (callFn P n d) (P.fn g) hr σ
      rw [callFn_of g hr, h0, hx]
      simp only [Modm.Spec.Resumable.resume]
      exact tail_match g hr h0 _ _ _ _ (exec_fresh ih _ he x σ)
    | leaf _ _ _ l r _ _ hat =>
      rw [call_at (m1 := inside (P.fn g).place base l) (l := l) (base := base) g (hC g) σ hr
        (positions_at hat) (m := base.write (P.fn g).place.obj (slotOf (P.fn g).place base) l) rfl]
      · exact tail_match g hr h0 _ _ _ _ (exec_seek ih hat he hnd _ rfl σ)
      · unfold inside enter slotOf
        cases (P.fn g).place.kind <;> rfl
      · rw [read_write, if_pos ⟨rfl, rfl⟩]
    | call _ _ _ l r h x r' m hr' h0' hat hc =>
      have hl := positions_at hat
      have hlv : m.level = (enter (P.fn g).place base).level :=
        (chain_level hc).trans rfl
      obtain ⟨h1, h2⟩ := enter_pop hr hlv
      rw [call_at (m1 := m) (l := l) g (hC g) σ hr hl h2 h1]
      · exact tail_match g hr h0 _ _ _ _ (exec_seek ih hat he hnd _ hc σ)
      · rw [pop_state, chain_keeps hc]
        · rw [inside_read, if_pos ⟨rfl, rfl⟩]
        · rw [inside_read, if_pos ⟨rfl, rfl⟩]
          exact fun h => hz (h ▸ hl)

end

/-! ## Programs that keep to the rules -/

/-- How `m` differs from `base` while the functions in `l` are active. -/
def Inv (P : Prog S V) (base : Mem) (l : List Nat) (m : Mem) : Prop :=
  ∀ h, match (P.fn h).place.kind with
    | .nested _ =>
      m.level (P.fn h).place.obj = base.level (P.fn h).place.obj +
          (l.filter (fun g => (P.fn g).place.obj = (P.fn h).place.obj)).length ∧
        ∀ i, m.level (P.fn h).place.obj ≤ i →
          m.state (P.fn h).place.obj i = base.state (P.fn h).place.obj i
    | .indexed _ =>
      (∀ g ∈ l, (P.fn g).place.obj = (P.fn h).place.obj →
          (P.fn g).place.index ≠ (P.fn h).place.index) →
        m.state (P.fn h).place.obj (P.fn h).place.index =
          base.state (P.fn h).place.obj (P.fn h).place.index
    | .thread => l = [] → m.state (P.fn h).place.obj 0 = base.state (P.fn h).place.obj 0

theorem inv_nil (P : Prog S V) (base : Mem) : Inv P base [] base := by
  intro h
  cases (P.fn h).place.kind <;> simp

theorem enter_level_same {p : Place} {L : Nat} (hk : p.kind = .nested L) (m : Mem) :
    (enter p m).level p.obj = m.level p.obj + 1 := by
  unfold enter
  simp [hk, Mem.setLevel]

theorem enter_level_other (p : Place) (m : Mem) (o : Nat) (h : o ≠ p.obj) :
    (enter p m).level o = m.level o := by
  unfold enter
  cases hk : p.kind <;> simp [Mem.setLevel, h]

theorem inv_step {P : Prog S V} (hco : Modm.Spec.Resumable.Coherent P) {base m : Mem} {l : List Nat}
    (hi : Inv P base l m) (g x : Nat) : Inv P base (g :: l) (inside (P.fn g).place m x) := by
  intro h
  have hh := hi h
  have hgh := hco g h
  cases hk : (P.fn h).place.kind with
  | nested levels =>
    simp only [hk] at hh hgh ⊢
    obtain ⟨h1, h2⟩ := hh
    by_cases ho : (P.fn g).place.obj = (P.fn h).place.obj
    · have hkg := hgh ho
      have hlv : (inside (P.fn g).place m x).level (P.fn h).place.obj =
          m.level (P.fn h).place.obj + 1 := by
        rw [inside_level, ← ho, enter_level_same hkg]
      rw [hlv]
      constructor
      · rw [List.filter_cons_of_pos (by simp [ho]), List.length_cons]
        omega
      · intro i hle
        rw [inside_read, if_neg, h2 i (by omega)]
        rintro ⟨-, h4⟩
        rw [h4] at hle
        simp only [slotOf, hkg, ho] at hle
        omega
    · have hlv : (inside (P.fn g).place m x).level (P.fn h).place.obj =
          m.level (P.fn h).place.obj := by
        rw [inside_level, enter_level_other _ _ _ (fun h => ho h.symm)]
      rw [hlv]
      constructor
      · rw [List.filter_cons_of_neg (by simp [ho])]
        exact h1
      · intro i hle
        rw [inside_read, if_neg (fun h => ho h.1.symm), h2 i hle]
  | indexed functions =>
    simp only [hk] at hh hgh ⊢
    intro hl
    rw [inside_read, if_neg, hh (fun g' hg' => hl g' (List.mem_cons_of_mem _ hg'))]
    rintro ⟨h3, h4⟩
    have hkg := hgh h3.symm
    simp only [slotOf, hkg] at h4
    exact hl g List.mem_cons_self h3.symm h4.symm
  | thread =>
    intro h
    simp at h

theorem ok_of {P : Prog S V} (hco : Modm.Spec.Resumable.Coherent P) {f : Nat} {base : Mem}
    (hal : ∀ l, Calls P f l → Allowed P l) (hid : Idle P f base) (d : Nat) (h : Nat) (l : List Nat)
    (m : Mem) (hcl : Calls P f (h :: l)) (hi : Inv P base l m) : Ok P d m h := by
  induction d generalizing h l m with
  | zero => trivial
  | succ d ih =>
    have ha := hal _ hcl
    have hb := hid _ _ hcl
    have hh := hi h
    simp only [Allowed] at ha
    refine ⟨?_, ?_, ?_⟩
    · unfold Room
      cases hk : (P.fn h).place.kind with
      | nested levels =>
        simp only [hk] at ha hb hh ⊢
        omega
      | indexed functions =>
        simp only [hk] at ha ⊢
        exact ha.1
      | thread => trivial
    · unfold slotOf
      cases hk : (P.fn h).place.kind with
      | nested levels =>
        simp only [hk] at ha hb hh ⊢
        rw [hh.2 _ (Nat.le_refl _), hb.2 _ (by omega)]
      | indexed functions =>
        simp only [hk] at ha hb hh ⊢
        rw [hh ha.2, hb]
      | thread =>
        simp only [hk] at ha hb hh ⊢
        rw [hh ha, hb]
    · intro g hg
      have hcg := Calls.call _ _ _ hcl hg
      refine ⟨?_, fun x _ => ih g _ _ hcg (inv_step hco hi h x)⟩
      intro hk
      have := hal _ hcg
      simp [Allowed, hk] at this

/-! ## C96: a resumable function does what it does as a fiber -/

theorem trace_of {P : Prog S V} (hC : ∀ g, Compiles (P.fn g)) (hS : ∀ g, Steady (P.fn g).body)
    {f : Nat} {base : Mem} {d : Nat} (hok : Ok P (d + 1) base f) (n : Nat) (a : V)
    (envs : List (S → S)) (r : Rest S V) (m : Mem) (s : S) (hc : Chain P base f a r m) :
    Modm.Spec.Resumable.traceRf P n (d + 1) f a envs m s =
      Modm.Spec.Resumable.trace P n d f a envs r s := by
  induction envs generalizing r m s with
  | nil => rfl
  | cons env envs ih =>
    have hm := right hC hS n (d + 1) base f a r m (env s) hok hc
    rw [Modm.Spec.Resumable.traceRf, Modm.Spec.Resumable.trace, Modm.Spec.Resumable.again]
    simp only [againD] at hm
    generalize callFn P n (d + 1) f a m (env s) = A at hm ⊢
    generalize Modm.Spec.Resumable.close P f (Modm.Spec.Resumable.resume P n d a r (env s)) = B at hm ⊢
    cases hm with
    | error e => rfl
    | fin v σ =>
      simp only []
      rw [if_pos (by decide)]
    | susp r' m' σ hc' =>
      simp only []
      rw [if_neg (by decide), ih _ _ _ hc']

/-- A resumable function (or a protothread) that is called again and again shows the same states of
the program and the same result as the same function run by a fiber, whatever happens in between:
it continues where it was suspended, in loops, branches and called functions.  The functions have
distinct labels, the arguments of calls do not change, the chains of calls fit into the classes, and
nobody else uses the objects. -/
theorem C96_fiber_partial (P : Prog S V) (hC : ∀ g, Compiles (P.fn g))
    (hS : ∀ g, Steady (P.fn g).body) (hco : Modm.Spec.Resumable.Coherent P) (f : Nat)
    (hal : ∀ l, Calls P f l → Allowed P l) (m : Mem) (hid : Idle P f m) (n d : Nat) (a : V)
    (envs : List (S → S)) (s : S) :
    Modm.Spec.Resumable.traceRf P n (d + 1) f a envs m s =
      Modm.Spec.Resumable.trace P n d f a envs (.src (P.fn f).body) s :=
  trace_of hC hS (ok_of hco hal hid (d + 1) f [] m .top (inv_nil P m)) n a envs _ _ s (.start _ _ _)

theorem memAfter_of {P : Prog S V} (hC : ∀ g, Compiles (P.fn g)) (hS : ∀ g, Steady (P.fn g).body)
    {f : Nat} {base : Mem} {d : Nat} (hok : Ok P (d + 1) base f) (n : Nat) (a : V)
    (envs : List (S → S)) (r : Rest S V) (m : Mem) (s : S) (hc : Chain P base f a r m)
    {e : Bool} {m' : Mem}
    (h : Modm.Spec.Resumable.memAfter P n (d + 1) f a envs m s = .ok (e, m')) :
    (e = false → ∃ r', Chain P base f a r' m') ∧
      (e = true → m' = base.write (P.fn f).place.obj (slotOf (P.fn f).place base)
        (endState (P.fn f).place.kind)) := by
  induction envs generalizing r m s with
  | nil =>
    simp only [Modm.Spec.Resumable.memAfter, Except.ok.injEq, Prod.mk.injEq] at h
    obtain ⟨rfl, rfl⟩ := h
    exact ⟨fun _ => ⟨r, hc⟩, by simp⟩
  | cons env envs ih =>
    have hm := right hC hS n (d + 1) base f a r m (env s) hok hc
    rw [Modm.Spec.Resumable.memAfter] at h
    generalize callFn P n (d + 1) f a m (env s) = A at hm h
    generalize againD P n (d + 1) f a r (env s) = B at hm
    cases hm with
    | error e => simp at h
    | fin v σ =>
      simp only [] at h
      rw [if_pos (by decide)] at h
      simp only [Except.ok.injEq, Prod.mk.injEq] at h
      obtain ⟨rfl, rfl⟩ := h
      exact ⟨by simp, fun _ => rfl⟩
    | susp r' m'' σ hc' =>
      simp only [] at h
      rw [if_neg (by decide)] at h
      exact ih _ _ _ hc' h

/-- When the function has ended, the objects are as they were before: it can be called anew. -/
theorem C96_idle_again_partial (P : Prog S V) (hC : ∀ g, Compiles (P.fn g))
    (hS : ∀ g, Steady (P.fn g).body) (hco : Modm.Spec.Resumable.Coherent P) (f : Nat)
    (hk : (P.fn f).place.kind ≠ .thread)
    (hal : ∀ l, Calls P f l → Allowed P l) (m : Mem) (hid : Idle P f m) (n d : Nat) (a : V)
    (envs : List (S → S)) (s : S) (m' : Mem)
    (h : Modm.Spec.Resumable.memAfter P n (d + 1) f a envs m s = .ok (true, m')) : m' = m := by
  have hok := ok_of hco hal hid (d + 1) f [] m .top (inv_nil P m)
  rw [(memAfter_of hC hS hok n a envs _ _ s (.start _ _ _) h).2 rfl]
  have he : endState (P.fn f).place.kind = 0 := by
    cases hk' : (P.fn f).place.kind <;> simp_all [endState, stopped]
  rw [he, write_self _ _ _ _ hok.2.1]

/-- `RF_CALL_BLOCKING` runs the function to its end and returns its result. -/
theorem C96_blocking_partial (P : Prog S V) (hC : ∀ g, Compiles (P.fn g))
    (hS : ∀ g, Steady (P.fn g).body) (hco : Modm.Spec.Resumable.Coherent P) (f : Nat)
    (hal : ∀ l, Calls P f l → Allowed P l) (m : Mem) (hid : Idle P f m) (n d : Nat) (a : V)
    (env : Nat → S → S) (k : Nat) (s : S) :
    (match blocking P n (d + 1) f a env k m s with
      | .ok r => .ok (r.value, r.st)
      | .error e => .error e) =
      Modm.Spec.Resumable.untilDone P n d f a env k (.src (P.fn f).body) s := by
  have hok := ok_of hco hal hid (d + 1) f [] m .top (inv_nil P m)
  have key : ∀ (k : Nat) (r : Rest S V) (m' : Mem) (s : S), Chain P m f a r m' →
      (match blocking P n (d + 1) f a env k m' s with
      | .ok r => Except.ok (r.value, r.st)
      | .error e => .error e) = Modm.Spec.Resumable.untilDone P n d f a env k r s := by
    intro k
    induction k with
    | zero => intro r m' s _; rfl
    | succ k ih =>
      intro r m' s hc
      have hm := right hC hS n (d + 1) m f a r m' s hok hc
      rw [blocking, Modm.Spec.Resumable.untilDone, Modm.Spec.Resumable.again]
      simp only [againD] at hm
      generalize callFn P n (d + 1) f a m' s = A at hm ⊢
      generalize Modm.Spec.Resumable.close P f (Modm.Spec.Resumable.resume P n d a r s) = B at hm ⊢
      cases hm with
      | error e => rfl
      | fin v σ =>
        simp only []
        rw [if_neg (by decide)]
      | susp r' m'' σ hc' =>
        simp only []
        rw [if_pos (by decide)]
        exact ih _ _ _ hc'
  exact key k _ _ s (.start _ _ _)

/-- The `static_assert` of the macros makes the labels of a function distinct: the positions of its
macros lie between `RF_BEGIN` and `RF_END`. -/
theorem C96_static_assert (f : Fun S V) (hk : f.place.kind ≠ .thread) (rfCounter last : Nat)
    (hb : f.begin = rfCounter + 1) (hp : (positions f.body).Nodup)
    (hr : ∀ p ∈ positions f.body, f.begin < p ∧ p < last) (hl : f.begin < last) (hw : last < 65536)
    (ha : staticAssert rfCounter last = true) : Compiles f := by
  have hlast : last < rfCounter + 256 := by
    simp only [staticAssert, decide_eq_true_eq] at ha
    rw [Nat.mod_eq_of_lt hw, Nat.mod_eq_of_lt (by omega : rfCounter < 65536)] at ha
    omega
  have key : ∀ k : Kind, k ≠ .thread →
      (0 :: label k f.begin :: (positions f.body).map (label k)).Nodup := by
    intro k hk
    have hlab : ∀ p, label k p = p % 255 + 1 := by
      intro p
      cases k <;> simp_all [label]
    refine List.nodup_cons.2 ⟨?_, List.nodup_cons.2 ⟨?_, ?_⟩⟩
    · simp [hlab]
    · simp only [List.mem_map, not_exists, not_and]
      intro p hp'
      obtain ⟨h1, h2⟩ := hr p hp'
      rw [hlab, hlab]
      omega
    · refine List.pairwise_map.2 (List.Pairwise.imp_of_mem ?_ hp)
      intro p q hp' hq' hne
      obtain ⟨h1, h2⟩ := hr p hp'
      obtain ⟨h3, h4⟩ := hr q hq'
      rw [hlab, hlab]
      omega
  unfold Compiles
  cases hk' : f.place.kind with
  | thread => exact absurd hk' hk
  | nested levels => exact key _ (by simp)
  | indexed functions => exact key _ (by simp)

/-! ### An example

Object 0 is a `NestedResumable<2>`, object 1 a `Resumable<1>`.  Function 0 is the function
`waitForTimer` of the documentation, in a loop; function 1 is called by it, function 2 belongs to the
other object. -/

namespace Example

/-- A log, and a flag that is set from outside. -/
structure St where
  log : List Nat
  flag : Bool
  last : Option Nat

def write (x : Nat) : Src St Nat := .act (fun _ s => { s with log := s.log ++ [x] })

def prog : Prog St Nat where
  check := true
  fn
    | 0 => ⟨⟨0, .nested 2, 0⟩, 1,
        .seq (write 1)
          (.seq (.loop (fun _ s => s.log.length < 7)
            (.seq (.call 2 1 (fun a _ => a + 100) (fun _ v s => { s with last := v }))
              (.ite (fun _ s => s.last = some 150)
                (.seq (.waitWhile 3 (fun _ s => (!s.flag, s))) (write 3))
                (.seq (.yield 4) (write 4)))))
          (.retCall 5 2 (fun _ _ => 7)))⟩
    | 1 => ⟨⟨0, .nested 2, 0⟩, 7,
        .seq (write 10) (.seq (.yield 8) (.seq (write 11) (.ret (fun a _ => a + 1))))⟩
    | _ => ⟨⟨1, .indexed 1, 0⟩, 10, .seq (.yield 11) (.ret (fun a _ => a * 2))⟩

theorem calls_prog (l : List Nat) (h : Calls prog 0 l) : l = [0] ∨ l = [1, 0] ∨ l = [2, 0] := by
  induction h with
  | top => simp
  | call g h l hc hm ih =>
    rcases ih with h1 | h1 | h1 <;> simp only [List.cons.injEq] at h1 <;> obtain ⟨rfl, rfl⟩ := h1
    · simpa [prog, callees, write] using hm
    · simp [prog, callees, write] at hm
    · simp [prog, callees, write] at hm

/-- The example meets the hypotheses of `C96_fiber_partial`. -/
theorem prog_legal : (∀ g, Compiles (prog.fn g)) ∧ (∀ g, Steady (prog.fn g).body) ∧
    Modm.Spec.Resumable.Coherent prog ∧ (∀ l, Calls prog 0 l → Allowed prog l) ∧ Idle prog 0 fresh := by
  refine ⟨?_, ?_, ?_, ?_, ?_⟩
  · intro g
    match g with
    | 0 =>
      show (0 :: label (.nested 2) 1 :: [2, 3, 4, 5].map (label (.nested 2))).Nodup
      decide
    | 1 =>
      show (0 :: label (.nested 2) 7 :: [8].map (label (.nested 2))).Nodup
      decide
    | g + 2 =>
      show (0 :: label (.indexed 1) 10 :: [11].map (label (.indexed 1))).Nodup
      decide
  · intro g
    match g with
    | 0 => simp [prog, Steady, write]
    | 1 => simp [prog, Steady, write]
    | g + 2 => simp [prog, Steady]
  · intro g h
    match g, h with
    | 0, 0 => simp
    | 0, 1 => simp [prog]
    | 0, h + 2 => simp [prog]
    | 1, 0 => simp [prog]
    | 1, 1 => simp
    | 1, h + 2 => simp [prog]
    | g + 2, 0 => simp [prog]
    | g + 2, 1 => simp [prog]
    | g + 2, h + 2 => simp [prog]
  · intro l hl
    rcases calls_prog l hl with rfl | rfl | rfl <;> simp [Allowed, prog]
  · intro h l hl
    rcases calls_prog _ hl with h | h | h <;> simp only [List.cons.injEq] at h <;>
      obtain ⟨rfl, rfl⟩ := h <;> simp [prog, fresh, stopped]

/-- The flag is set at the sixth call. -/
def envs : List (St → St) :=
  [id, id, id, id, id, fun s => { s with flag := true }, id, id, id, id, id, id]

example : Modm.Spec.Resumable.traceRf prog 5 2 0 49 envs fresh ⟨[], false, none⟩ =
    [.going ⟨[1, 10], false, none⟩, .going ⟨[1, 10, 11], false, some 150⟩,
     .going ⟨[1, 10, 11], false, some 150⟩, .going ⟨[1, 10, 11], false, some 150⟩,
     .going ⟨[1, 10, 11], false, some 150⟩, .going ⟨[1, 10, 11, 3, 10], true, some 150⟩,
     .going ⟨[1, 10, 11, 3, 10, 11, 3], true, some 150⟩,
     .ended (some 14) ⟨[1, 10, 11, 3, 10, 11, 3], true, some 150⟩] := by
  rfl

end Example

/-! ### The argument of a call -/

namespace Argument

/-- Function 0 calls function 1 with the value of a variable, function 1 returns its argument after
a `RF_YIELD`. -/
def prog : Prog Nat Nat where
  check := true
  fn
    | 0 => ⟨⟨0, .nested 2, 0⟩, 1, .retCall 2 1 (fun _ s => s)⟩
    | _ => ⟨⟨0, .nested 2, 0⟩, 4, .seq (.yield 5) (.ret (fun a _ => a))⟩

end Argument

/-- The arguments of a call are evaluated anew every time the caller is resumed: here the variable
changes from 5 to 6 while the called function waits, and the function returns 6; as a fiber it
returns 5. -/
theorem C96_argument_counterexample :
    Modm.Spec.Resumable.traceRf Argument.prog 0 2 0 0 [fun _ => 5, fun _ => 6] fresh 0 =
        [.going 5, .ended (some 6) 6] ∧
      Modm.Spec.Resumable.trace Argument.prog 0 1 0 0 [fun _ => 5, fun _ => 6]
        (.src (Argument.prog.fn 0).body) 0 = [.going 5, .ended (some 5) 6] :=
  ⟨rfl, rfl⟩

/-! ## C97: nested functions exclude each other -/

/-- The labels of a function. -/
def labelsOf (f : Fun S V) : List Nat :=
  0 :: label f.place.kind f.begin :: (positions f.body).map (label f.place.kind)

theorem call_foreign (P : Prog S V) (n d h : Nat) (b : V) (m : Mem) (s : S) (L : Nat)
    (hk : (P.fn h).place.kind = .nested L) (hr : Room (P.fn h).place m)
    (hl : m.state (P.fn h).place.obj (m.level (P.fn h).place.obj) ∉ labelsOf (P.fn h)) :
    callFn P n (d + 1) h b m s = .ok ⟨codeWrongState, none, m, s⟩ := by
  simp only [labelsOf, List.mem_cons, not_or] at hl
  have hslot : slotOf (P.fn h).place m = m.level (P.fn h).place.obj := by simp [slotOf, hk]
  rw [callFn_of h hr, hslot, whole_miss _ _ _ hl.1 (fun _ => hl.2.1)]
  have hskip : exec (callFn P n d) n (P.fn h).place b
      (.seq (expand (P.fn h).place.kind (P.fn h).body) (tail (P.fn h).place.kind))
      (some (m.state (P.fn h).place.obj (m.level (P.fn h).place.obj))) (enter (P.fn h).place m) s =
      .ok (.next (some (m.state (P.fn h).place.obj (m.level (P.fn h).place.obj)))
        (enter (P.fn h).place m) s) := by
    apply skip_seek
    simp only [Cpp.labels, labels_expand, tail, finish, List.append_nil]
    exact hl.2.2
  rw [hskip]
  simp only [toReply, otherwise, hk]
  have := pop_inside hr (m.state (P.fn h).place.obj (slotOf (P.fn h).place m))
  rw [← enter_eq, write_self _ _ _ _ rfl] at this
  rw [this]

/-- While a nested function `f` is running (suspended after any number of calls), calling another
function `h` of the same object returns `WrongState` and has no effect at all, provided that no
state number of `f` is one of `h`. -/
theorem C97_exclusive_partial (P : Prog S V) (hC : ∀ g, Compiles (P.fn g))
    (hS : ∀ g, Steady (P.fn g).body) (hco : Modm.Spec.Resumable.Coherent P) (f h L : Nat)
    (hkf : (P.fn f).place.kind = .nested L) (hobj : (P.fn h).place.obj = (P.fn f).place.obj)
    (hal : ∀ l, Calls P f l → Allowed P l) (m : Mem) (hid : Idle P f m)
    (hdis : ∀ x ∈ labelsOf (P.fn f), x ∈ labelsOf (P.fn h) → x = 0)
    (n d : Nat) (a : V) (envs : List (S → S)) (s : S) (m' : Mem)
    (hm : Modm.Spec.Resumable.memAfter P n (d + 1) f a envs m s = .ok (false, m'))
    (hrun : nestedRunning L (P.fn f).place.obj m' = .ok true) (n' d' : Nat) (b : V) (t : S) :
    callFn P n' (d' + 1) h b m' t = .ok ⟨codeWrongState, none, m', t⟩ := by
  have hok := ok_of hco hal hid (d + 1) f [] m .top (inv_nil P m)
  obtain ⟨r, hch⟩ := (memAfter_of hC hS hok n a envs _ _ s (.start _ _ _) hm).1 rfl
  have hkh : (P.fn h).place.kind = .nested L := by rw [hco h f hobj, hkf]
  have hlv : m'.level = m.level := chain_level hch
  have hroom : Room (P.fn h).place m' := by
    have := hok.1
    unfold Room at this ⊢
    simp only [hkf, hkh, hobj, hlv] at this ⊢
    exact this
  apply call_foreign P n' d' h b m' t L hkh hroom
  rw [hobj]
  have hne : m'.state (P.fn f).place.obj (m'.level (P.fn f).place.obj) ≠ 0 := by
    unfold nestedRunning at hrun
    split at hrun
    · simp only [Except.ok.injEq, decide_eq_true_eq] at hrun
      exact hrun
    · simp at hrun
  have hslot : slotOf (P.fn f).place m = m'.level (P.fn f).place.obj := by simp [slotOf, hkf, hlv]
  have hin : m'.state (P.fn f).place.obj (m'.level (P.fn f).place.obj) ∈ labelsOf (P.fn f) := by
    rw [← hslot]
    cases hch with
    | start => rw [hok.2.1]; simp [labelsOf]
    | leaf _ _ _ l r _ _ hat =>
      rw [read_write, if_pos ⟨rfl, rfl⟩]
      exact List.mem_cons_of_mem _ (List.mem_cons_of_mem _ (positions_at hat))
    | call _ _ _ l r g x r' m1 hr' h0' hat hc =>
      have hz := (compiles_nodup (hC f)).1
      have hl := positions_at hat
      rw [pop_state, chain_keeps hc]
      · rw [inside_read, if_pos ⟨rfl, rfl⟩]
        exact List.mem_cons_of_mem _ (List.mem_cons_of_mem _ hl)
      · rw [inside_read, if_pos ⟨rfl, rfl⟩]
        exact fun h => hz (h ▸ hl)
  exact fun hx => hne (hdis _ hin hx)

/-- Functions whose counters lie in a window of 255 have different state numbers. -/
theorem C97_same_file (f h : Fun S V) (c : Nat)
    (hf : ∀ p ∈ f.begin :: positions f.body, c ≤ p ∧ p < c + 255)
    (hh : ∀ p ∈ h.begin :: positions h.body, c ≤ p ∧ p < c + 255)
    (hfh : ∀ p ∈ f.begin :: positions f.body, p ∉ h.begin :: positions h.body)
    (hkf : f.place.kind ≠ .thread) (hkh : h.place.kind ≠ .thread) :
    ∀ x ∈ labelsOf f, x ∈ labelsOf h → x = 0 := by
  have hlab : ∀ (k : Kind) (p : Nat), k ≠ .thread → label k p = p % 255 + 1 := by
    intro k p hk
    cases k <;> simp_all [label]
  intro x hx hy
  by_contra hne
  have hx' : ∃ p ∈ f.begin :: positions f.body, x = p % 255 + 1 := by
    simp only [labelsOf, List.mem_cons, List.mem_map] at hx
    rcases hx with h | h | ⟨p, hp, h⟩
    · exact absurd h hne
    · exact ⟨_, List.mem_cons_self, by rw [h, hlab _ _ hkf]⟩
    · exact ⟨p, List.mem_cons_of_mem _ hp, by rw [← h, hlab _ _ hkf]⟩
  have hy' : ∃ p ∈ h.begin :: positions h.body, x = p % 255 + 1 := by
    simp only [labelsOf, List.mem_cons, List.mem_map] at hy
    rcases hy with h | h | ⟨p, hp, h⟩
    · exact absurd h hne
    · exact ⟨_, List.mem_cons_self, by rw [h, hlab _ _ hkh]⟩
    · exact ⟨p, List.mem_cons_of_mem _ hp, by rw [← h, hlab _ _ hkh]⟩
  obtain ⟨p, hp, hp'⟩ := hx'
  obtain ⟨q, hq, hq'⟩ := hy'
  have h1 := hf p hp
  have h2 := hh q hq
  have : p = q := by omega
  exact hfh p hp (this ▸ hq)

namespace Exclusion

/-- Two functions of the same object, of two source files: `__COUNTER__` begins at 0 in both.  The
second one only writes 9 after its `RF_YIELD`. -/
def prog (pos : Nat) : Prog (List Nat) Nat where
  check := true
  fn
    | 0 => ⟨⟨0, .nested 2, 0⟩, 1, .seq (.act (fun _ s => s ++ [1])) (.seq (.yield 2) (.act (fun _ s => s ++ [2])))⟩
    | _ => ⟨⟨0, .nested 2, 0⟩, pos, .seq (.act (fun _ s => s ++ [8])) (.seq (.yield (pos + 1)) (.act (fun _ s => s ++ [9])))⟩

/-- What the four calls `f(); h(); f(); f();` return and write. -/
def four (pos : Nat) : List (Nat × List Nat) :=
  let P := prog pos
  match callFn P 0 1 0 0 fresh [] with
  | .error _ => []
  | .ok r1 =>
    match callFn P 0 1 1 0 r1.mem r1.st with
    | .error _ => []
    | .ok r2 =>
      match callFn P 0 1 0 0 r2.mem r2.st with
      | .error _ => []
      | .ok r3 => [(r1.code, r1.st), (r2.code, r2.st), (r3.code, r3.st)]

end Exclusion

/-- In one file: the second function waits until the first one has ended. -/
example : Exclusion.four 4 = [(codeRunning, [1]), (codeWrongState, [1]), (codeStop, [1, 2])] := by decide

/-- In two files (or 255 positions later in the same file) the state numbers are the same: calling
the second function while the first one is running executes the second half of the second function,
and the first one begins anew. -/
theorem C97_two_files_counterexample :
    Exclusion.four 1 = [(codeRunning, [1]), (codeStop, [1, 9]), (codeRunning, [1, 9, 1])] ∧
      Exclusion.four 256 = [(codeRunning, [1]), (codeStop, [1, 9]), (codeRunning, [1, 9, 1])] := by decide

/-- The hypotheses of `C97_exclusive_partial` are met by the two functions in one file. -/
example : (∀ x ∈ labelsOf ((Exclusion.prog 4).fn 0), x ∈ labelsOf ((Exclusion.prog 4).fn 1) → x = 0) ∧
    (match Modm.Spec.Resumable.memAfter (Exclusion.prog 4) 0 1 0 0 [id] fresh [] with
      | .ok (e, m') => e = false ∧ nestedRunning 2 0 m' = .ok true
      | .error _ => False) := by
  refine ⟨by decide, rfl, rfl⟩

/-! ## C98: the nesting depth -/

/-- The levels of all classes fit their type, the indices exist. -/
def Declared (P : Prog S V) : Prop :=
  ∀ g, match (P.fn g).place.kind with
    | .nested L => L < 256
    | .indexed N => (P.fn g).place.index < N
    | .thread => True

/-- No object is nested deeper than it has levels. -/
def Within (P : Prog S V) (m : Mem) : Prop :=
  ∀ g L, (P.fn g).place.kind = .nested L → m.level (P.fn g).place.obj ≤ L

theorem set_level {p : Place} {m0 m : Mem} (v : Nat) (hr : Room p m0)
    (hl : m.level = (enter p m0).level) :
    ∃ m', setRf p v m = .ok m' ∧ m'.level = m.level := by
  unfold Room at hr
  unfold enter at hl
  unfold setRf
  cases hk : p.kind with
  | nested levels =>
    simp only [hk] at hr hl ⊢
    have : m.level p.obj = m0.level p.obj + 1 := by rw [hl]; simp [Mem.setLevel]
    rw [if_pos (by omega)]
    exact ⟨_, rfl, rfl⟩
  | indexed functions =>
    simp only [hk] at hr ⊢
    rw [if_pos hr]
    exact ⟨_, rfl, rfl⟩
  | thread => exact ⟨_, rfl, rfl⟩

/-- The result of a statement keeps the levels balanced. -/
def Balanced (p : Place) (m0 : Mem) (x : Except Stuck (Out S V)) : Prop :=
  match x with
  | .error e => e = .bound
  | .ok (.next _ m _) => m.level = (enter p m0).level
  | .ok (.ret _ _ m _) => m.level = m0.level

section

variable {P : Prog S V} {n d : Nat} {p : Place} {m0 : Mem} {a : V}

theorem balanced_seq {x y : Cpp S V} {callee : Nat → V → Mem → S → Except Stuck (Reply S V)}
    (hx : ∀ seek m σ, m.level = (enter p m0).level → Balanced p m0 (exec callee n p a x seek m σ))
    (hy : ∀ seek m σ, m.level = (enter p m0).level → Balanced p m0 (exec callee n p a y seek m σ))
    (seek : Option Nat) (m : Mem) (σ : S) (hm : m.level = (enter p m0).level) :
    Balanced p m0 (exec callee n p a (.seq x y) seek m σ) := by
  rw [exec]
  have h := hx seek m σ hm
  generalize exec callee n p a x seek m σ = A at h
  rcases A with e | (⟨seek', m', σ'⟩ | ⟨c, v, m', σ'⟩)
  · exact h
  · exact hy _ _ _ h
  · exact h

theorem balanced_suspend (callee : Nat → V → Mem → S → Except Stuck (Reply S V)) (hr : Room p m0)
    (seek : Option Nat) (m : Mem) (σ : S) (hm : m.level = (enter p m0).level) :
    Balanced p m0 (exec callee n p a suspend seek m σ) := by
  cases seek with
  | none => exact (enter_pop hr hm).2
  | some l => exact hm

theorem balanced_set (callee : Nat → V → Mem → S → Except Stuck (Reply S V)) (hr : Room p m0) (v : Nat)
    (seek : Option Nat) (m : Mem) (σ : S) (hm : m.level = (enter p m0).level) :
    Balanced p m0 (exec callee n p a (.set v) seek m σ) := by
  cases seek with
  | none =>
    obtain ⟨m', h1, h2⟩ := set_level v hr hm
    rw [exec, h1]
    exact h2.trans hm
  | some l => exact hm

theorem balanced_case (callee : Nat → V → Mem → S → Except Stuck (Reply S V)) (v : Nat)
    (seek : Option Nat) (m : Mem) (σ : S) (hm : m.level = (enter p m0).level) :
    Balanced p m0 (exec callee n p a (.case v) seek m σ) := by
  cases seek <;> exact hm

/-- `stopRf`, `popRf` and `return`. -/
theorem balanced_end (callee : Nat → V → Mem → S → Except Stuck (Reply S V)) (hr : Room p m0)
    (k : Kind) (c : Nat) (v : V → S → Option V) (seek : Option Nat) (m : Mem) (σ : S)
    (hm : m.level = (enter p m0).level) :
    Balanced p m0 (exec callee n p a (.seq (finish k) (.ret c v)) seek m σ) := by
  cases seek with
  | none =>
    obtain ⟨m', h1, h2⟩ := set_level (endState k) hr hm
    simp only [finish, exec, h1]
    exact (enter_pop hr (h2.trans hm)).2
  | some l => exact hm

theorem balanced_iter {c : S → Bool} {f : Mem → S → Except Stuck (Out S V)}
    (hf : ∀ m σ, m.level = (enter p m0).level → Balanced p m0 (f m σ)) (k : Nat) (m : Mem) (σ : S)
    (hm : m.level = (enter p m0).level) : Balanced p m0 (iter c f k m σ) := by
  induction k generalizing m σ with
  | zero =>
    rw [iter]
    by_cases h : c σ = true
    · rw [if_pos h]; rfl
    · rw [if_neg h]; exact hm
  | succ k ih =>
    rw [iter]
    by_cases h : c σ = true
    · rw [if_pos h]
      have hb := hf m σ hm
      generalize f m σ = A at hb
      rcases A with e | (⟨seek', m', σ'⟩ | ⟨c, v, m', σ'⟩)
      · exact hb
      · exact ih _ _ hb
      · exact hb
    · rw [if_neg h]; exact hm

theorem balanced_expand {callee : Nat → V → Mem → S → Except Stuck (Reply S V)} (hr : Room p m0)
    (hc : ∀ g x m σ, m.level = (enter p m0).level →
      match callee g x m σ with
      | .error e => e = .bound
      | .ok r => r.mem.level = m.level) (k : Kind) (s : Src S V) (seek : Option Nat) (m : Mem) (σ : S)
    (hm : m.level = (enter p m0).level) :
    Balanced p m0 (exec callee n p a (expand k s) seek m σ) := by
  induction s generalizing seek m σ with
  | skip => exact hm
  | act f => cases seek <;> exact hm
  | seq x y ihx ihy => exact balanced_seq ihx ihy seek m σ hm
  | ite c x y ihx ihy =>
    simp only [expand]
    cases seek with
    | none =>
      simp only [exec]
      by_cases h : c a σ = true
      · rw [if_pos h]; exact ihx _ _ _ hm
      · rw [if_neg h]; exact ihy _ _ _ hm
    | some l =>
      simp only [exec]
      by_cases h : l ∈ (expand k x).labels
      · rw [if_pos h]; exact ihx _ _ _ hm
      · rw [if_neg h]; exact ihy _ _ _ hm
  | loop c x ih =>
    simp only [expand]
    cases seek with
    | none => exact balanced_iter (fun m σ hm => ih none m σ hm) n m σ hm
    | some l =>
      simp only [exec]
      by_cases h : l ∈ (expand k x).labels
      · rw [if_pos h]
        have hb := ih (some l) m σ hm
        generalize exec callee n p a (expand k x) (some l) m σ = A at hb
        rcases A with e | (⟨seek', m', σ'⟩ | ⟨c, v, m', σ'⟩)
        · exact hb
        · exact balanced_iter (fun m σ hm => ih none m σ hm) n m' σ' hb
        · exact hb
      · rw [if_neg h]; exact hm
  | yield pos =>
    exact balanced_seq (balanced_set _ hr _) (balanced_seq (balanced_suspend _ hr) (balanced_case _ _)) seek m σ hm
  | waitWhile pos c =>
    refine balanced_seq (balanced_set _ hr _) (balanced_seq (balanced_case _ _) ?_) seek m σ hm
    intro seek m σ hm
    cases seek with
    | none =>
      simp only [exec]
      by_cases h : (c a σ).1 = true
      · rw [if_pos h]; exact balanced_suspend _ hr _ _ _ hm
      · rw [if_neg h]; exact hm
    | some l => exact hm
  | call pos g arg use =>
    refine balanced_seq (balanced_set _ hr _) (balanced_seq (balanced_case _ _) ?_) seek m σ hm
    intro seek m σ hm
    cases seek with
    | none =>
      simp only [exec]
      have h := hc g (arg a σ) m σ hm
      generalize callee g (arg a σ) m σ = A at h ⊢
      rcases A with e | r
      · exact h
      · simp only [] at h ⊢
        by_cases hr' : r.code > codeNestingError
        · rw [if_pos hr']; exact balanced_suspend _ hr _ _ _ (h.trans hm)
        · rw [if_neg hr']; exact h.trans hm
    | some l => exact hm
  | ret v => exact balanced_end _ hr _ _ _ seek m σ hm
  | exit => exact balanced_end _ hr _ _ _ seek m σ hm
  | retCall pos g arg =>
    refine balanced_seq (balanced_set _ hr _) (balanced_seq (balanced_case _ _) ?_) seek m σ hm
    intro seek m σ hm
    cases seek with
    | none =>
      simp only [exec]
      have h := hc g (arg a σ) m σ hm
      generalize callee g (arg a σ) m σ = A at h ⊢
      rcases A with e | r
      · exact h
      · simp only [] at h ⊢
        by_cases hr' : r.code > codeNestingError
        · rw [if_pos hr']; exact balanced_suspend _ hr _ _ _ (h.trans hm)
        · rw [if_neg hr']
          obtain ⟨m', h1, h2⟩ := set_level (endState k) hr (h.trans hm)
          simp only [finish, exec, h1]
          exact (enter_pop hr (h2.trans (h.trans hm))).2
    | some l => exact hm
  | restart => exact balanced_seq (balanced_set _ hr _) (balanced_suspend _ hr) seek m σ hm

end

theorem otherwise_balanced {p : Place} {m0 m : Mem} (hr : Room p m0)
    (hm : m.level = (enter p m0).level) (s : S) :
    ∃ r : Reply S V, otherwise p m s = .ok r ∧ r.mem.level = m0.level := by
  unfold otherwise
  have hp := (enter_pop hr hm).2
  cases hk : p.kind with
  | thread =>
    obtain ⟨m', h1, h2⟩ := set_level (endState .thread) hr hm
    simp only [h1]
    refine ⟨_, rfl, h2.trans (hm.trans ?_)⟩
    simp [enter, hk]
  | nested L => exact ⟨_, rfl, hp⟩
  | indexed N => exact ⟨_, rfl, hp⟩

/-- With the check of the nesting depth no program, however deeply its functions call each other,
accesses a state outside of the array; and every call leaves the nesting levels as they were. -/
theorem C98_memory_safe_partial (P : Prog S V) (hck : P.check = true) (hd : Declared P)
    (hco : Modm.Spec.Resumable.Coherent P) (n d g : Nat)
    (a : V) (m : Mem) (hw : Within P m) (s : S) :
    match callFn P n d g a m s with
    | .error e => e = .bound
    | .ok r => r.mem.level = m.level := by
  induction d generalizing g a m s with
  | zero => rfl
  | succ d ih =>
    by_cases hok : nestingOk P.check (P.fn g).place m = true
    · have hr : Room (P.fn g).place m := by
        have h1 := hd g
        unfold nestingOk at hok
        unfold Room
        cases hk : (P.fn g).place.kind with
        | nested L =>
          simp only [hk] at h1 hok ⊢
          rw [hck] at hok
          simp only [Bool.not_true, Bool.false_or, decide_eq_true_eq] at hok
          exact ⟨hok, h1⟩
        | indexed N =>
          simp only [hk] at h1 ⊢
          exact h1
        | thread => trivial
      have hw' : ∀ m' : Mem, m'.level = (enter (P.fn g).place m).level → Within P m' := by
        intro m' hm' h L hk
        rw [hm']
        by_cases ho : (P.fn h).place.obj = (P.fn g).place.obj
        · have hkg := hco h g ho
          rw [hk] at hkg
          rw [ho, enter_level_same hkg.symm]
          unfold Room at hr
          simp only [← hkg] at hr
          exact hr.1
        · rw [enter_level_other _ _ _ ho]
          exact hw h L hk
      rw [callFn_of g hr]
      have hbody : ∀ k seek m' σ, m'.level = (enter (P.fn g).place m).level →
          Balanced (P.fn g).place m (exec (callFn P n d) n (P.fn g).place a
            (.seq (expand k (P.fn g).body) (.seq (finish k) (.ret codeStop (fun _ _ => none)))) seek m' σ) :=
        fun k => balanced_seq (balanced_expand hr (fun g x m' σ hm' => ih g x m' (hw' m' hm') σ) k _)
          (balanced_end _ hr k _ _)
      have hwhole : Balanced (P.fn g).place m (exec (callFn P n d) n (P.fn g).place a (whole (P.fn g))
          (some (m.state (P.fn g).place.obj (slotOf (P.fn g).place m))) (enter (P.fn g).place m) s) := by
        unfold whole
        split
        · exact balanced_seq (balanced_case _ _) (hbody _) _ _ _ rfl
        · exact balanced_seq (balanced_case _ _) (balanced_seq
            (balanced_seq (balanced_set _ hr _) (balanced_case _ _)) (hbody _)) _ _ _ rfl
      generalize exec (callFn P n d) n (P.fn g).place a (whole (P.fn g))
          (some (m.state (P.fn g).place.obj (slotOf (P.fn g).place m))) (enter (P.fn g).place m) s = A at hwhole
      rcases A with e | (⟨seek', m', σ'⟩ | ⟨c, v, m', σ'⟩)
      · exact hwhole
      · obtain ⟨r, h1, h2⟩ := otherwise_balanced (V := V) hr hwhole σ'
        simp only [toReply, h1]
        exact h2
      · exact hwhole
    · rw [callFn, if_neg hok]

/-- A call beyond the last level returns `NestingError` and has no effect. -/
theorem C98_too_deep (P : Prog S V) (hck : P.check = true) (n d g L : Nat) (a : V) (m : Mem) (s : S)
    (hk : (P.fn g).place.kind = .nested L) (hl : L ≤ m.level (P.fn g).place.obj) :
    callFn P n (d + 1) g a m s = .ok ⟨codeNestingError, none, m, s⟩ := by
  rw [callFn, if_neg]
  simp only [nestingOk, hk, hck]
  simp
  omega

namespace Depth

/-- A function that calls itself, with two levels; it counts how often it is entered. -/
def prog (check : Bool) : Prog Nat Nat where
  check := check
  fn _ := ⟨⟨0, .nested 2, 0⟩, 1, .seq (.act (fun _ s => s + 1)) (.call 2 0 (fun _ _ => 0) (fun _ _ s => s))⟩

end Depth

/-- The program meets the hypotheses of `C98_memory_safe_partial` and runs into the check. -/
example : Declared (Depth.prog true) ∧ Modm.Spec.Resumable.Coherent (Depth.prog true) ∧
    Within (Depth.prog true) fresh ∧
    (match callFn (Depth.prog true) 0 3 0 0 fresh 0 with
      | .ok r => r.code = codeStop ∧ r.st = 2 ∧ r.mem.level 0 = 0
      | .error _ => False) := by
  refine ⟨fun _ => by simp [Depth.prog], fun _ _ _ => rfl, fun _ _ _ => Nat.zero_le _, rfl, rfl, rfl⟩

/-- Without the check (`check_nesting_depth` disabled) such a call does not return `NestingError`, as
the description of the option says: it accesses a state behind the array. -/
theorem C98_unchecked_counterexample :
    callFn (Depth.prog false) 0 3 0 0 fresh 0 = .error .undefined := rfl

/-- `isResumableRunning()` called within the innermost function of an object reads behind the array:
the function runs at the last level. -/
theorem C98_running_counterexample (L o : Nat) (p : Place) (m : Mem) (hk : p.kind = .nested L)
    (ho : p.obj = o) (hl : m.level o + 1 = L) (x : Nat) :
    pushRf p m = .ok (m.state o (m.level o), enter p m) ∧
      nestedRunning L o (inside p m x) = .error .undefined := by
  subst ho
  constructor
  · unfold pushRf
    simp only [hk]
    rw [if_pos (by omega)]
    simp [enter, hk]
  · unfold nestedRunning
    rw [if_neg]
    rw [inside_level, enter_level_same hk]
    omega

example : nestedRunning 2 0 (inside ⟨0, .nested 2, 0⟩ (enter ⟨0, .nested 2, 0⟩ fresh) 5) = .error .undefined :=
  (C98_running_counterexample 2 0 ⟨0, .nested 2, 0⟩ _ rfl rfl rfl 5).2

/-! ## C99: stopping and asking -/

theorem stopAll_read (N o : Nat) (m : Mem) (o' i : Nat) :
    (stopAll N o m).state o' i = if o' = o ∧ i < N then 0 else m.state o' i := by
  unfold stopAll
  induction N with
  | zero => simp
  | succ N ih =>
    rw [List.range_succ, List.foldl_append]
    simp only [List.foldl_cons, List.foldl_nil]
    rw [read_write, ih]
    by_cases ho : o' = o
    · by_cases h1 : i = N
      · simp [ho, h1, stopped]
      · by_cases h2 : i < N
        · rw [if_neg (fun h => h1 h.2), if_pos ⟨ho, h2⟩, if_pos ⟨ho, by omega⟩]
        · rw [if_neg (fun h => h1 h.2), if_neg (fun h => h2 h.2), if_neg (by omega)]
    · simp [ho]

/-- `stopAllResumables` stops all functions of the object, and no function of another one. -/
theorem C99_stop_all (N o : Nat) (m : Mem) :
    (∀ id, isRunning N o id (stopAll N o m) = false) ∧ anyRunning N o (stopAll N o m) = false ∧
      (∀ o' N' id, o' ≠ o → isRunning N' o' id (stopAll N o m) = isRunning N' o' id m) := by
  refine ⟨?_, ?_, ?_⟩
  · intro id
    simp only [isRunning, stopAll_read, stopped]
    by_cases h : id < N <;> simp [h]
  · simp only [anyRunning, stopAll_read, stopped]
    simp
    intro x h1 h2
    omega
  · intro o' N' id ho
    simp only [isRunning, stopAll_read, if_neg (fun h : o' = o ∧ id < N => ho h.1)]

/-- `stopResumable` stops the given function only, and tells whether there is such a function. -/
theorem C99_stop_one (N o id : Nat) (m : Mem) :
    (stopOne N o id m).1 = decide (id < N) ∧
      (∀ o' N' id', isRunning N' o' id' (stopOne N o id m).2 =
        (isRunning N' o' id' m && !(decide (o' = o) && decide (id' = id) && decide (id < N)))) := by
  unfold stopOne
  by_cases h : id < N
  · simp only [if_pos h]
    refine ⟨by simp [h], ?_⟩
    intro o' N' id'
    simp only [isRunning, read_write]
    by_cases h1 : o' = o ∧ id' = id
    · simp [h1.1, h1.2, h, stopped]
    · rw [if_neg h1]
      by_cases h2 : o' = o
      · have : id' ≠ id := fun h => h1 ⟨h2, h⟩
        simp [h2, this]
      · simp [h2]
  · simp [h]

/-- The queries say what their names say. -/
theorem C99_queries (N o : Nat) (m : Mem) (ids : List Nat) :
    (anyRunning N o m = true ↔ ∃ id, isRunning N o id m = true) ∧
      (anyOf N o m ids = true ↔ ∃ id ∈ ids, isRunning N o id m = true) ∧
      (allOf N o m ids = true ↔ ∀ id ∈ ids, isRunning N o id m = true) ∧
      (join N o m ids = true ↔ ∀ id ∈ ids, isRunning N o id m = false) := by
  refine ⟨?_, ?_, ?_, ?_⟩
  · simp [anyRunning, isRunning]
  · simp [anyOf]
  · induction ids with
    | nil => simp [allOf]
    | cons id ids ih =>
      rw [allOf]
      by_cases h : N ≤ id ∨ m.state o id = stopped
      · rw [if_pos h]
        simp only [List.mem_cons, forall_eq_or_imp]
        have : isRunning N o id m = false := by
          simp only [isRunning, Bool.and_eq_false_iff, decide_eq_false_iff_not, not_not]
          omega
        simp [this]
      · rw [if_neg h, ih]
        simp only [List.mem_cons, forall_eq_or_imp]
        have : isRunning N o id m = true := by
          simp only [isRunning, Bool.and_eq_true, decide_eq_true_eq]
          omega
        simp [this]
  · simp [join, anyOf]

example : anyOf 3 0 (fresh.write 0 1 7) [0, 1] = true ∧ allOf 3 0 (fresh.write 0 1 7) [0, 1] = false ∧
    join 3 0 (fresh.write 0 1 7) [0, 2] = true ∧ anyRunning 3 0 (fresh.write 0 1 7) = true := by decide

theorem stopFrom_read (L o : Nat) (k level : Nat) (m : Mem) (hk : L ≤ level + k) (o' i : Nat) :
    (stopFrom L o k level m).state o' i = (if o' = o ∧ level ≤ i ∧ i < L then 0 else m.state o' i) ∧
      (stopFrom L o k level m).level = m.level := by
  induction k generalizing level m with
  | zero =>
    rw [stopFrom, if_neg (by omega)]
    exact ⟨rfl, rfl⟩
  | succ k ih =>
    rw [stopFrom]
    by_cases h : level < L
    · rw [if_pos h]
      obtain ⟨h1, h2⟩ := ih (level + 1) (m.write o level stopped) (by omega)
      refine ⟨?_, h2⟩
      rw [h1, read_write]
      by_cases ho : o' = o
      · by_cases hi : i = level
        · subst hi
          rw [if_neg (by omega), if_pos ⟨ho, rfl⟩, if_pos ⟨ho, by omega, h⟩]
          rfl
        · by_cases hi' : level + 1 ≤ i ∧ i < L
          · rw [if_pos ⟨ho, hi'⟩, if_pos ⟨ho, by omega⟩]
          · rw [if_neg (fun h => hi' h.2), if_neg (fun h => hi h.2), if_neg (by omega)]
      · simp [ho]
    · rw [if_neg h, if_neg (by omega)]
      exact ⟨rfl, rfl⟩

/-- `stopResumable` of a nested class stops the functions at the current nesting level and deeper,
and leaves the calling ones and all other objects alone. -/
theorem C99_nested_stop (L o : Nat) (m : Mem) (hl : m.level o < L) :
    nestedRunning L o (nestedStop L o m) = .ok false ∧
      (∀ i, m.level o ≤ i → i < L → (nestedStop L o m).state o i = 0) ∧
      (∀ i, i < m.level o → (nestedStop L o m).state o i = m.state o i) ∧
      (∀ o' i, o' ≠ o → (nestedStop L o m).state o' i = m.state o' i) ∧
      (nestedStop L o m).level = m.level := by
  have h := fun o' i => stopFrom_read L o L (m.level o) m (by omega) o' i
  refine ⟨?_, ?_, ?_, ?_, (h 0 0).2⟩
  · unfold nestedRunning nestedStop
    rw [(h 0 0).2, if_pos hl, (h o (m.level o)).1, if_pos ⟨rfl, Nat.le_refl _, hl⟩]
    rfl
  · intro i h1 h2
    rw [nestedStop, (h o i).1, if_pos ⟨rfl, h1, h2⟩]
  · intro i h1
    rw [nestedStop, (h o i).1, if_neg (by omega)]
  · intro o' i ho
    rw [nestedStop, (h o' i).1, if_neg (fun h => ho h.1)]

/-- A function that calls functions of its own object only can be called anew after it has been
stopped from outside, whatever it was doing. -/
theorem C99_stop_idle (P : Prog S V) (f L : Nat)
    (hk : ∀ h l, Calls P f (h :: l) → (P.fn h).place.obj = (P.fn f).place.obj ∧ (P.fn h).place.kind = .nested L)
    (hL : 0 < L) (m : Mem) (hl : m.level (P.fn f).place.obj = 0) :
    Idle P f (nestedStop L (P.fn f).place.obj m) := by
  intro h l hcl
  obtain ⟨h1, h2⟩ := hk h l hcl
  obtain ⟨-, h3, -, -, h4⟩ := C99_nested_stop L (P.fn f).place.obj m (by omega)
  simp only [h2, h1]
  exact ⟨by rw [h4, hl], fun i hi => h3 i (by omega) hi⟩

/-- `getResumableDepth` is the number of active functions of the object minus one. -/
theorem C99_depth (o : Nat) (m : Mem) (hl : m.level o < 128) : nestedDepth o m = m.level o - 1 := by
  simp only [nestedDepth, i8]
  omega

/-- The two classes `NestedResumable<1>` and (the general) `NestedResumable<Levels>` with one level. -/
def Agree (x : Single) (m : Mem) (o : Nat) : Prop :=
  x.level = (m.level o : Int) - 1 ∧ x.state = m.state o 0 ∧ m.level o ≤ 1

/-- The specialisation for one level does what the general class does: the check, entering, leaving,
storing the state and stopping. -/
theorem C99_single (x : Single) (m : Mem) (o : Nat) (h : Agree x m o) (v : Nat) :
    Agree Single.fresh fresh o ∧
      (∀ check, x.nestingOk check = nestingOk check ⟨o, .nested 1, 0⟩ m) ∧
      (m.level o = 0 → ∃ m', pushRf ⟨o, .nested 1, 0⟩ m = .ok (x.push.1, m') ∧ Agree x.push.2 m' o) ∧
      (m.level o = 1 → Agree x.pop (popRf ⟨o, .nested 1, 0⟩ m) o) ∧
      (m.level o = 1 → ∃ m', setRf ⟨o, .nested 1, 0⟩ v m = .ok m' ∧ Agree (x.set v) m' o) ∧
      (m.level o = 0 → Agree x.stop (nestedStop 1 o m) o) ∧
      (m.level o = 0 → nestedRunning 1 o m = .ok x.running) ∧ nestedDepth o m = x.depth := by
  obtain ⟨h1, h2, h3⟩ := h
  refine ⟨⟨rfl, rfl, Nat.zero_le _⟩, ?_, ?_, ?_, ?_, ?_, ?_, ?_⟩
  · intro check
    simp only [Single.nestingOk, nestingOk]
    congr 1
    rw [h1]
    by_cases h : m.level o = 0
    · simp [h]
    · have : m.level o = 1 := by omega
      simp [this]
  · intro hl
    simp only [pushRf, hl]
    rw [if_pos (by decide)]
    refine ⟨_, by rw [Single.push, h2], ?_, ?_, ?_⟩
    · simp [Single.push, Mem.setLevel]
    · simpa [Single.push, Mem.setLevel] using h2
    · simp [Mem.setLevel]
  · intro hl
    refine ⟨?_, ?_, ?_⟩
    · simp [Single.pop, popRf, Mem.setLevel, hl]
    · simpa [Single.pop, popRf, Mem.setLevel] using h2
    · simp [popRf, Mem.setLevel, hl]
  · intro hl
    simp only [setRf, hl]
    rw [if_pos (by decide)]
    refine ⟨_, rfl, h1, ?_, ?_⟩
    · simp [Single.set, Mem.write]
    · exact h3
  · intro hl
    obtain ⟨-, h4, -, -, h5⟩ := C99_nested_stop 1 o m (by omega)
    refine ⟨?_, ?_, ?_⟩
    · rw [h5]; exact h1
    · rw [h4 0 (by omega) (by omega)]; rfl
    · rw [h5]; exact h3
  · intro hl
    simp only [nestedRunning, hl, Single.running, h2]
    rfl
  · rw [C99_depth o m (by omega), Single.depth, h1]

example : Agree Single.fresh fresh 0 := ⟨rfl, rfl, Nat.zero_le _⟩

/-! ## C100: protothreads -/

/-- A protothread that has ended does nothing when it is run, until it is restarted. -/
theorem C100_ended (P : Prog S V) (f n d : Nat) (hC : Compiles (P.fn f))
    (hk : (P.fn f).place.kind = .thread) (m : Mem) (h : ptRunning (P.fn f).place.obj m = false)
    (a : V) (s : S) : callFn P n (d + 1) f a m s = .ok ⟨codeStop, none, m, s⟩ := by
  have hst : m.state (P.fn f).place.obj 0 = 65535 := by
    have h' := of_decide_eq_false h
    exact not_not.1 h'
  have hr : Room (P.fn f).place m := by simp [Room, hk]
  have hslot : slotOf (P.fn f).place m = 0 := by simp [slotOf, hk]
  unfold Compiles at hC
  simp only [hk] at hC
  have hnot : 65535 ∉ ((expand (P.fn f).place.kind (P.fn f).body).labels) := by
    rw [labels_expand, hk]
    simp only [label, List.mem_map, not_exists, not_and]
    exact fun p hp h => hC.2 (h ▸ hp)
  rw [callFn_of f hr, hslot, hst, whole_miss _ _ _ (by decide) (fun h => absurd hk h)]
  rw [skip_seek _ _ _ (by simpa [Cpp.labels, tail, finish] using hnot)]
  simp only [toReply, otherwise, hk, setRf]
  have he : enter (P.fn f).place m = m := by simp [enter, hk]
  rw [he, write_self _ _ _ _ (by rw [hst]; rfl)]

/-- A protothread is running until it has returned `false`, and not from then on; `restart` makes it
begin anew. -/
theorem C100_running (P : Prog S V) (hC : ∀ g, Compiles (P.fn g))
    (hS : ∀ g, Steady (P.fn g).body) (hco : Modm.Spec.Resumable.Coherent P) (f : Nat)
    (hk : (P.fn f).place.kind = .thread) (hal : ∀ l, Calls P f l → Allowed P l) (m : Mem)
    (hid : Idle P f m) (n d : Nat) (a : V) (envs : List (S → S)) (s : S) (e : Bool) (m' : Mem)
    (h : Modm.Spec.Resumable.memAfter P n (d + 1) f a envs m s = .ok (e, m')) :
    ptRunning (P.fn f).place.obj m' = !e ∧ (e = true → ptRestart (P.fn f).place.obj m' = m) := by
  have hok := ok_of hco hal hid (d + 1) f [] m .top (inv_nil P m)
  obtain ⟨h1, h2⟩ := memAfter_of hC hS hok n a envs _ _ s (.start _ _ _) h
  have hslot : slotOf (P.fn f).place m = 0 := by simp [slotOf, hk]
  have h0 := hok.2.1
  rw [hslot] at h0
  cases e with
  | true =>
    rw [h2 rfl, hslot]
    constructor
    · simp [ptRunning, read_write, hk, endState]
    · intro _
      rw [ptRestart, write_write, write_self _ _ _ _ (by rw [h0]; rfl)]
  | false =>
    refine ⟨?_, by simp⟩
    obtain ⟨r, hch⟩ := h1 rfl
    have hc := hC f
    unfold Compiles at hc
    simp only [hk] at hc
    have hlab : ∀ l, l ∈ (positions (P.fn f).body).map (label (P.fn f).place.kind) → l ≠ 65535 := by
      intro l hl he
      rw [hk] at hl
      simp only [label, List.mem_map] at hl
      obtain ⟨p, hp, rfl⟩ := hl
      exact hc.2 (he ▸ hp)
    have hz := (compiles_nodup (hC f)).1
    suffices hne : m'.state (P.fn f).place.obj 0 ≠ 65535 by
      exact decide_eq_true hne
    cases hch with
    | start => rw [h0]; decide
    | leaf _ _ _ l r _ _ hat =>
      rw [hslot, read_write, if_pos ⟨rfl, rfl⟩]
      exact hlab l (positions_at hat)
    | call _ _ _ l r g x r' m1 hr' h0' hat hc =>
      have hl := positions_at hat
      rw [pop_state, chain_keeps hc]
      · rw [inside_read, hslot, if_pos ⟨rfl, rfl⟩]
        exact hlab l hl
      · rw [inside_read, hslot, if_pos ⟨rfl, rfl⟩]
        exact fun h => hz (h ▸ hl)

/-- `stop` ends a protothread (so that `run()` has no effect by `C100_ended`), `restart` makes it
running, and neither touches another object. -/
theorem C100_stop (o o' : Nat) (m : Mem) :
    ptRunning o (ptStop o m) = false ∧ ptRunning o (ptRestart o m) = true ∧
      (ptRestart o m).state o 0 = 0 ∧
      (o' ≠ o → ptRunning o' (ptStop o m) = ptRunning o' m ∧
        ptRunning o' (ptRestart o m) = ptRunning o' m) := by
  refine ⟨?_, ?_, ?_, ?_⟩
  · simp [ptRunning, ptStop, read_write]
  · simp [ptRunning, ptRestart, read_write, stopped, invalid]
  · simp [ptRestart, read_write, stopped]
  · intro h
    simp [ptRunning, ptRestart, ptStop, read_write, h]

namespace Thread

/-- A protothread that writes 1, waits for the flag, calls a resumable function and ends. -/
def prog : Prog Example.St Nat where
  check := true
  fn
    | 0 => ⟨⟨2, .thread, 0⟩, 0,
        .seq (Example.write 1) (.seq (.waitWhile 20 (fun _ s => (!s.flag, s)))
          (.seq (.call 21 1 (fun _ _ => 3) (fun _ v s => { s with last := v })) (Example.write 2)))⟩
    | _ => ⟨⟨0, .nested 2, 0⟩, 1, .seq (.yield 2) (.ret (fun a _ => a + 1))⟩

theorem calls_prog (l : List Nat) (h : Calls prog 0 l) : l = [0] ∨ l = [1, 0] := by
  induction h with
  | top => simp
  | call g h l hc hm ih =>
    rcases ih with h1 | h1 <;> simp only [List.cons.injEq] at h1 <;> obtain ⟨rfl, rfl⟩ := h1
    · simpa [prog, callees, Example.write] using hm
    · simp [prog, callees] at hm

theorem prog_legal : (∀ g, Compiles (prog.fn g)) ∧ (∀ g, Steady (prog.fn g).body) ∧
    Modm.Spec.Resumable.Coherent prog ∧ (∀ l, Calls prog 0 l → Allowed prog l) ∧ Idle prog 0 fresh := by
  refine ⟨?_, ?_, ?_, ?_, ?_⟩
  · intro g
    match g with
    | 0 =>
      show (0 :: [20, 21].map (label .thread)).Nodup ∧ 65535 ∉ [20, 21]
      decide
    | g + 1 =>
      show (0 :: label (.nested 2) 1 :: [2].map (label (.nested 2))).Nodup
      decide
  · intro g
    match g with
    | 0 => simp [prog, Steady, Example.write]
    | g + 1 => simp [prog, Steady]
  · intro g h
    match g, h with
    | 0, 0 => simp
    | 0, h + 1 => simp [prog]
    | g + 1, 0 => simp [prog]
    | g + 1, h + 1 => simp [prog]
  · intro l hl
    rcases calls_prog l hl with rfl | rfl <;> simp [Allowed, prog]
  · intro h l hl
    rcases calls_prog _ hl with h | h <;> simp only [List.cons.injEq] at h <;>
      obtain ⟨rfl, rfl⟩ := h <;> simp [prog, fresh, stopped]

example : Modm.Spec.Resumable.traceRf prog 0 2 0 0
    [id, id, fun s => { s with flag := true }, id, id] fresh ⟨[], false, none⟩ =
    [.going ⟨[1], false, none⟩, .going ⟨[1], false, none⟩, .going ⟨[1], true, none⟩,
     .ended none ⟨[1, 2], true, some 4⟩] := rfl

end Thread

/-! ## C101: the result of a function without `RF_RETURN` -/

/-- A function whose body does not return (it reaches `RF_END`) has no initialised result, whatever
its body does; the documentation promises 0. -/
theorem C101_end_counterexample (P : Prog S V) (n d g : Nat) (a : V) (f : V → S → S) (m : Mem) (s : S)
    (hr : Room (P.fn g).place m) (hk : (P.fn g).place.kind ≠ .thread)
    (hs : m.state (P.fn g).place.obj (slotOf (P.fn g).place m) = 0) (hb : (P.fn g).body = .act f) :
    callFn P n (d + 1) g a m s = .ok ⟨codeStop, none, m, f a s⟩ := by
  rw [callFn_of g hr, hs]
  obtain ⟨x, hx⟩ := whole_start (n := n) (a := a) (callFn P n d) (P.fn g) hr s
  rw [hx, hb]
  simp only [expand, exec, tail, exec_finish _ hr, toReply]
  have he : endState (P.fn g).place.kind = 0 := by
    cases hk' : (P.fn g).place.kind <;> simp_all [endState, stopped]
  rw [he, write_self _ _ _ _ hs]

example : ∃ P : Prog Nat Nat, Room (P.fn 0).place fresh ∧ (P.fn 0).place.kind ≠ .thread ∧
    (P.fn 0).body = .act (fun _ s => s + 1) :=
  ⟨⟨true, fun _ => ⟨⟨0, .indexed 1, 0⟩, 1, .act (fun _ s => s + 1)⟩⟩, by simp [Room], by simp, rfl⟩

/-- The value given to `RF_RETURN` is the result. -/
theorem C101_return (P : Prog S V) (n d g : Nat) (a : V) (v : V → S → V) (m : Mem) (s : S)
    (hr : Room (P.fn g).place m) (hk : (P.fn g).place.kind ≠ .thread)
    (hs : m.state (P.fn g).place.obj (slotOf (P.fn g).place m) = 0) (hb : (P.fn g).body = .ret v) :
    callFn P n (d + 1) g a m s = .ok ⟨codeStop, some (v a s), m, s⟩ := by
  rw [callFn_of g hr, hs]
  obtain ⟨x, hx⟩ := whole_start (n := n) (a := a) (callFn P n d) (P.fn g) hr s
  rw [hx, hb]
  simp only [expand, exec, exec_finish _ hr, toReply]
  have he : endState (P.fn g).place.kind = 0 := by
    cases hk' : (P.fn g).place.kind <;> simp_all [endState, stopped]
  rw [he, write_self _ _ _ _ hs]

end Props.Resumable
