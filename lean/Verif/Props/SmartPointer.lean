import Verif.Model.SmartPointer
import Verif.Spec.Shared
import Mathlib.Data.List.Nodup
import Mathlib.Tactic.Common
/-
C09: `modm::SmartPointer` implements shared ownership as long as no buffer has more than 256 handles and no sole handle is assigned
to itself.
-/
set_option autoImplicit false
namespace Props.SmartPointer
open Modm.SmartPointer hiding read write
open Spec.Shared
variable {P : Type}

structure Inv (s : State P) (σ : Store P) : Prop where
  nodup : (σ.handles.map (·.1)).Nodup
  ptr : ∀ h, s.ptr h = target σ h
  heap : ∀ a, s.heap a = if owners σ a = 0 then none else (σ.contents a).map fun p => ⟨owners σ a % 256, p⟩
  cont : ∀ a, owners σ a ≠ 0 → ∃ p, σ.contents a = some p
  few : ∀ a, owners σ a ≤ 256

/-! ### counting handles -/

theorem target_none (σ : Store P) (h : Nat) : target σ h = none ↔ h ∉ σ.handles.map (·.1) := by
  simp only [target, Option.map_eq_none_iff, List.find?_eq_none, decide_eq_true_eq, List.mem_map, not_exists, not_and]

theorem target_cons (l : List (Nat × Nat)) (c : Nat → Option P) (x : Nat × Nat) (h : Nat) :
    target ⟨x :: l, c⟩ h = if x.1 = h then some x.2 else target ⟨l, c⟩ h := by
  simp only [target, List.find?_cons]
  by_cases e : x.1 = h <;> simp [e]

theorem target_without (σ : Store P) (c : Nat → Option P) (h g : Nat) :
    target ⟨without σ h, c⟩ g = if g = h then none else target σ g := by
  obtain ⟨l, c'⟩ := σ
  simp only [without]
  induction l with
  | nil => simp [target]
  | cons x l ih =>
    by_cases e : x.1 = h
    · rw [List.filter_cons_of_neg (by simpa using e), ih, target_cons]
      by_cases eg : g = h
      · simp [eg]
      · rw [if_neg eg, if_neg eg, if_neg (fun e' => eg (e'.symm.trans e))]
    · rw [List.filter_cons_of_pos (by simpa using e), target_cons, ih, target_cons]
      by_cases eg : g = h
      · simp [eg, e]
      · simp only [if_neg eg]

theorem owners_cons (l : List (Nat × Nat)) (c c' : Nat → Option P) (x : Nat × Nat) (a : Nat) :
    owners ⟨x :: l, c⟩ a = owners ⟨l, c'⟩ a + if x.2 = a then 1 else 0 := by
  simp only [owners, List.countP_cons, decide_eq_true_eq]

theorem owners_contents (l : List (Nat × Nat)) (c c' : Nat → Option P) (a : Nat) : owners ⟨l, c⟩ a = owners ⟨l, c'⟩ a := rfl

theorem owners_without (σ : Store P) (c : Nat → Option P) (h a : Nat) (hn : (σ.handles.map (·.1)).Nodup) :
    owners σ a = owners ⟨without σ h, c⟩ a + if target σ h = some a then 1 else 0 := by
  obtain ⟨l, c'⟩ := σ
  simp only [without] at *
  induction l with
  | nil => simp [target, owners]
  | cons x l ih =>
    simp only [List.map_cons, List.nodup_cons] at hn
    rw [owners_cons l c' c', target_cons]
    by_cases e : x.1 = h
    · subst e
      rw [List.filter_cons_of_neg (by simp), if_pos rfl]
      have h0 : target (⟨l, c'⟩ : Store P) x.1 = none := (target_none _ _).2 hn.1
      have := ih hn.2
      rw [h0] at this
      simp only [reduceCtorEq, if_false, Nat.add_zero] at this
      rw [this]
      simp
    · rw [List.filter_cons_of_pos (by simpa using e), owners_cons _ c c, if_neg e, ih hn.2]
      omega

theorem owners_pos (σ : Store P) (h a : Nat) (ht : target σ h = some a) : owners σ a ≠ 0 := by
  simp only [target, Option.map_eq_some_iff] at ht
  obtain ⟨x, hx, rfl⟩ := ht
  simp only [owners, ne_eq, List.countP_eq_zero, not_forall]
  exact ⟨x, List.mem_of_find?_eq_some hx, by simp⟩

theorem owners_collect (σ : Store P) (a : Nat) : owners (collect σ) a = owners σ a := rfl
theorem target_collect (σ : Store P) (h : Nat) : target (collect σ) h = target σ h := rfl

theorem nodup_without (σ : Store P) (h : Nat) (hn : (σ.handles.map (·.1)).Nodup) :
    ((without σ h).map (·.1)).Nodup ∧ h ∉ (without σ h).map (·.1) := by
  refine ⟨hn.sublist (List.Sublist.map _ List.filter_sublist), ?_⟩
  simp [without]

/-! ### steps -/

theorem dec_ok (heap : Nat → Option (Buffer P)) (a n : Nat) (p : P) (hn : n ≠ 0) (h256 : n ≤ 256) (h : heap a = some ⟨n % 256, p⟩) :
    dec a heap = some (Function.update heap a (if n - 1 = 0 then none else some ⟨(n - 1) % 256, p⟩)) := by
  have hl : lowered (⟨n % 256, p⟩ : Buffer P) = n - 1 := by simp only [lowered]; omega
  simp only [dec, h, Option.map_some, hl]
  rw [Nat.mod_eq_of_lt (show n - 1 < 256 by omega)]

theorem inc_ok (heap : Nat → Option (Buffer P)) (a n : Nat) (p : P) (h : heap a = some ⟨n % 256, p⟩) :
    inc a heap = some (Function.update heap a (some ⟨(n + 1) % 256, p⟩)) := by
  simp only [inc, h, Option.map_some]
  congr 4; omega

theorem heap_of {s : State P} {σ : Store P} (hI : Inv s σ) (h a : Nat) (ht : target σ h = some a) :
    ∃ p, σ.contents a = some p ∧ s.heap a = some ⟨owners σ a % 256, p⟩ := by
  have h0 := owners_pos σ h a ht
  obtain ⟨p, hp⟩ := hI.cont a h0
  exact ⟨p, hp, by rw [hI.heap a, if_neg h0, hp]; rfl⟩

/-- the operation a call performs -/
def opOf : Call P → Op P
  | .create h a p => .create h a p
  | .copy h g => .copy h g
  | .destroy h => .destroy h
  | .assign h g => .assign h g
  | .write h p => .write h p

/-- not the self-assignment of the only handle of a buffer -/
def NotSoleSelf (σ : Store P) : Call P → Prop
  | .assign h g => h = g → ∀ a, target σ h = some a → 1 < owners σ a
  | _ => True

theorem step_ok {s : State P} {σ σ' : Store P} (hI : Inv s σ) (c : Call P) (hop : apply σ (opOf c) = some σ')
    (hfew : ∀ a, owners σ' a ≤ 256) (hs : NotSoleSelf σ c) : ∃ s', call s c = some s' ∧ Inv s' σ' := by
  cases c with
  | create h a p =>
    simp only [opOf, Spec.Shared.apply] at hop
    cases ht : target σ h with
    | some o => rw [ht] at hop; cases hop
    | none =>
      rw [ht] at hop
      simp only at hop
      by_cases h0 : owners σ a = 0
      · rw [if_pos h0] at hop; cases hop
        refine ⟨_, rfl, ?_, ?_, ?_, ?_, hfew⟩
        · simp only [List.map_cons, List.nodup_cons]
          exact ⟨(target_none σ h).1 ht, hI.nodup⟩
        · intro g
          rw [target_cons]
          by_cases e : g = h
          · subst e; simp
          · simp only [Function.update_of_ne e, if_neg (Ne.symm e)]
            exact hI.ptr g
        · intro b
          rw [owners_cons _ _ σ.contents]
          by_cases e : b = a
          · subst e
            have h0' : owners (⟨σ.handles, σ.contents⟩ : Store P) b = 0 := h0
            simp [h0', setContents]
          · simp only [Function.update_of_ne e, if_neg (Ne.symm e), Nat.add_zero, setContents, if_neg e]
            exact hI.heap b
        · intro b hb
          rw [owners_cons _ _ σ.contents] at hb
          by_cases e : b = a
          · exact ⟨p, by simp [setContents, e]⟩
          · simp only [if_neg (Ne.symm e), Nat.add_zero] at hb
            simpa [setContents, e] using hI.cont b hb
      · rw [if_neg h0] at hop; cases hop
  | copy h g =>
    simp only [opOf, Spec.Shared.apply] at hop
    cases ht : target σ h with
    | some o => rw [ht] at hop; cases hop
    | none =>
      cases hg : target σ g with
      | none => rw [ht, hg] at hop; cases hop
      | some a =>
        rw [ht, hg] at hop; cases hop
        obtain ⟨p, hp, hb⟩ := heap_of hI g a hg
        have hpos := owners_pos σ g a hg
        refine ⟨⟨Function.update s.heap a (some ⟨(owners σ a + 1) % 256, p⟩), Function.update s.ptr h (some a)⟩, ?_, ?_, ?_, ?_, ?_, hfew⟩
        · simp only [call, copy, hI.ptr g, hg, Option.bind_some, inc_ok s.heap a _ p hb, Option.map_some]
        · simp only [List.map_cons, List.nodup_cons]
          exact ⟨(target_none σ h).1 ht, hI.nodup⟩
        · intro g'
          rw [target_cons]
          by_cases e : g' = h
          · subst e; simp
          · simp only [Function.update_of_ne e, if_neg (Ne.symm e)]
            exact hI.ptr g'
        · intro b
          rw [owners_cons _ _ σ.contents]
          by_cases e : b = a
          · subst e
            simp [hp]
          · simp only [Function.update_of_ne e, if_neg (Ne.symm e), Nat.add_zero]
            exact hI.heap b
        · intro b hb'
          rw [owners_cons _ _ σ.contents] at hb'
          by_cases e : b = a
          · exact ⟨p, by rw [e]; exact hp⟩
          · simp only [if_neg (Ne.symm e), Nat.add_zero] at hb'
            exact hI.cont b hb'
  | destroy h =>
    simp only [opOf, Spec.Shared.apply] at hop
    cases ht : target σ h with
    | none => rw [ht] at hop; cases hop
    | some a =>
      rw [ht] at hop; cases hop
      obtain ⟨p, hp, hb⟩ := heap_of hI h a ht
      have hpos := owners_pos σ h a ht
      have hown : ∀ b, owners (⟨without σ h, σ.contents⟩ : Store P) b = owners σ b - if b = a then 1 else 0 := by
        intro b
        have := owners_without σ σ.contents h b hI.nodup
        rw [ht] at this
        by_cases e : b = a
        · subst e; simp at this ⊢; omega
        · simp only [Option.some.injEq, if_neg (Ne.symm e), Nat.add_zero] at this
          rw [if_neg e]; omega
      refine ⟨⟨Function.update s.heap a (if owners σ a - 1 = 0 then none else some ⟨(owners σ a - 1) % 256, p⟩),
        Function.update s.ptr h none⟩, ?_, (nodup_without σ h hI.nodup).1, ?_, ?_, ?_, hfew⟩
      · simp only [call, destroy, hI.ptr h, ht, Option.bind_some, dec_ok s.heap a _ p hpos (hI.few a) hb, Option.map_some]
      · intro g
        rw [target_collect, target_without]
        by_cases e : g = h
        · subst e; simp
        · simp only [Function.update_of_ne e, if_neg e]
          exact hI.ptr g
      · intro b
        rw [owners_collect, hown b]
        simp only [collect, hown b]
        by_cases e : b = a
        · subst e
          simp only [Function.update_self, if_true, hp]
          split <;> simp
        · simp only [Function.update_of_ne e, if_neg e, Nat.sub_zero]
          rw [hI.heap b]
          split <;> simp
      · intro b hb'
        rw [owners_collect] at hb'
        simp only [collect, if_neg hb']
        rw [hown b] at hb'
        exact hI.cont b (by omega)
  | assign h g =>
    simp only [opOf, Spec.Shared.apply] at hop
    cases ht : target σ h with
    | none => rw [ht] at hop; cases hop
    | some a =>
      cases hg : target σ g with
      | none => rw [ht, hg] at hop; cases hop
      | some b =>
        rw [ht, hg] at hop; cases hop
        obtain ⟨p, hp, hb⟩ := heap_of hI h a ht
        obtain ⟨q, hq, hbq⟩ := heap_of hI g b hg
        have hpos := owners_pos σ h a ht
        have hposb := owners_pos σ g b hg
        have hown : ∀ x, owners (⟨(h, b) :: without σ h, σ.contents⟩ : Store P) x =
            (owners σ x - if x = a then 1 else 0) + if b = x then 1 else 0 := by
          intro x
          rw [owners_cons _ _ σ.contents]
          have := owners_without σ σ.contents h x hI.nodup
          rw [ht] at this
          by_cases e : x = a
          · subst e; simp at this ⊢; omega
          · simp only [Option.some.injEq, if_neg (Ne.symm e), Nat.add_zero] at this
            rw [if_neg e]; simp only; omega
        have htar : ∀ (ptr : Nat → Option Nat), (∀ g, ptr g = s.ptr g) → ∀ g', Function.update ptr h (some b) g' =
            target (collect ⟨(h, b) :: without σ h, σ.contents⟩) g' := by
          intro ptr hptr g'
          rw [target_collect, target_cons, target_without]
          by_cases e : g' = h
          · subst e; simp
          · simp only [Function.update_of_ne e, if_neg e, if_neg (Ne.symm e), hptr]
            exact hI.ptr g'
        have hnd := nodup_without σ h hI.nodup
        by_cases hab : a = b
        · subst hab
          rw [hp] at hq; cases hq
          have htwo : 1 < owners σ a := by
            by_cases e : h = g
            · exact hs e a ht
            · have h1 := owners_without σ σ.contents h a hI.nodup
              have h2 : target (⟨without σ h, σ.contents⟩ : Store P) g = some a := by
                rw [target_without, if_neg (Ne.symm e)]; exact hg
              have := owners_pos _ g a h2
              rw [ht] at h1; simp at h1; omega
          have hd := dec_ok s.heap a _ p hpos (hI.few a) hb
          rw [if_neg (show ¬ owners σ a - 1 = 0 by omega)] at hd
          have hi := inc_ok (Function.update s.heap a (some ⟨(owners σ a - 1) % 256, p⟩)) a (owners σ a - 1) p (by simp)
          rw [Function.update_idem, show owners σ a - 1 + 1 = owners σ a by omega] at hi
          refine ⟨⟨Function.update s.heap a (some ⟨owners σ a % 256, p⟩), Function.update s.ptr h (some a)⟩, ?_, ?_, htar s.ptr (fun _ => rfl), ?_, ?_, hfew⟩
          · simp only [call, assign, hI.ptr h, ht, Option.bind_some, hd, hI.ptr g, hg, hi, Option.map_some]
          · exact List.nodup_cons.2 ⟨hnd.2, hnd.1⟩
          · intro x
            rw [owners_collect, hown x]
            simp only [collect, hown x]
            by_cases e : x = a
            · subst e
              simp only [Function.update_self, if_true, hp, show owners σ x - 1 + 1 = owners σ x by omega, if_neg hpos, Option.map_some]
            · simp only [Function.update_of_ne e, if_neg e, if_neg (Ne.symm e), Nat.sub_zero, Nat.add_zero]
              rw [hI.heap x]
              split <;> simp
          · intro x hx
            rw [owners_collect] at hx
            simp only [collect, if_neg hx]
            rw [hown x] at hx
            by_cases e : x = a
            · exact ⟨p, by rw [e]; exact hp⟩
            · simp only [if_neg e, if_neg (Ne.symm e), Nat.sub_zero, Nat.add_zero] at hx
              exact hI.cont x hx
        · have hd := dec_ok s.heap a _ p hpos (hI.few a) hb
          obtain ⟨h1, hh1⟩ : ∃ h1, h1 = Function.update s.heap a (if owners σ a - 1 = 0 then none else some ⟨(owners σ a - 1) % 256, p⟩) :=
            ⟨_, rfl⟩
          rw [← hh1] at hd
          have hi := inc_ok h1 b (owners σ b) q (by rw [hh1, Function.update_of_ne (Ne.symm hab)]; exact hbq)
          refine ⟨⟨Function.update h1 b (some ⟨(owners σ b + 1) % 256, q⟩), Function.update s.ptr h (some b)⟩, ?_, ?_, htar s.ptr (fun _ => rfl), ?_, ?_, hfew⟩
          · simp only [call, assign, hI.ptr h, ht, Option.bind_some, hd, hI.ptr g, hg, hi, Option.map_some]
          · exact List.nodup_cons.2 ⟨hnd.2, hnd.1⟩
          · intro x
            rw [owners_collect, hown x]
            simp only [collect, hown x]
            by_cases e : x = b
            · subst e
              simp [hq, Ne.symm hab]
            · rw [Function.update_of_ne e, hh1]
              by_cases e' : x = a
              · subst e'
                simp only [Function.update_self, if_true, if_neg (Ne.symm hab), Nat.add_zero, hp]
                split <;> simp
              · simp only [Function.update_of_ne e', if_neg e', if_neg (Ne.symm e), Nat.sub_zero, Nat.add_zero]
                rw [hI.heap x]
                split <;> simp
          · intro x hx
            rw [owners_collect] at hx
            simp only [collect, if_neg hx]
            rw [hown x] at hx
            by_cases e : x = b
            · exact ⟨q, by rw [e]; exact hq⟩
            · simp only [if_neg (Ne.symm e), Nat.add_zero] at hx
              exact hI.cont x (by omega)
  | write h p =>
    simp only [opOf, Spec.Shared.apply] at hop
    cases ht : target σ h with
    | none => rw [ht] at hop; cases hop
    | some a =>
      rw [ht] at hop; cases hop
      obtain ⟨q, hq, hb⟩ := heap_of hI h a ht
      have hpos := owners_pos σ h a ht
      refine ⟨⟨Function.update s.heap a (some ⟨owners σ a % 256, p⟩), s.ptr⟩, ?_, hI.nodup, hI.ptr, ?_, ?_, hfew⟩
      · simp only [call, Modm.SmartPointer.write, hI.ptr h, ht, Option.bind_some, hb, Option.map_some]
      · intro x
        by_cases e : x = a
        · subst e
          have : owners (⟨σ.handles, setContents σ x p⟩ : Store P) x = owners σ x := rfl
          rw [this, if_neg hpos]
          simp [setContents]
        · simp only [Function.update_of_ne e, setContents, if_neg e]
          exact hI.heap x
      · intro x hx
        by_cases e : x = a
        · exact ⟨p, by simp [setContents, e]⟩
        · simpa [setContents, e] using hI.cont x hx

/-! ### the claims -/

/-- histories in which no buffer gets more than 256 handles and no sole handle is assigned to itself -/
inductive Reach : State P → Store P → Prop
  | init : Reach State.init empty
  | step (s s' : State P) (σ σ' : Store P) (c : Call P) : Reach s σ → apply σ (opOf c) = some σ' → (∀ a, owners σ' a ≤ 256) →
      NotSoleSelf σ c → call s c = some s' → Reach s' σ'

theorem reach_inv {s : State P} {σ : Store P} (h : Reach s σ) : Inv s σ := by
  induction h with
  | init => exact ⟨by simp [empty], fun h => by simp [State.init, empty, target], fun a => by simp [State.init, empty, owners],
      fun a h => absurd (by simp [empty, owners]) h, fun a => by simp [empty, owners]⟩
  | step s s' σ σ' c _ hop hfew hs hc ih =>
    obtain ⟨s'', h1, h2⟩ := step_ok ih c hop hfew hs
    rw [hc] at h1; cases h1
    exact h2

/-- C09 (up to 256 handles per buffer, no self-assignment of a sole handle): every allowed call runs without touching a freed buffer
and without freeing one twice, and leads to a state that again follows shared ownership -/
theorem C09_runs_partial {s : State P} {σ σ' : Store P} (h : Reach s σ) (c : Call P) (hop : apply σ (opOf c) = some σ')
    (hfew : ∀ a, owners σ' a ≤ 256) (hs : NotSoleSelf σ c) : ∃ s', call s c = some s' ∧ Reach s' σ' := by
  obtain ⟨s', h1, -⟩ := step_ok (reach_inv h) c hop hfew hs
  exact ⟨s', h1, .step s s' σ σ' c h hop hfew hs h1⟩

/-- C09: in every such state a buffer is allocated exactly when some handle refers to it, and every handle reads the contents of the
shared object -/
theorem C09_freed_with_last_handle_partial {s : State P} {σ : Store P} (h : Reach s σ) :
    (∀ a, (s.heap a).isSome ↔ ∃ g, s.ptr g = some a) ∧
    ∀ g a, target σ g = some a → Modm.SmartPointer.read g s = σ.contents a ∧ (σ.contents a).isSome := by
  have hI := reach_inv h
  refine ⟨fun a => ?_, fun g a hg => ?_⟩
  · rw [hI.heap a]
    by_cases h0 : owners σ a = 0
    · rw [if_pos h0]
      simp only [Option.isSome_none, Bool.false_eq_true, false_iff, not_exists]
      intro g hg
      rw [hI.ptr g] at hg
      exact owners_pos σ g a hg h0
    · rw [if_neg h0]
      obtain ⟨p, hp⟩ := hI.cont a h0
      simp only [hp, Option.map_some, Option.isSome_some, true_iff]
      simp only [owners, List.countP_eq_zero, not_forall] at h0
      obtain ⟨x, hx, e⟩ := h0
      simp only [decide_eq_true_eq, not_not] at e
      refine ⟨x.1, ?_⟩
      rw [hI.ptr]
      have hnd := hI.nodup
      obtain ⟨l, c⟩ := σ
      subst e
      clear h hI hp
      simp only at hx hnd
      induction l with
      | nil => cases hx
      | cons y l ih =>
        simp only [List.map_cons, List.nodup_cons] at hnd
        rw [target_cons]
        rcases List.mem_cons.1 hx with rfl | hx
        · simp
        · have hne : ¬ y.1 = x.1 := fun e => hnd.1 (by rw [e]; exact List.mem_map_of_mem hx)
          rw [if_neg hne]
          exact ih hx hnd.2
  · obtain ⟨p, hp, hb⟩ := heap_of hI g a hg
    simp [Modm.SmartPointer.read, hI.ptr g, hg, hb, hp]

/-- the history: one buffer, 256 copies of its handle, one of which is destroyed again -/
def crowd : List (Call Nat) := .create 0 1 42 :: ((List.range 256).map fun i => .copy (i + 1) 0) ++ [.destroy 1]

/-- C09 is false: with 257 handles the counter wraps, destroying one of them frees the buffer under the other 256 -/
theorem C09_counter_wraps_counterexample :
    ((crowd.foldlM call State.init).map fun s => (Modm.SmartPointer.read 0 s, s.ptr 0)) = some (none, some 1) ∧
    ((crowd.foldlM (fun σ c => apply σ (opOf c)) empty).map fun σ => (target σ 0, owners σ 1, σ.contents 1)) = some (some 1, 256, some 42) := by
  decide +kernel

/-- C09 is false: assigning the only handle of a buffer to itself frees the buffer and then uses it -/
theorem C09_self_assignment_counterexample {s : State P} {σ : Store P} (h : Reach s σ) (g a : Nat) (hg : target σ g = some a)
    (hone : owners σ a = 1) : assign g g s = none := by
  have hI := reach_inv h
  obtain ⟨p, hp, hb⟩ := heap_of hI g a hg
  have hd := dec_ok s.heap a _ p (by omega) (hI.few a) hb
  simp [hone] at hd
  simp [assign, hI.ptr g, hg, hd, inc]

/-- ... although shared ownership keeps it -/
example (σ : Store P) (g a : Nat) (p : P) (hg : target σ g = some a) (hp : σ.contents a = some p) :
    ∃ σ', apply σ (.assign g g) = some σ' ∧ target σ' g = some a ∧ σ'.contents a = some p := by
  refine ⟨collect ⟨(g, a) :: without σ g, σ.contents⟩, by simp [Spec.Shared.apply, hg], ?_, ?_⟩
  · rw [target_collect, target_cons]; simp
  · simp only [collect, owners_cons _ σ.contents σ.contents, if_true]
    rw [if_neg (by omega), hp]

/-- a history: two handles of one buffer, one of a second; the second buffer is freed by an assignment -/
def demo : List (Call Nat) := [.create 0 1 42, .copy 1 0, .create 2 5 7, .write 1 43, .assign 2 0, .assign 0 0, .destroy 0]

theorem few_of_short (σ : Store P) (h : σ.handles.length ≤ 256) (a : Nat) : owners σ a ≤ 256 :=
  Nat.le_trans (List.countP_le_length) h

example : ∃ s σ, Reach (P := Nat) s σ ∧ demo.foldlM call State.init = some s ∧ target σ 2 = some 1 ∧ owners σ 1 = 2 ∧ owners σ 5 = 0 ∧
    Modm.SmartPointer.read 2 s = some 43 := by
  obtain ⟨s1, e1, r1⟩ := C09_runs_partial .init (.create 0 1 42 : Call Nat) rfl (few_of_short _ (by decide)) trivial
  obtain ⟨s2, e2, r2⟩ := C09_runs_partial r1 (.copy 1 0) rfl (few_of_short _ (by decide)) trivial
  obtain ⟨s3, e3, r3⟩ := C09_runs_partial r2 (.create 2 5 7) rfl (few_of_short _ (by decide)) trivial
  obtain ⟨s4, e4, r4⟩ := C09_runs_partial r3 (.write 1 43) rfl (few_of_short _ (by decide)) trivial
  obtain ⟨s5, e5, r5⟩ := C09_runs_partial r4 (.assign 2 0) rfl (few_of_short _ (by decide)) (by simp [NotSoleSelf])
  obtain ⟨s6, e6, r6⟩ := C09_runs_partial r5 (.assign 0 0) rfl (few_of_short _ (by decide)) (by
    intro _ a ha
    have : a = 1 := Option.some.inj (ha.symm.trans (by decide))
    subst this; decide)
  obtain ⟨s7, e7, r7⟩ := C09_runs_partial r6 (.destroy 0) rfl (few_of_short _ (by decide)) trivial
  refine ⟨s7, _, r7, ?_, by decide, by decide, by decide, ?_⟩
  · simp [demo, e1, e2, e3, e4, e5, e6, e7]
  · rw [((C09_freed_with_last_handle_partial r7).2 2 1 (by decide)).1]; decide

end Props.SmartPointer
