/-
C188: views are told by their stack and deleted by it, each once.
C189: the display shows the view on top of the stack.
-/
import Verif.Spec.ViewStack
import Mathlib.Data.List.Nodup
import Mathlib.Tactic.Cases
set_option autoImplicit false
namespace Props.ViewStack
open Modm.ViewStack Spec.ViewStack

/-- The view an event deletes. -/
private def del? : Event → Option Nat
  | .delete v => some v
  | _ => none

private structure Rel (w : World) (s : Stack) : Prop where
  stack : w.stack = s.ids
  next : w.next = s.made
  nodup : s.ids.Nodup
  lt : ∀ v ∈ s.ids, v < s.made
  alive : ∀ v b, (v, b) ∈ s.views → w.alive v = some (!b)
  gone : ∀ v, v ∉ s.ids → w.alive v = none
  told : told w.log = s.told
  once : (s.told.filterMap del?).Nodup
  dels : ∀ v, v ∈ s.told.filterMap del? ↔ v < s.made ∧ v ∉ s.ids

/-- The memory of the display and what is seen of it hold the view on top and nothing else. -/
private def Shown (w : World) (s : Stack) : Prop :=
  ∀ v ∈ s.ids.head?, v ∈ (seen w.log).2 ∧ (∀ u ∈ (seen w.log).2, u = v) ∧ (∀ u ∈ (seen w.log).1, u = v)

private theorem rel0 : Rel {} {} where
  stack := rfl
  next := rfl
  nodup := List.nodup_nil
  lt := by intro v h; cases h
  alive := by intro v b h; cases h
  gone := fun _ _ => rfl
  told := rfl
  once := List.nodup_nil
  dels := by intro v; simp [Stack.ids]

private theorem seen_append (l : List Event) (e : Event) : seen (l ++ [e]) =
    (match e with | .clear => ([], (seen l).2) | .draw v => (v :: (seen l).1, (seen l).2) | .show => ((seen l).1, (seen l).1) | _ => seen l) := by
  unfold seen
  rw [List.foldl_append]
  rfl

private theorem told_append (l : List Event) (e : Event) : told (l ++ [e]) = told l ++ told [e] := by
  unfold told; rw [List.filter_append]

private theorem ids_mark (s : Stack) (v : Nat) : (s.mark v).ids = s.ids := by
  unfold Stack.mark Stack.ids
  rw [List.map_map]
  apply List.map_congr_left
  intro p _
  simp only [Function.comp]
  by_cases h : p.1 = v <;> simp [h]

private theorem ids_tell (s : Stack) (f : Nat → Event) : (s.tell f).ids = s.ids := by
  unfold Stack.tell; split <;> rfl
private theorem views_tell (s : Stack) (f : Nat → Event) : (s.tell f).views = s.views := by
  unfold Stack.tell; split <;> rfl
private theorem made_tell (s : Stack) (f : Nat → Event) : (s.tell f).made = s.made := by
  unfold Stack.tell; split <;> rfl

private theorem mem_ids {s : Stack} {v : Nat} (h : v ∈ s.ids) : ∃ b, (v, b) ∈ s.views := by
  obtain ⟨p, hp, rfl⟩ := List.mem_map.mp h
  exact ⟨p.2, hp⟩
private theorem ids_mem {s : Stack} {v : Nat} {b : Bool} (h : (v, b) ∈ s.views) : v ∈ s.ids := List.mem_map.mpr ⟨_, h, rfl⟩

private theorem push_rel {w : World} {s : Stack} (h : Rel w s) :
    ∃ w', push w = some w' ∧ Rel w' (s.act .push) ∧ Shown w' (s.act .push) := by
  have hn : s.made ∉ s.ids := fun hc => Nat.lt_irrefl _ (h.lt _ hc)
  refine ⟨(({ stack := s.made :: s.ids, alive := Function.update w.alive s.made (some true), next := s.made + 1, log := w.log } : World).emit .clear |>.emit (.draw s.made)).emit .show, ?_, ?_, ?_⟩
  · simp [push, Modm.ViewStack.get, call, World.emit, h.stack, h.next]
  · constructor
    · rfl
    · rfl
    · exact List.nodup_cons.mpr ⟨hn, h.nodup⟩
    · intro v hv
      rcases List.mem_cons.mp hv with rfl | hv
      · exact Nat.lt_succ_self _
      · exact Nat.lt_succ_of_lt (h.lt v hv)
    · intro v b hv
      rcases List.mem_cons.mp hv with e | hv
      · cases e; simp [World.emit]
      · have : v ≠ s.made := fun e => hn (e ▸ ids_mem hv)
        simp [World.emit, Function.update_of_ne this, h.alive v b hv]
    · intro v hv
      have h1 : v ≠ s.made := fun e => hv (by rw [e]; exact List.mem_cons_self)
      have h2 : v ∉ s.ids := fun hc => hv (List.mem_cons_of_mem _ hc)
      simp [World.emit, Function.update_of_ne h1, h.gone v h2]
    · simp only [World.emit, told_append]
      simp [told, Stack.act]
      exact h.told
    · exact h.once
    · intro v
      show v ∈ s.told.filterMap del? ↔ v < s.made + 1 ∧ v ∉ s.made :: s.ids
      rw [h.dels v]
      constructor
      · rintro ⟨a, b⟩
        refine ⟨by omega, ?_⟩
        rw [List.mem_cons]
        rintro (rfl | hc)
        · omega
        · exact b hc
      · rintro ⟨a, b⟩
        rw [List.mem_cons, not_or] at b
        exact ⟨by omega, b.2⟩
  · intro v hv
    have : v = s.made := by
      have : (s.act .push).ids.head? = some s.made := rfl
      rw [this] at hv
      exact (Option.mem_some_iff.mp hv).symm
    subst this
    simp only [World.emit, seen_append]
    simp

private theorem remove_rel {w : World} {s : Stack} {v : Nat} (h : Rel w s) (hv : v ∈ s.ids) :
    ∃ w', remove w v = some w' ∧ Rel w' (s.mark v) ∧ w'.log = w.log := by
  obtain ⟨b, hb⟩ := mem_ids hv
  refine ⟨{ w with alive := Function.update w.alive v (some false) }, ?_, ?_, rfl⟩
  · simp [remove, h.alive v b hb]
  · constructor
    · rw [ids_mark]; exact h.stack
    · exact h.next
    · rw [ids_mark]; exact h.nodup
    · rw [ids_mark]; exact h.lt
    · intro u c hu
      obtain ⟨p, hp, e⟩ := List.mem_map.mp hu
      by_cases hc : p.1 = v
      · simp only [hc, if_true, Prod.mk.injEq] at e
        obtain ⟨rfl, rfl⟩ := e
        simp
      · simp only [hc, if_false] at e
        subst e
        simp only [Function.update_of_ne hc]
        exact h.alive _ _ hp
    · intro u hu
      rw [ids_mark] at hu
      have : u ≠ v := fun e => hu (e ▸ hv)
      simp only [Function.update_of_ne this]
      exact h.gone u hu
    · exact h.told
    · exact h.once
    · intro u; rw [ids_mark]; exact h.dels u

private theorem pop_rel {w : World} {s : Stack} (h : Rel w s) (hv : s.views ≠ []) :
    ∃ w', pop w = some w' ∧ Rel w' s.drop := by
  obtain ⟨views, made, tl⟩ := s
  cases views with
  | nil => exact absurd rfl hv
  | cons p l =>
    obtain ⟨t, b⟩ := p
    have hs : w.stack = t :: l.map Prod.fst := h.stack
    have hn : (t :: l.map Prod.fst).Nodup := h.nodup
    have ha : w.alive t = some (!b) := h.alive t b List.mem_cons_self
    have hlt : t < made := h.lt t List.mem_cons_self
    have hn' := List.nodup_cons.mp hn
    have htl : told w.log = tl := h.told
    have hdel : ∀ v, v ∈ tl.filterMap del? ↔ v < made ∧ v ∉ t :: l.map Prod.fst := h.dels
    have hone : (tl.filterMap del?).Nodup := h.once
    refine ⟨{ w with stack := l.map Prod.fst, alive := Function.update w.alive t none, log := w.log ++ [.delete t] }, ?_, ?_⟩
    · simp [pop, Modm.ViewStack.get, call, World.emit, hs, ha]
    · constructor
      · rfl
      · exact h.next
      · exact hn'.2
      · intro v hv; exact h.lt v (List.mem_cons_of_mem _ hv)
      · intro v c hvc
        have hvc' : (v, c) ∈ l := hvc
        have : v ≠ t := fun e => hn'.1 (e ▸ List.mem_map.mpr ⟨_, hvc', rfl⟩)
        simp only [Function.update_of_ne this]
        exact h.alive v c (List.mem_cons_of_mem _ hvc')
      · intro v hv'
        by_cases e : v = t
        · subst e; simp
        · simp only [Function.update_of_ne e]
          apply h.gone
          show v ∉ t :: l.map Prod.fst
          rw [List.mem_cons, not_or]
          exact ⟨e, hv'⟩
      · show told (w.log ++ [.delete t]) = tl ++ [.delete t]
        rw [told_append, htl]; rfl
      · show ((tl ++ [Event.delete t]).filterMap del?).Nodup
        rw [List.filterMap_append]
        show (tl.filterMap del? ++ [t]).Nodup
        rw [List.nodup_append]
        refine ⟨hone, List.nodup_singleton _, ?_⟩
        intro a ha' c hc
        rw [List.mem_singleton] at hc
        subst hc
        intro e
        subst e
        exact ((hdel a).mp ha').2 List.mem_cons_self
      · intro v
        show v ∈ (tl ++ [Event.delete t]).filterMap del? ↔ v < made ∧ v ∉ l.map Prod.fst
        rw [List.filterMap_append]
        show v ∈ tl.filterMap del? ++ [t] ↔ _
        rw [List.mem_append, List.mem_singleton, hdel v, List.mem_cons, not_or]
        constructor
        · rintro (⟨a, _, c⟩ | rfl)
          · exact ⟨a, c⟩
          · exact ⟨hlt, hn'.1⟩
        · rintro ⟨a, c⟩
          by_cases e : v = t
          · exact Or.inr e
          · exact Or.inl ⟨a, e, c⟩

private theorem act_rel {w : World} {s : Stack} {a : Act} (h : Rel w s) (hg : GoodAct s a) :
    ∃ w', act w a = some w' ∧ Rel w' (s.act a) ∧ (a ≠ .pop → Shown w s → Shown w' (s.act a)) := by
  cases a with
  | push =>
    obtain ⟨w', e, r, sh⟩ := push_rel h
    exact ⟨w', e, r, fun _ _ => sh⟩
  | remove v =>
    obtain ⟨w', e, r, sh⟩ := remove_rel h hg
    refine ⟨w', e, r, fun _ hs => ?_⟩
    intro u hu
    have : u ∈ s.ids.head? := by rw [← ids_mark s v]; exact hu
    rw [sh]; exact hs u this
  | pop =>
    obtain ⟨w', e, r⟩ := pop_rel h hg
    exact ⟨w', e, r, fun hc => absurd rfl hc⟩

private theorem acts_rel (l : List Act) : ∀ {w : World} {s : Stack}, Rel w s → GoodActs s l →
    ∃ w', acts w l = some w' ∧ Rel w' (s.acts l) ∧ (Act.pop ∉ l → Shown w s → Shown w' (s.acts l)) := by
  induction l with
  | nil => intro w s h _; exact ⟨w, rfl, h, fun _ hs => hs⟩
  | cons a l ih =>
    intro w s h hg
    obtain ⟨w1, e1, r1, s1⟩ := act_rel h hg.1
    obtain ⟨w2, e2, r2, s2⟩ := ih r1 hg.2
    refine ⟨w2, by simp [acts, e1, e2], r2, fun hp hs => ?_⟩
    rw [List.mem_cons, not_or] at hp
    exact s2 hp.2 (s1 (fun e => hp.1 e.symm) hs)

private theorem only_acts (l : List Act) : ∀ {s : Stack} {ids : List Nat}, OnlyRemoves ids l → (∀ v ∈ ids, v ∈ s.ids) →
    GoodActs s l ∧ (s.acts l).ids = s.ids ∧ Act.pop ∉ l := by
  induction l with
  | nil => intro s ids _ _; exact ⟨trivial, rfl, by simp⟩
  | cons a l ih =>
    intro s ids ho hi
    obtain ⟨v, rfl, hv⟩ := ho a List.mem_cons_self
    have := ih (s := s.mark v) (ids := ids) (fun a ha => ho a (List.mem_cons_of_mem _ ha)) (by rw [ids_mark]; exact hi)
    refine ⟨⟨hi v hv, this.1⟩, ?_, ?_⟩
    · show ((s.mark v).acts l).ids = _
      rw [this.2.1, ids_mark]
    · rw [List.mem_cons, not_or]; exact ⟨by simp, this.2.2⟩

private theorem tell_rel {w : World} {s : Stack} (f : Nat → Event) (hf : ∀ v, told [f v] = [f v] ∧ del? (f v) = none ∧ seen [f v] = ([], []))
    (h : Rel w s) {v : Nat} (hv : s.ids.head? = some v) :
    Modm.ViewStack.get w = some v ∧ call w v (f v) = some (w.emit (f v)) ∧ Rel (w.emit (f v)) (s.tell f) ∧ (Shown w s → Shown (w.emit (f v)) (s.tell f)) := by
  have hm : v ∈ s.ids := List.mem_of_mem_head? hv
  obtain ⟨b, hb⟩ := mem_ids hm
  have ht : (s.tell f).told = s.told ++ [f v] := by
    unfold Stack.tell
    obtain ⟨views, made, tl⟩ := s
    cases views with
    | nil => cases hm
    | cons p l => simp [Stack.ids] at hv; simp [hv]
  refine ⟨?_, ?_, ?_, ?_⟩
  · unfold Modm.ViewStack.get; rw [h.stack]; exact hv
  · simp [call, h.alive v b hb]
  · constructor
    · rw [ids_tell]; exact h.stack
    · rw [made_tell]; exact h.next
    · rw [ids_tell]; exact h.nodup
    · rw [ids_tell, made_tell]; exact h.lt
    · rw [views_tell]; exact h.alive
    · rw [ids_tell]; exact h.gone
    · rw [ht]; simp only [World.emit, told_append, h.told, (hf v).1]
    · rw [ht, List.filterMap_append]
      simp [(hf v).2.1, h.once]
    · rw [ht, List.filterMap_append, ids_tell, made_tell]
      simpa [(hf v).2.1] using h.dels
  · intro hs u hu
    rw [ids_tell] at hu
    have : seen (w.emit (f v)).log = seen w.log := by
      have h3 := (hf v).2.2
      have h1 := (hf v).1
      unfold World.emit
      rw [seen_append]
      revert h1 h3
      cases f v <;> simp [told, seen]
    rw [this]; exact hs u hu

private theorem fU : ∀ v, told [Event.update v] = [Event.update v] ∧ del? (Event.update v) = none ∧ seen [Event.update v] = ([], []) := fun _ => ⟨rfl, rfl, rfl⟩
private theorem fB : ∀ v, told [Event.button v] = [Event.button v] ∧ del? (Event.button v) = none ∧ seen [Event.button v] = ([], []) := fun _ => ⟨rfl, rfl, rfl⟩
private theorem fR : ∀ v, told [Event.onRemove v] = [Event.onRemove v] ∧ del? (Event.onRemove v) = none ∧ seen [Event.onRemove v] = ([], []) := fun _ => ⟨rfl, rfl, rfl⟩

/-- drawing does not change what the views are told -/
private theorem rel_log {w w' : World} {s : Stack} (h : Rel w s) (h1 : w'.stack = w.stack) (h2 : w'.alive = w.alive) (h3 : w'.next = w.next)
    (h4 : told w'.log = told w.log) : Rel w' s :=
  ⟨h1 ▸ h.stack, h3 ▸ h.next, h.nodup, h.lt, h2 ▸ h.alive, h2 ▸ h.gone, h4 ▸ h.told, h.once, h.dels⟩

private theorem ids_drop (s : Stack) : s.drop.ids = s.ids.tail := by
  unfold Stack.drop Stack.ids; simp [List.map_tail]

private theorem head_of_ne {s : Stack} (h : s.views ≠ []) : ∃ v, s.ids.head? = some v := by
  obtain ⟨views, made, tl⟩ := s
  cases views with
  | nil => exact absurd rfl h
  | cons p l => exact ⟨p.1, rfl⟩

private theorem good_tell {f : Nat → Event} (l : List Act) : ∀ {s t : Stack}, s.views = t.views → s.made = t.made → GoodActs s l → GoodActs t l := by
  induction l with
  | nil => intros; trivial
  | cons a l ih =>
    intro s t h1 h2 hg
    refine ⟨?_, ?_⟩
    · have := hg.1
      cases a <;> simp_all [GoodAct, Stack.ids]
    · apply ih _ _ hg.2
      · cases a <;> simp [Stack.act, Stack.mark, Stack.drop, h1, h2]
      · cases a <;> simp [Stack.act, Stack.mark, Stack.drop, made_tell, h1, h2]

private theorem step_rel {w : World} {s : Stack} {o : Op} (h : Rel w s) (hg : Good s o) :
    ∃ w', step w o = some w' ∧ Rel w' (s.op o) ∧ (NoPop o → Shown w s → Shown w' (s.op o)) := by
  cases o with
  | act a => exact act_rel h hg
  | button l =>
    obtain ⟨v, hv⟩ := head_of_ne hg.1
    obtain ⟨e1, e2, r, sh⟩ := tell_rel .button fB h hv
    obtain ⟨w', e3, r3, sh3⟩ := acts_rel l r (good_tell (f := .button) l (views_tell s _).symm (made_tell s _).symm hg.2)
    refine ⟨w', ?_, r3, fun hp hs => sh3 hp (sh hs)⟩
    simp [step, shortButtonPress, e1, e2, e3]
  | update now c removing after =>
    obtain ⟨hne, hnow, hrem, haft, hfin⟩ := hg
    obtain ⟨v, hv⟩ := head_of_ne hne
    obtain ⟨e1, e2, r1, sh1⟩ := tell_rel .update fU h hv
    have g1 := only_acts now hnow (s := s.tell .update) (by rw [ids_tell]; exact fun _ h => h)
    obtain ⟨w2, e3, r2, sh2⟩ := acts_rel now r1 g1.1
    have hids : ((s.tell .update).acts now).ids = s.ids := by rw [g1.2.1, ids_tell]
    simp only [Stack.op] at hfin ⊢
    generalize hs1 : (s.tell .update).acts now = s1 at r2 sh2 hids hfin ⊢
    have hv1 : s1.ids.head? = some v := by rw [hids]; exact hv
    obtain ⟨views, made, tl⟩ := s1
    cases views with
    | nil => cases hv1
    | cons p rest =>
      obtain ⟨t, b⟩ := p
      have : t = v := by simpa [Stack.ids] using hv1
      subst this
      have hal : w2.alive t = some (!b) := r2.alive t b List.mem_cons_self
      cases b with
      | false =>
        simp only
        cases c with
        | false =>
          refine ⟨w2, by simp [step, update, e1, e2, e3, hal], r2, fun _ hs => sh2 g1.2.2 (sh1 hs)⟩
        | true =>
          have cd : call w2 t (.draw t) = some (w2.emit (.draw t)) := by unfold call; rw [hal]; rfl
          refine ⟨(w2.emit (.draw t)).emit .show, by simp [step, update, e1, e2, e3, hal, cd], ?_, ?_⟩
          · exact rel_log r2 rfl rfl rfl (by simp only [World.emit, told_append]; simp [told])
          · intro _ hs u hu
            have hu' : u = t := (Option.mem_some_iff.mp hu).symm
            subst hu'
            have := sh2 g1.2.2 (sh1 hs) u (by exact hv1)
            simp only [World.emit, seen_append]
            simp
            exact this.2.2
      | true =>
        simp only at hfin ⊢
        obtain ⟨_, e4, r4, _⟩ := tell_rel .onRemove fR r2 hv1
        have g4 := only_acts removing hrem (s := Stack.tell ⟨(t, true) :: rest, made, tl⟩ .onRemove) (by rw [ids_tell, hids]; exact fun _ h => h)
        obtain ⟨w5, e5, r5, _⟩ := acts_rel removing r4 g4.1
        have hids5 : ((Stack.tell ⟨(t, true) :: rest, made, tl⟩ .onRemove).acts removing).ids = s.ids := by rw [g4.2.1, ids_tell, hids]
        generalize ((Stack.tell ⟨(t, true) :: rest, made, tl⟩ .onRemove).acts removing) = s5 at r5 hids5 hfin ⊢
        have hne5 : s5.views ≠ [] := by
          intro hc
          have : s5.ids = [] := by unfold Stack.ids; rw [hc]; rfl
          rw [hids5] at this; rw [this] at hv; cases hv
        obtain ⟨w6, e6, r6⟩ := pop_rel r5 hne5
        have hids6 : s5.drop.ids = s.ids.tail := by rw [ids_drop, hids5]
        have g7 := only_acts after haft (s := s5.drop.tell .update) (by rw [ids_tell, hids6]; exact fun _ h => h)
        have hne6 : s5.drop.views ≠ [] := by
          intro hc
          apply hfin
          have h0 : s5.drop.ids = [] := by unfold Stack.ids; rw [hc]; rfl
          have : ((s5.drop.tell .update).acts after).ids = [] := by rw [g7.2.1, ids_tell, h0]
          unfold Stack.ids at this
          exact List.map_eq_nil_iff.mp this
        obtain ⟨u, hu⟩ := head_of_ne hne6
        obtain ⟨e7, e8, r8, _⟩ := tell_rel .update fU r6 hu
        obtain ⟨w9, e9, r9, _⟩ := acts_rel after r8 g7.1
        have hu9 : ((s5.drop.tell .update).acts after).ids.head? = some u := by rw [g7.2.1, ids_tell]; exact hu
        obtain ⟨b9, hb9⟩ := mem_ids (List.mem_of_mem_head? hu9)
        have ha9 := r9.alive u b9 hb9
        refine ⟨((w9.emit .clear).emit (.draw u)).emit .show, ?_, ?_, ?_⟩
        · have ha9' : (w9.emit .clear).alive u = some (!b9) := ha9
          have c10 : call (w9.emit .clear) u (.draw u) = some ((w9.emit .clear).emit (.draw u)) := by unfold call; rw [ha9']; rfl
          simp [step, update, e1, e2, e3, hal, e4, e5, e6, e7, e8, e9, c10]
        · exact rel_log r9 rfl rfl rfl (by simp only [World.emit, told_append]; simp [told])
        · intro _ _ x hx
          have : x = u := by rw [hu9] at hx; exact (Option.mem_some_iff.mp hx).symm
          subst this
          simp only [World.emit, seen_append]
          simp

private theorem run_rel (l : List Op) : ∀ {w : World} {s : Stack}, Rel w s → GoodAll s l →
    ∃ w', run w l = some w' ∧ Rel w' (s.ops l) ∧ ((∀ o ∈ l, NoPop o) → Shown w s → Shown w' (s.ops l)) := by
  induction l with
  | nil => intro w s h _; exact ⟨w, rfl, h, fun _ hs => hs⟩
  | cons o l ih =>
    intro w s h hg
    obtain ⟨w1, e1, r1, s1⟩ := step_rel h hg.1
    obtain ⟨w2, e2, r2, s2⟩ := ih r1 hg.2
    refine ⟨w2, by simp [run, e1, e2], r2, fun hp hs => ?_⟩
    exact s2 (fun o ho => hp o (List.mem_cons_of_mem _ ho)) (s1 (hp o List.mem_cons_self) hs)

/-- C188: when no view pushes or pops in its `update` or `onRemove`, and there is always a view left to update, views are told and deleted as they should be:
the views on the stack are those that exist, and each view that is not is deleted once. -/
theorem C188_views_partial (l : List Op) (hg : GoodAll {} l) :
    ∃ w, run {} l = some w ∧ w.stack = (Stack.ops {} l).ids ∧ told w.log = (Stack.ops {} l).told ∧
      (∀ v, (w.alive v).isSome ↔ v ∈ (Stack.ops {} l).ids) ∧
      ∀ v, (w.log.count (.delete v)) = if v < (Stack.ops {} l).made ∧ v ∉ (Stack.ops {} l).ids then 1 else 0 := by
  obtain ⟨w, e, r, _⟩ := run_rel l rel0 hg
  refine ⟨w, e, r.stack, r.told, ?_, ?_⟩
  · intro v
    constructor
    · intro h
      by_contra hc
      rw [r.gone v hc] at h
      cases h
    · intro h
      obtain ⟨b, hb⟩ := mem_ids h
      rw [r.alive v b hb]; rfl
  · intro v
    have h1 : w.log.count (.delete v) = (told w.log).count (.delete v) := by
      unfold told
      rw [List.count_filter]
      rfl
    have h2 : ∀ t : List Event, t.count (.delete v) = (t.filterMap del?).count v := by
      intro t
      induction t with
      | nil => rfl
      | cons a t ih =>
        cases a <;> simp [List.count_cons, List.filterMap_cons, del?, ih]
    rw [h1, r.told, h2]
    by_cases hc : v < (Stack.ops {} l).made ∧ v ∉ (Stack.ops {} l).ids
    · rw [if_pos hc]
      exact List.count_eq_one_of_mem r.once ((r.dels v).mpr hc)
    · rw [if_neg hc]
      exact List.count_eq_zero_of_not_mem (fun hm => hc ((r.dels v).mp hm))

/-- C189: in such programs that do not use `pop` the display shows the view on top, and nothing else. -/
theorem C189_display_partial (l : List Op) (hg : GoodAll {} l) (hp : ∀ o ∈ l, NoPop o) (v : Nat) (hv : (Stack.ops {} l).ids.head? = some v) :
    ∃ w, run {} l = some w ∧ Modm.ViewStack.get w = some v ∧ Shows w.log v := by
  obtain ⟨w, e, r, sh⟩ := run_rel l rel0 hg
  have := sh hp (by intro v hv; cases hv) v hv
  refine ⟨w, e, ?_, this.1, this.2.1⟩
  unfold Modm.ViewStack.get; rw [r.stack]; exact hv

/-- A menu opens a submenu by a button, which removes itself in its `update`; the menu is shown again. -/
private def submenu : List Op := [.act .push, .button [.push], .update [] true [] [], .button [.remove 1], .update [] false [] [], .update [] true [] []]

private theorem submenu_good : GoodAll {} submenu := by
  simp [submenu, GoodAll, Good, GoodAct, GoodActs, OnlyRemoves, Stack.op, Stack.act, Stack.acts, Stack.tell, Stack.mark, Stack.drop, Stack.ids]

example : ∃ w, run {} submenu = some w ∧ w.stack = [0] ∧
    told w.log = [.button 0, .update 1, .button 1, .update 1, .onRemove 1, .delete 1, .update 0, .update 0] := by
  obtain ⟨w, h1, h2, h3, _⟩ := C188_views_partial submenu submenu_good
  exact ⟨w, h1, h2, h3⟩

example : ∃ w, run {} submenu = some w ∧ Modm.ViewStack.get w = some 0 ∧ Shows w.log 0 :=
  C189_display_partial submenu submenu_good (by simp [submenu, NoPop]) 0 rfl

/-- C188 is false for a view that replaces itself by another in its `update`, with `push` and `remove`: the new view is deleted, and the view that was removed
stays and is updated again. -/
theorem C188_replace_counterexample : ∃ w, run {} [.act .push, .update [.push, .remove 0] false [] []] = some w ∧
    w.stack = [0] ∧ w.alive 0 = some false ∧ w.alive 1 = none ∧ told w.log = [.update 0, .onRemove 0, .delete 1, .update 0] :=
  ⟨_, rfl, rfl, rfl, rfl, rfl⟩

/-- C188 is false for the last view: when it is removed, a null pointer is followed; so it is by an update of an empty stack, which looks for a null pointer in a node that is not there. -/
theorem C188_last_counterexample : run {} [.act .push, .update [.remove 0] false [] []] = none ∧ run {} [.update [] false [] []] = none ∧
    run {} [.button []] = none := ⟨rfl, rfl, rfl⟩

/-- C188 is false when a stack is destroyed: its views are not deleted. -/
theorem C188_destroy_counterexample : ∃ w, run {} [.act .push] = some w ∧ (destroy w).alive 0 = some true ∧ (destroy w).stack = [] := ⟨_, rfl, rfl, rfl⟩

/-- C188 is false for buttons of a `GuiViewStack`: whatever views are on it, the front of an empty list is used. -/
theorem C188_gui_counterexample (own : World) (l : List Act) : Gui.step { own := own } (.button l) = none := rfl

/-- C189 is false for a view that pushes another in its `update`: it is drawn over the new one if it has changed. -/
theorem C189_push_counterexample : ∃ w, run {} [.act .push, .update [.push] true [] []] = some w ∧ Modm.ViewStack.get w = some 1 ∧ (seen w.log).2 = [0, 1] :=
  ⟨_, rfl, rfl, rfl⟩

/-- C189 is false after `pop`: the display shows the view that was deleted until the next one has changed. -/
theorem C189_pop_counterexample : ∃ w, run {} [.act .push, .act .push, .act .pop, .update [] false [] []] = some w ∧ Modm.ViewStack.get w = some 0 ∧ Shows w.log 1 ∧ w.alive 1 = none :=
  ⟨_, rfl, rfl, by unfold Shows; decide, rfl⟩

end Props.ViewStack
