import Verif.Props.LinkedList
/-
C07: `modm::DoublyLinkedList` refines a sequence, in both directions.
-/
set_option autoImplicit false
namespace Props.DoublyLinkedList
open Modm.LinkedList (Heap poke free)
open Modm.DoublyLinkedList Spec.Seq
open Props.LinkedList (headOr Wf wf_split wf_insert wf_tail headOr_append headOr_zero mem_ids filter_other)
variable {T : Type}

/-- last identity, or `p` -/
def lastOr (l : List (Nat × T)) (p : Nat) : Nat := (ids l).getLastD p

/-- heap `h` plus the nodes of `l`, chained both ways, between `p` and `q` -/
def seg (h : Heap (Node T)) : Nat → List (Nat × T) → Nat → Heap (Node T)
  | _, [], _ => h
  | p, (a, v) :: l, q => Function.update (seg h a l q) a (some ⟨v, p, headOr l q⟩)

/-- the state that represents `l`: its nodes and no others -/
def repr (l : List (Nat × T)) : State T := ⟨seg (fun _ => none) 0 l 0, headOr l 0, lastOr l 0⟩

theorem lastOr_append (l : List (Nat × T)) (x : Nat × T) (p : Nat) : lastOr (l ++ [x]) p = x.1 := by simp [lastOr, ids]

theorem lastOr_cons (l : List (Nat × T)) (x : Nat × T) (p : Nat) : lastOr (x :: l) p = lastOr l x.1 := by
  rcases List.eq_nil_or_concat l with rfl | ⟨l, y, rfl⟩
  · rfl
  · rw [List.concat_eq_append, ← List.cons_append, lastOr_append, lastOr_append]

theorem lastOr_append' (l₁ l₂ : List (Nat × T)) (p : Nat) : lastOr (l₁ ++ l₂) p = lastOr l₂ (lastOr l₁ p) := by
  induction l₁ generalizing p with
  | nil => rfl
  | cons x l ih => rw [List.cons_append, lastOr_cons, lastOr_cons, ih]

theorem lastOr_zero (l : List (Nat × T)) (h : Wf l) : lastOr l 0 = 0 ↔ l = [] := Props.LinkedList.lastOr_zero l h

theorem lastOr_pred (l : List (Nat × T)) (p : Nat) (h : l ≠ []) : lastOr l p ∈ ids l := by
  rcases List.eq_nil_or_concat l with rfl | ⟨l, x, rfl⟩
  · exact absurd rfl h
  · rw [List.concat_eq_append, lastOr_append]; simp [ids]

theorem seg_append (h : Heap (Node T)) (l₁ l₂ : List (Nat × T)) (p q : Nat) :
    seg h p (l₁ ++ l₂) q = seg (seg h (lastOr l₁ p) l₂ q) p l₁ (headOr l₂ q) := by
  induction l₁ generalizing p with
  | nil => rfl
  | cons x l₁ ih => simp only [List.cons_append, seg, ih, headOr_append, lastOr_cons]

theorem seg_other (h : Heap (Node T)) (l : List (Nat × T)) (p q a : Nat) (ha : a ∉ ids l) : seg h p l q a = h a := by
  induction l generalizing p with
  | nil => rfl
  | cons x l ih =>
    simp only [ids, List.map_cons, List.mem_cons, not_or] at ha
    simp only [seg]
    rw [Function.update_of_ne ha.1]
    exact ih _ ha.2

theorem seg_update (h : Heap (Node T)) (l : List (Nat × T)) (p q a : Nat) (n : Option (Node T)) (ha : a ∉ ids l) :
    Function.update (seg h p l q) a n = seg (Function.update h a n) p l q := by
  induction l generalizing p with
  | nil => rfl
  | cons x l ih =>
    simp only [ids, List.map_cons, List.mem_cons, not_or] at ha
    simp only [seg]
    rw [Function.update_comm (Ne.symm ha.1), ih _ ha.2]

theorem seg_at (h : Heap (Node T)) (l₁ l₂ : List (Nat × T)) (a : Nat) (v : T) (p q : Nat) (ha : a ∉ ids l₁) :
    seg h p (l₁ ++ (a, v) :: l₂) q a = some ⟨v, lastOr l₁ p, headOr l₂ q⟩ := by
  rw [seg_append, seg_other _ _ _ _ _ ha]; simp [seg]

theorem prepend_repr (g : Nat → Nat × Nat) (a : Nat) (v : T) (l : List (Nat × T)) (hw : Wf l) (ha : Fresh l a) :
    prepend g a v (repr l) = some (repr ((a, v) :: l)) := by
  cases l with
  | nil => simp [prepend, repr, headOr, lastOr, ids, seg, create, poke]
  | cons x l =>
    obtain ⟨b, w⟩ := x
    obtain ⟨hb0, hb, -⟩ := wf_tail (b, w) l hw
    have hab : a ≠ b ∧ a ∉ ids l := by simpa [ids, not_or] using ha.2
    have hf : (repr ((b, w) :: l)).front ≠ 0 := hb0
    have hfr : (repr ((b, w) :: l)).front = b := rfl
    simp only [prepend, create, poke, Function.update_self, Option.map_some, Function.update_idem, Option.bind_some, if_neg hf]
    simp only [hfr]
    rw [Function.update_of_ne (Ne.symm hab.1)]
    have hh : (repr ((b, w) :: l)).heap b = some ⟨w, 0, headOr l 0⟩ := by simp [repr, seg]
    rw [hh]
    simp only [Option.map_some]
    congr 2
    · simp only [repr, seg]
      rw [Function.update_comm hab.1, Function.update_idem]
      rfl

theorem append_repr (g : Nat → Nat × Nat) (a : Nat) (v : T) (l : List (Nat × T)) (hw : Wf l) (ha : Fresh l a) :
    append g a v (repr l) = some (repr (l ++ [(a, v)])) := by
  rcases List.eq_nil_or_concat l with rfl | ⟨l, ⟨b, w⟩, rfl⟩
  · simp [append, repr, headOr, lastOr, ids, seg, create, poke]
  · rw [List.concat_eq_append] at hw ha ⊢
    obtain ⟨hb0, hb, -, -⟩ := wf_split l [] b w hw
    have hab : a ∉ ids l ∧ a ≠ b := by simpa [ids, not_or] using ha.2
    have hbk : (repr (l ++ [(b, w)])).back = b := lastOr_append _ _ _
    have hf : (repr (l ++ [(b, w)])).back ≠ 0 := by rw [hbk]; exact hb0
    simp only [append, create, poke, Function.update_self, Option.map_some, Function.update_idem, Option.bind_some, if_neg hf]
    simp only [hbk]
    rw [Function.update_of_ne (Ne.symm hab.2)]
    have hh : (repr (l ++ [(b, w)])).heap b = some ⟨w, lastOr l 0, 0⟩ := seg_at _ l [] b w 0 0 hb
    rw [hh]
    simp only [Option.map_some]
    congr 2
    · simp only [repr]
      rw [show (l ++ [(b, w)]) ++ [(a, v)] = l ++ [(b, w), (a, v)] by simp]
      rw [seg_append, seg_append, seg_update _ _ _ _ _ _ hab.1, seg_update _ _ _ _ _ _ hb]
      simp only [seg, headOr, ids, List.map_cons, List.map_nil, List.headD_cons, List.headD_nil]
      rw [Function.update_comm hab.2, Function.update_idem]
      rw [Function.update_comm hab.2.symm]
    · simp only [repr]
      rw [headOr_append _ [(a, v)]]
      cases l <;> simp [headOr, ids]
    · simp [lastOr, ids]

theorem removeFront_repr (x : Nat × T) (l : List (Nat × T)) (hw : Wf (x :: l)) : removeFront (repr (x :: l)) = some (repr l) := by
  obtain ⟨h0, hx, hl⟩ := wf_tail x l hw
  obtain ⟨a, v⟩ := x
  have hn : (repr ((a, v) :: l)).heap a = some ⟨v, 0, headOr l 0⟩ := by simp [repr, seg]
  have hfr : (repr ((a, v) :: l)).front = a := rfl
  cases l with
  | nil => simp [removeFront, headOr, ids, free, repr, seg, lastOr]
  | cons y l =>
    obtain ⟨b, w⟩ := y
    obtain ⟨hb0, hb, -⟩ := wf_tail (b, w) l hl
    have hb0' : b ≠ 0 := hb0
    have hab : a ≠ b ∧ a ∉ ids l := by simpa [ids, not_or] using hx
    have hh : headOr ((b, w) :: l) 0 = b := rfl
    have hb' : (repr ((a, v) :: (b, w) :: l)).heap b = some ⟨w, a, headOr l 0⟩ := by
      simp only [repr, seg]; rw [Function.update_of_ne hab.1.symm, Function.update_self]
    simp only [removeFront, hfr, hn, Option.bind_some, hh, if_neg hb0', poke, hb', Option.map_some, free]
    rw [Function.update_of_ne hab.1, hn]
    simp only [Option.map_some]
    congr 2
    · simp only [repr, seg]
      rw [Function.update_comm hab.1, Function.update_idem, Function.update_idem, Function.update_eq_self_iff.2]
      rw [Function.update_of_ne hab.1, seg_other _ _ _ _ _ hab.2]

theorem removeBack_repr (x : Nat × T) (l : List (Nat × T)) (hw : Wf (l ++ [x])) : removeBack (repr (l ++ [x])) = some (repr l) := by
  obtain ⟨a, v⟩ := x
  obtain ⟨h0, hx, -, hl⟩ := wf_split l [] a v hw
  rw [List.append_nil] at hl
  have hn : (repr (l ++ [(a, v)])).heap a = some ⟨v, lastOr l 0, 0⟩ := seg_at _ l [] a v 0 0 hx
  have hbk : (repr (l ++ [(a, v)])).back = a := lastOr_append _ _ _
  rcases List.eq_nil_or_concat l with rfl | ⟨l, ⟨b, w⟩, rfl⟩
  · simp [removeBack, headOr, ids, free, repr, seg, lastOr]
  · rw [List.concat_eq_append] at *
    obtain ⟨hb0, hb, -, -⟩ := wf_split l [] b w hl
    have hab : a ∉ ids l ∧ a ≠ b := by simpa [ids, not_or] using hx
    have hla : lastOr (l ++ [(b, w)]) 0 = b := lastOr_append _ _ _
    rw [hla] at hn
    have hb' : (repr ((l ++ [(b, w)]) ++ [(a, v)])).heap b = some ⟨w, lastOr l 0, a⟩ := by
      rw [show (l ++ [(b, w)]) ++ [(a, v)] = l ++ (b, w) :: [(a, v)] by simp]
      exact seg_at _ l _ b w 0 0 hb
    simp only [removeBack, hbk, hn, Option.bind_some, if_neg hb0, poke, hb', Option.map_some, free]
    rw [Function.update_of_ne hab.2, hn]
    simp only [Option.map_some]
    congr 2
    · simp only [repr]
      rw [show (l ++ [(b, w)]) ++ [(a, v)] = l ++ [(b, w), (a, v)] by simp]
      rw [seg_append, seg_append, seg_update _ _ _ _ _ _ hb, seg_update _ _ _ _ _ _ hab.1]
      simp only [seg, headOr, ids, List.map_cons, List.map_nil, List.headD_cons, List.headD_nil]
      rw [Function.update_idem, Function.update_comm hab.2, Function.update_idem, Function.update_eq_self_iff.2]
      rw [Function.update_of_ne hab.2]
    · simp only [repr]
      rw [headOr_append _ [(a, v)]]
      cases l <;> simp [headOr, ids]
    · simp [lastOr, ids]

theorem erase_inner (l₁ l₂ : List (Nat × T)) (a b c : Nat) (v w u : T) (hw : Wf (l₁ ++ (b, w) :: (a, v) :: (c, u) :: l₂)) :
    erase a (repr (l₁ ++ (b, w) :: (a, v) :: (c, u) :: l₂)) = some (repr (l₁ ++ (b, w) :: (c, u) :: l₂), c) := by
  obtain ⟨hb0, hb1, hb2, -⟩ := wf_split l₁ _ b w hw
  obtain ⟨ha0, ha1, ha2, -⟩ := wf_split (l₁ ++ [(b, w)]) ((c, u) :: l₂) a v (by simpa using hw)
  obtain ⟨hc0, hc1, hc2, -⟩ := wf_split (l₁ ++ [(b, w), (a, v)]) l₂ c u (by simpa using hw)
  have hba : b ≠ a := fun e => hb2 (by simp [ids, e])
  have hbc : b ≠ c := fun e => hb2 (by simp [ids, e])
  have hac : a ≠ c := fun e => ha2 (by simp [ids, e])
  have ha1' : a ∉ ids l₁ := fun e => ha1 (by simp only [ids, List.map_append, List.mem_append]; exact Or.inl e)
  have hc1' : c ∉ ids l₁ := fun e => hc1 (by simp only [ids, List.map_append, List.mem_append]; exact Or.inl e)
  have ha2' : a ∉ ids l₂ := fun e => ha2 (by simp only [ids, List.map_cons, List.mem_cons]; exact Or.inr e)
  have hb' : (repr (l₁ ++ (b, w) :: (a, v) :: (c, u) :: l₂)).heap b = some ⟨w, lastOr l₁ 0, a⟩ := seg_at _ l₁ _ b w 0 0 hb1
  have ha' : (repr (l₁ ++ (b, w) :: (a, v) :: (c, u) :: l₂)).heap a = some ⟨v, b, c⟩ := by
    have := seg_at (fun _ => none) (l₁ ++ [(b, w)]) ((c, u) :: l₂) a v 0 0 ha1
    rw [lastOr_append] at this
    simpa [repr, headOr, ids] using this
  have hc' : (repr (l₁ ++ (b, w) :: (a, v) :: (c, u) :: l₂)).heap c = some ⟨u, a, headOr l₂ 0⟩ := by
    have := seg_at (fun _ => none) (l₁ ++ [(b, w), (a, v)]) l₂ c u 0 0 hc1
    rw [show lastOr (l₁ ++ [(b, w), (a, v)]) 0 = a by simp [lastOr, ids]] at this
    simpa [repr, headOr, ids] using this
  simp only [erase, ha', Option.bind_some, if_neg hb0, if_neg hc0, poke, hb', Option.map_some]
  rw [Function.update_of_ne hbc.symm, hc']
  simp only [Option.map_some, Option.bind_some, free]
  rw [Function.update_of_ne hac, Function.update_of_ne hba.symm, ha']
  simp only [Option.map_some]
  congr 3
  · simp only [repr]
    rw [seg_append, seg_append, seg_update _ _ _ _ _ _ hb1, seg_update _ _ _ _ _ _ hc1', seg_update _ _ _ _ _ _ ha1']
    simp only [seg]
    refine congrArg (fun h => seg h 0 l₁ b) ?_
    funext y
    simp only [Function.update_apply]
    by_cases hya : y = a
    · subst hya
      simp [hba.symm, hac, seg_other _ _ _ _ _ ha2']
    · by_cases hyb : y = b
      · subst hyb; simp [hba, hbc, headOr, ids]
      · by_cases hyc : y = c
        · subst hyc; simp [hya, hyb]
        · simp [hya, hyb, hyc]
  · simp only [repr]; rw [headOr_append, headOr_append]; rfl
  · simp only [repr]; rw [lastOr_append', lastOr_append']; simp only [lastOr_cons]

theorem erase_repr (a : Nat) (l : List (Nat × T)) (hw : Wf l) (ha : a ∈ ids l) :
    erase a (repr l) = some (repr (apply l (.remove a)), successor a l) := by
  have hsucc : ∀ (l₁ l₂ : List (Nat × T)) (v : T), a ∉ ids l₁ → successor a (l₁ ++ (a, v) :: l₂) = headOr l₂ 0 := by
    intro l₁ l₂ v h
    induction l₁ with
    | nil => simp [successor, headOr]
    | cons y l ih =>
      simp only [ids, List.map_cons, List.mem_cons, not_or] at h
      simp only [List.cons_append, successor, if_neg (Ne.symm h.1)]
      exact ih h.2
  have hfilt : ∀ (l₁ l₂ : List (Nat × T)) (v : T), a ∉ ids l₁ → a ∉ ids l₂ → apply (l₁ ++ (a, v) :: l₂) (.remove a) = l₁ ++ l₂ := by
    intro l₁ l₂ v h1 h2
    rw [show l₁ ++ (a, v) :: l₂ = l₁ ++ ([(a, v)] ++ l₂) by simp]
    simp only [Spec.Seq.apply, List.filter_append]
    rw [filter_other l₁ a h1, filter_other l₂ a h2]
    simp
  obtain ⟨l₁, v, l₂, rfl⟩ := mem_ids l a ha
  obtain ⟨h0, h1, h2, h3⟩ := wf_split l₁ l₂ a v hw
  rw [hsucc _ _ _ h1, hfilt _ _ _ h1 h2]
  have hn : (repr (l₁ ++ (a, v) :: l₂)).heap a = some ⟨v, lastOr l₁ 0, headOr l₂ 0⟩ := seg_at _ l₁ l₂ a v 0 0 h1
  rcases List.eq_nil_or_concat l₁ with rfl | ⟨l₁, ⟨b, w⟩, rfl⟩
  · simp only [List.nil_append] at *
    have hz : lastOr ([] : List (Nat × T)) 0 = 0 := rfl
    simp only [erase, hn, Option.bind_some, hz, if_true, removeFront_repr _ _ hw, Option.map_some]
    rfl
  · rw [List.concat_eq_append] at *
    have hb0 : b ≠ 0 := (wf_split l₁ l₂ b w (by simpa using h3)).1
    cases l₂ with
    | nil =>
      have hz : headOr ([] : List (Nat × T)) 0 = 0 := rfl
      have hl : lastOr (l₁ ++ [(b, w)]) 0 = b := lastOr_append _ _ _
      rw [hl, hz] at hn
      simp only [erase, hn, Option.bind_some, if_neg hb0, if_true, removeBack_repr _ _ hw, Option.map_some, List.append_nil, hz]
    | cons y l₂ =>
      obtain ⟨c, u⟩ := y
      have := erase_inner l₁ l₂ a b c v w u (by simpa using hw)
      rw [show l₁ ++ [(b, w)] ++ (a, v) :: (c, u) :: l₂ = l₁ ++ (b, w) :: (a, v) :: (c, u) :: l₂ by simp, this]
      simp [headOr, ids]

/-! ### the claims -/

/-- the sequence operation a call performs -/
def opOf : Call T → Op T
  | .prepend _ a v => .prepend a v
  | .append _ a v => .append a v
  | .removeFront => .removeFront
  | .removeBack => .removeBack
  | .erase it => .remove it

theorem call_repr (l : List (Nat × T)) (c : Call T) (hw : Wf l) (hok : OkDouble l (opOf c)) :
    call (repr l) c = some (repr (apply l (opOf c))) ∧ Wf (apply l (opOf c)) := by
  cases c with
  | prepend g a v => exact ⟨prepend_repr g a v l hw hok, wf_insert [] l a v hw hok⟩
  | append g a v =>
    refine ⟨append_repr g a v l hw hok, ?_⟩
    have hok' : Fresh l a := hok
    have := wf_insert l [] a v (by simpa using hw) (by simpa using hok')
    simpa [Spec.Seq.apply, opOf] using this
  | removeFront =>
    cases l with
    | nil => exact absurd rfl hok
    | cons x l => exact ⟨removeFront_repr x l hw, (wf_tail x l hw).2.2⟩
  | removeBack =>
    rcases List.eq_nil_or_concat l with rfl | ⟨l, x, rfl⟩
    · exact absurd rfl hok
    · rw [List.concat_eq_append] at *
      simp only [Spec.Seq.apply, opOf, List.dropLast_concat]
      exact ⟨removeBack_repr x l hw, by simpa using (wf_split l [] x.1 x.2 hw).2.2.2⟩
  | erase it =>
    refine ⟨by simp only [call, erase_repr it l hw hok, Option.map_some]; rfl, ?_⟩
    obtain ⟨h1, h2⟩ := hw
    refine ⟨h1.sublist (List.Sublist.map _ List.filter_sublist), fun h => h2 ?_⟩
    exact (List.Sublist.map _ (List.filter_sublist (p := fun x : Nat × T => x.1 ≠ it))).subset h

theorem calls_repr (cs : List (Call T)) : ∀ (l l' : List (Nat × T)), Wf l →
    History OkDouble l (cs.map opOf) l' → calls (repr l) cs = some (repr l') ∧ Wf l' := by
  induction cs with
  | nil =>
    intro l l' hw h
    cases h
    exact ⟨rfl, hw⟩
  | cons c cs ih =>
    intro l l' hw h
    cases h with
    | cons _ _ _ _ hok h =>
      obtain ⟨h1, h2⟩ := call_repr l c hw hok
      simp only [calls, h1, Option.bind_some]
      exact ih _ l' h2 h

theorem iterate_seg (h : Heap (Node T)) (l : List (Nat × T)) : ∀ fuel, Wf l → l.length < fuel →
    iterate (seg h 0 l 0) fuel (headOr l 0) = some (values l) := by
  suffices H : ∀ (l₁ l₂ : List (Nat × T)) (fuel : Nat), Wf (l₁ ++ l₂) → l₂.length < fuel →
      iterate (seg h 0 (l₁ ++ l₂) 0) fuel (headOr l₂ 0) = some (values l₂) by
    intro fuel hw hf; exact H [] l fuel hw hf
  intro l₁ l₂
  induction l₂ generalizing l₁ with
  | nil =>
    intro fuel _ hf
    obtain ⟨n, rfl⟩ : ∃ n, fuel = n + 1 := ⟨fuel - 1, by simp at hf; omega⟩
    simp [iterate, headOr, ids, values]
  | cons x l₂ ih =>
    intro fuel hw hf
    obtain ⟨n, rfl⟩ : ∃ n, fuel = n + 1 := ⟨fuel - 1, by simp at hf; omega⟩
    obtain ⟨a, v⟩ := x
    obtain ⟨h0, h1, h2, h3⟩ := wf_split l₁ l₂ a v hw
    have hh : headOr ((a, v) :: l₂) 0 = a := rfl
    simp only [iterate, hh, if_neg h0, seg_at h l₁ l₂ a v 0 0 h1, Option.bind_some]
    have := ih (l₁ ++ [(a, v)]) n (by simpa using hw) (by simpa using hf)
    rw [show (l₁ ++ [(a, v)]) ++ l₂ = l₁ ++ (a, v) :: l₂ by simp] at this
    rw [this]; rfl

theorem iterateBack_seg (h : Heap (Node T)) (l : List (Nat × T)) : ∀ fuel, Wf l → l.length < fuel →
    iterateBack (seg h 0 l 0) fuel (lastOr l 0) = some (values l).reverse := by
  suffices H : ∀ (n : Nat) (l₁ l₂ : List (Nat × T)) (fuel : Nat), l₁.length = n → Wf (l₁ ++ l₂) → l₁.length < fuel →
      iterateBack (seg h 0 (l₁ ++ l₂) 0) fuel (lastOr l₁ 0) = some (values l₁).reverse by
    intro fuel hw hf
    have := H l.length l [] fuel rfl (by simpa using hw) hf
    simpa using this
  intro n
  induction n with
  | zero =>
    intro l₁ l₂ fuel hn _ hf
    obtain rfl := List.length_eq_zero_iff.1 hn
    obtain ⟨m, rfl⟩ : ∃ m, fuel = m + 1 := ⟨fuel - 1, by simp at hf; omega⟩
    simp [iterateBack, lastOr, ids, values]
  | succ n ih =>
    intro l₁ l₂ fuel hn hw hf
    obtain ⟨m, rfl⟩ : ∃ m, fuel = m + 1 := ⟨fuel - 1, by omega⟩
    rcases List.eq_nil_or_concat l₁ with rfl | ⟨l, ⟨a, v⟩, rfl⟩
    · simp at hn
    · rw [List.concat_eq_append] at *
      rw [show l ++ [(a, v)] ++ l₂ = l ++ (a, v) :: l₂ by simp] at hw ⊢
      simp only [List.length_append, List.length_cons, List.length_nil] at hn hf
      obtain ⟨h0, h1, -, -⟩ := wf_split l l₂ a v hw
      have hl : lastOr (l ++ [(a, v)]) 0 = a := lastOr_append _ _ _
      simp only [iterateBack, hl, if_neg h0, seg_at h l l₂ a v 0 0 h1, Option.bind_some]
      rw [ih l ((a, v) :: l₂) m (by omega) hw (by omega)]
      simp [values]

theorem getSize_iterate (h : Heap (Node T)) (fuel : Nat) : ∀ (node count : Nat),
    getSize h fuel node count = (iterate h fuel node).map fun vs => count + vs.length := by
  induction fuel with
  | zero => intro node count; rfl
  | succ n ih =>
    intro node count
    simp only [getSize, iterate]
    by_cases h0 : node = 0
    · simp [h0]
    · simp only [if_neg h0]
      cases h node with
      | none => rfl
      | some x =>
        simp only [Option.bind_some, ih, Option.map_map]
        congr 1
        funext vs
        simp only [Function.comp, List.length_cons]; omega

theorem destructor_repr (l : List (Nat × T)) : ∀ (fuel p back : Nat), Wf l → l.length < fuel →
    destructor fuel ⟨seg (fun _ => none) p l 0, headOr l 0, back⟩ = some ⟨fun _ => none, 0, back⟩ := by
  induction l with
  | nil =>
    intro fuel p back _ hf
    obtain ⟨n, rfl⟩ : ∃ n, fuel = n + 1 := ⟨fuel - 1, by simp at hf; omega⟩
    rfl
  | cons x l ih =>
    intro fuel p back hw hf
    obtain ⟨n, rfl⟩ : ∃ n, fuel = n + 1 := ⟨fuel - 1, by simp at hf; omega⟩
    obtain ⟨a, v⟩ := x
    obtain ⟨h0, h1, h2⟩ := wf_tail (a, v) l hw
    have hh : headOr ((a, v) :: l) 0 = a := rfl
    have h0' : a ≠ 0 := h0
    have hs : seg (fun _ => none) p ((a, v) :: l) 0 a = some ⟨v, p, headOr l 0⟩ := by simp [seg]
    have hfree : free (seg (fun _ => none) p ((a, v) :: l) 0) a = some (seg (fun _ => none) a l 0) := by
      simp only [free, hs, Option.map_some]
      simp only [seg, Function.update_idem]
      rw [Function.update_eq_self_iff.2]
      exact (seg_other (fun _ => none) l a 0 a h1).symm
    simp only [destructor, hh, if_neg h0', hs, Option.bind_some, hfree]
    exact ih n a back h2 (by simpa using hf)

theorem heap_live (l : List (Nat × T)) (a : Nat) : ((repr l).heap a).isSome ↔ a ∈ ids l := by
  simp only [repr]
  suffices H : ∀ p, (seg (fun _ => none) p l 0 a).isSome ↔ a ∈ ids l from H 0
  induction l with
  | nil => simp [seg, ids]
  | cons x l ih =>
    intro p
    simp only [seg, ids, List.map_cons, List.mem_cons]
    by_cases h : a = x.1
    · subst h; simp
    · rw [Function.update_of_ne h, ih]; simp only [h, false_or]; rfl

theorem last_value (l : List (Nat × T)) (hw : Wf l) : getBack (repr l) = (values l).getLast? := by
  rcases List.eq_nil_or_concat l with rfl | ⟨l, ⟨b, w⟩, rfl⟩
  · rfl
  · rw [List.concat_eq_append] at hw ⊢
    obtain ⟨-, hb, -, -⟩ := wf_split l [] b w hw
    simp only [getBack, repr, lastOr_append, seg_at _ _ _ _ _ _ _ hb, Option.map_some]
    simp [values]

/-- C07: after every history with fresh node addresses nothing undefined has happened; the observers and the forward iteration report
the reference sequence, walking back from the last element reports its reverse; exactly its nodes are allocated; the destructor
frees each of them once -/
theorem C07_doublyLinkedList_refines_sequence (cs : List (Call T)) (l : List (Nat × T))
    (h : History OkDouble [] (cs.map opOf) l) :
    ∃ s, calls State.init cs = some s ∧ isEmpty s = l.isEmpty ∧ getFront s = (values l).head? ∧
      getBack s = (values l).getLast? ∧ (∀ a, (s.heap a).isSome ↔ a ∈ ids l) ∧
      ∀ fuel, l.length < fuel → getSize s.heap fuel s.front 0 = some l.length ∧
        iterate s.heap fuel s.front = some (values l) ∧ iterateBack s.heap fuel s.back = some (values l).reverse ∧
        ∃ s', destructor fuel s = some s' ∧ ∀ a, s'.heap a = none := by
  obtain ⟨h1, hw⟩ := calls_repr cs [] l (by simp [Wf, ids]) h
  refine ⟨repr l, h1, ?_, ?_, last_value l hw, heap_live l, fun fuel hl => ?_⟩
  · cases l with
    | nil => rfl
    | cons x l => simpa [isEmpty, repr, headOr, ids] using (wf_tail x l hw).1
  · cases l with
    | nil => rfl
    | cons x l => simp [getFront, repr, headOr, ids, seg, values]
  · have hit := iterate_seg (fun _ => none) l fuel hw hl
    refine ⟨?_, hit, iterateBack_seg _ l fuel hw hl, ⟨_, destructor_repr l fuel 0 _ hw hl, fun _ => rfl⟩⟩
    rw [getSize_iterate]
    simp only [repr] at hit ⊢
    rw [hit]; simp [values]

/-- C07: in the state after any such history `erase` of an element of the list returns the iterator to the element behind it -/
theorem C07_erase_returns_successor (cs : List (Call T)) (l : List (Nat × T)) (h : History OkDouble [] (cs.map opOf) l)
    (it : Nat) (hit : it ∈ ids l) :
    ∃ s s', calls State.init cs = some s ∧ erase it s = some (s', successor it l) ∧
      ∀ fuel, l.length < fuel → iterate s'.heap fuel s'.front = some (values (l.filter fun x => x.1 ≠ it)) := by
  obtain ⟨h1, hw⟩ := calls_repr cs [] l (by simp [Wf, ids]) h
  have hw' := (call_repr l (.erase it) hw hit).2
  refine ⟨repr l, _, h1, erase_repr it l hw hit, fun fuel hl => ?_⟩
  exact iterate_seg (fun _ => none) _ fuel hw' (Nat.lt_of_le_of_lt (List.length_filter_le _ _) hl)

/-- a history that reuses the address of an erased node and erases an inner element -/
def demo : List (Call Nat) :=
  [.append (fun _ => (99, 98)) 5 10, .prepend (fun _ => (5, 5)) 7 20, .append (fun _ => (1, 0)) 9 30, .erase 5,
    .append (fun _ => (7, 7)) 5 40, .removeFront, .prepend (fun _ => (0, 0)) 7 50, .removeBack]

example : History OkDouble [] (demo.map opOf) [(7, 50), (9, 30)] := by
  refine .cons _ _ _ _ ⟨by decide, by decide⟩ (.cons _ _ _ _ ⟨by decide, by decide⟩ (.cons _ _ _ _ ⟨by decide, by decide⟩
    (.cons _ _ _ _ ?_ (.cons _ _ _ _ ⟨by decide, by decide⟩ (.cons _ _ _ _ ?_ (.cons _ _ _ _ ⟨by decide, by decide⟩
      (.cons _ _ _ _ ?_ (.nil _))))))))
  · show 5 ∈ ids _; decide
  · simp [OkDouble, Spec.Seq.apply, opOf]
  · simp [OkDouble, Spec.Seq.apply, opOf]

example : (calls State.init demo).bind (fun s => iterateBack s.heap 10 s.back) = some [30, 50] := by decide

end Props.DoublyLinkedList
