import Verif.Model.DynamicPostman

set_option autoImplicit false

namespace Props.DynamicPostman
open Model.DynamicPostman

/-! ### Specification -/

inductive Reg where
  | event (id : BitVec 8) (c : Callback)
  | action (component action : BitVec 8) (c : Callback)
deriving DecidableEq

def apply (p : Postman) : Reg → Postman
  | .event i c => registerEventListener p i c
  | .action k a c => registerActionHandler p k a c

/-- A postman after registrations. -/
def after (rs : List Reg) : Postman := rs.foldl apply empty

/-- The listeners of an event in the order of registration. -/
def listeners (e : BitVec 8) : List Reg → List Callback
  | [] => []
  | .event i c :: r => if i = e then c :: listeners e r else listeners e r
  | .action _ _ _ :: r => listeners e r

/-- The handler registered last for an action of a component. -/
def handler (k a : BitVec 8) : List Reg → Option Callback
  | [] => none
  | .event _ _ :: r => handler k a r
  | .action k' a' c :: r =>
    match handler k a r with
    | some c' => some c'
    | none => if k' = k ∧ a' = a then some c else none

/-- A component has an action. -/
def known (k : BitVec 8) (rs : List Reg) : Bool :=
  rs.any (fun r => match r with | .event _ _ => false | .action k' _ _ => k' == k)

/-- The payload has at least the size of the parameter of the callback. -/
def fits (payload : List (BitVec 8)) (c : Callback) : Prop := ∀ n, c.payload = some n → n ≤ payload.length

def expected (payload : List (BitVec 8)) (c : Callback) : Call := ⟨c.id, payload.take (c.payload.getD 0)⟩

/-! ### Sorted lists -/

def Sorted {α : Type} (m : List (Nat × α)) : Prop := m.Pairwise (fun a b => a.1 ≤ b.1)

def Strict {α : Type} (m : List (Nat × α)) : Prop := m.Pairwise (fun a b => a.1 < b.1)

theorem mem_insert {α : Type} (m : List (Nat × α)) (k : Nat) (v : α) (x : Nat × α) (h : x ∈ insertBehind m k v) : x = (k, v) ∨ x ∈ m := by
  induction m with
  | nil => simpa [insertBehind] using h
  | cons e r ih =>
    unfold insertBehind at h
    split at h
    · rcases List.mem_cons.1 h with h | h
      · exact Or.inr (by simp [h])
      · rcases ih h with h | h
        · exact Or.inl h
        · exact Or.inr (List.mem_cons_of_mem _ h)
    · rcases List.mem_cons.1 h with h | h
      · exact Or.inl h
      · exact Or.inr h

theorem sorted_insert {α : Type} (m : List (Nat × α)) (k : Nat) (v : α) (h : Sorted m) : Sorted (insertBehind m k v) := by
  induction m with
  | nil => simp [insertBehind, Sorted]
  | cons e r ih =>
    obtain ⟨h1, h2⟩ := List.pairwise_cons.1 h
    unfold insertBehind
    split
    next le =>
      refine List.pairwise_cons.2 ⟨?_, ih h2⟩
      intro x hx
      rcases mem_insert r k v x hx with rfl | hx
      · exact le
      · exact h1 x hx
    next gt =>
      refine List.pairwise_cons.2 ⟨?_, h⟩
      intro x hx
      rcases List.mem_cons.1 hx with rfl | hx
      · simp only; omega
      · have := h1 x hx; simp only; omega

theorem filter_insert {α : Type} (m : List (Nat × α)) (k : Nat) (v : α) (j : Nat) (h : Sorted m) :
    (insertBehind m k v).filter (fun e => e.1 = j) = m.filter (fun e => e.1 = j) ++ (if k = j then [(k, v)] else []) := by
  induction m with
  | nil => by_cases e : k = j <;> simp [insertBehind, e]
  | cons e r ih =>
    obtain ⟨h1, h2⟩ := List.pairwise_cons.1 h
    unfold insertBehind
    split
    next le =>
      by_cases c : e.1 = j
      · simp [c, ih h2]
      · simp [c, ih h2]
    next gt =>
      by_cases c : k = j
      · have none : (e :: r).filter (fun e => e.1 = j) = [] := by
          rw [List.filter_eq_nil_iff]
          intro x hx
          rcases List.mem_cons.1 hx with rfl | hx
          · simp only [decide_eq_true_eq]; omega
          · have := h1 x hx; simp only [decide_eq_true_eq]; omega
        rw [List.filter_cons, none]
        simp [c]
      · rw [List.filter_cons]
        simp [c]

theorem range_eq {α : Type} (m : List (Nat × α)) (k : Nat) (h : Sorted m) : range m k = m.filter (fun e => e.1 = k) := by
  induction m with
  | nil => rfl
  | cons e r ih =>
    obtain ⟨h1, h2⟩ := List.pairwise_cons.1 h
    have ih := ih h2
    unfold range at ih ⊢
    by_cases lt : e.1 < k
    · rw [List.dropWhile_cons_of_pos (by simpa using lt), ih, List.filter_cons_of_neg (by simp only [decide_eq_true_eq]; omega)]
    · rw [List.dropWhile_cons_of_neg (by simpa using lt)]
      have nd : r.dropWhile (fun e => decide (e.1 < k)) = r := by
        cases r with
        | nil => rfl
        | cons f t =>
          have := h1 f (by simp)
          rw [List.dropWhile_cons_of_neg]
          simp only [decide_eq_true_eq]; omega
      rw [nd] at ih
      by_cases eq : e.1 = k
      · rw [List.takeWhile_cons_of_pos (by simp only [decide_eq_true_eq]; omega), ih, List.filter_cons_of_pos (by simpa using eq)]
      · rw [List.takeWhile_cons_of_neg (by simp only [decide_eq_true_eq]; omega), List.filter_cons_of_neg (by simpa using eq), eq_comm,
          List.filter_eq_nil_iff]
        intro x hx
        have := h1 x hx
        simp only [decide_eq_true_eq]; omega

theorem mem_assign {α : Type} (m : List (Nat × α)) (k : Nat) (v : α) (x : Nat × α) (h : x ∈ assign m k v) : x = (k, v) ∨ x ∈ m := by
  induction m with
  | nil => simpa [assign] using h
  | cons e r ih =>
    unfold assign at h
    split at h
    · rcases List.mem_cons.1 h with h | h
      · exact Or.inr (by simp [h])
      · rcases ih h with h | h
        · exact Or.inl h
        · exact Or.inr (List.mem_cons_of_mem _ h)
    · split at h
      · rcases List.mem_cons.1 h with h | h
        · exact Or.inl h
        · exact Or.inr (List.mem_cons_of_mem _ h)
      · rcases List.mem_cons.1 h with h | h
        · exact Or.inl h
        · exact Or.inr h

theorem strict_assign {α : Type} (m : List (Nat × α)) (k : Nat) (v : α) (h : Strict m) : Strict (assign m k v) := by
  induction m with
  | nil => simp [assign, Strict]
  | cons e r ih =>
    obtain ⟨h1, h2⟩ := List.pairwise_cons.1 h
    unfold assign
    split
    next lt =>
      refine List.pairwise_cons.2 ⟨?_, ih h2⟩
      intro x hx
      rcases mem_assign r k v x hx with rfl | hx
      · exact lt
      · exact h1 x hx
    next ge =>
      split
      next eq =>
        refine List.pairwise_cons.2 ⟨?_, h2⟩
        intro x hx
        have := h1 x hx; simp only; omega
      next ne =>
        refine List.pairwise_cons.2 ⟨?_, h⟩
        intro x hx
        rcases List.mem_cons.1 hx with rfl | hx
        · simp only; omega
        · have := h1 x hx; simp only; omega

theorem find_cons {α : Type} (e : Nat × α) (r : List (Nat × α)) (k : Nat) :
    find (e :: r) k = if e.1 < k then find r k else if e.1 = k then some e.2 else none := by
  unfold find
  by_cases lt : e.1 < k
  · rw [List.dropWhile_cons_of_pos (by simpa using lt), if_pos lt]
  · rw [List.dropWhile_cons_of_neg (by simpa using lt), if_neg lt]

theorem find_small {α : Type} (m : List (Nat × α)) (k : Nat) (h : ∀ x ∈ m, k < x.1) : find m k = none := by
  cases m with
  | nil => rfl
  | cons e r =>
    have := h e (by simp)
    rw [find_cons, if_neg (by omega), if_neg (by omega)]

theorem find_assign {α : Type} (m : List (Nat × α)) (k : Nat) (v : α) (j : Nat) (h : Strict m) :
    find (assign m k v) j = if j = k then some v else find m j := by
  induction m with
  | nil =>
    unfold assign
    rw [find_cons]
    by_cases jk : j = k
    · simp [jk]
    · rw [if_neg jk]
      have : ¬ k = j := fun e => jk e.symm
      simp [this, find]
  | cons e r ih =>
    obtain ⟨h1, h2⟩ := List.pairwise_cons.1 h
    unfold assign
    split
    next lt =>
      rw [find_cons, find_cons, ih h2]
      by_cases jk : j = k
      · rw [if_pos jk, if_pos (by omega), if_pos jk]
      · rw [if_neg jk, if_neg jk]
    next ge =>
      split
      next eq =>
        rw [find_cons, find_cons]
        by_cases jk : j = k
        · simp [jk]
        · rw [if_neg jk]
          by_cases a : k < j
          · rw [if_pos a, if_pos (by omega)]
          · rw [if_neg a, if_neg (by omega)]
            rw [if_neg (by omega), if_neg (by omega)]
      next ne =>
        rw [find_cons]
        by_cases jk : j = k
        · simp [jk]
        · rw [if_neg jk]
          by_cases a : k < j
          · rw [if_pos a]
          · rw [if_neg a, if_neg (fun e => jk e.symm), eq_comm]
            apply find_small
            intro x hx
            rcases List.mem_cons.1 hx with rfl | hx
            · omega
            · have := h1 x hx; omega

/-! ### The maps after registrations -/

def Inv (p : Postman) : Prop := Sorted p.eventMap ∧ Strict p.actionMap ∧ ∀ k m, find p.actionMap k = some m → Strict m

def lookup (p : Postman) (k a : BitVec 8) : Option Callback := (find p.actionMap k.toNat).bind (fun m => find m a.toNat)

theorem inv_apply (p : Postman) (r : Reg) (h : Inv p) : Inv (apply p r) := by
  obtain ⟨h1, h2, h3⟩ := h
  cases r with
  | event i c => exact ⟨sorted_insert _ _ _ h1, h2, h3⟩
  | action k a c =>
    refine ⟨h1, strict_assign _ _ _ h2, ?_⟩
    intro j m hm
    simp only [apply, registerActionHandler] at hm
    rw [find_assign _ _ _ _ h2] at hm
    split at hm
    · simp only [Option.some.injEq] at hm
      subst hm
      apply strict_assign
      cases f : find p.actionMap k.toNat with
      | none => simp [Strict]
      | some m' => exact h3 _ _ f
    · exact h3 _ _ hm

theorem lookup_action (p : Postman) (h : Inv p) (k' a' : BitVec 8) (c : Callback) (k a : BitVec 8) :
    lookup (registerActionHandler p k' a' c) k a = if k' = k ∧ a' = a then some c else lookup p k a := by
  obtain ⟨_, h2, h3⟩ := h
  unfold lookup registerActionHandler
  simp only
  rw [find_assign _ _ _ _ h2]
  by_cases kk : k' = k
  · subst kk
    rw [if_pos rfl]
    have st : Strict ((find p.actionMap k'.toNat).getD []) := by
      cases f : find p.actionMap k'.toNat with
      | none => simp [Strict]
      | some m' => exact h3 _ _ f
    simp only [Option.bind_some]
    rw [find_assign _ _ _ _ st]
    by_cases aa : a' = a
    · simp [aa]
    · have : ¬ a.toNat = a'.toNat := fun e => aa (BitVec.eq_of_toNat_eq e.symm)
      rw [if_neg this, if_neg (by simp [aa])]
      cases f : find p.actionMap k'.toNat with
      | none => simp [find]
      | some m' => simp
  · have : ¬ k.toNat = k'.toNat := fun e => kk (BitVec.eq_of_toNat_eq e.symm)
    rw [if_neg this, if_neg (by simp [kk])]

theorem known_action (p : Postman) (h : Inv p) (k' a' : BitVec 8) (c : Callback) (k : BitVec 8) :
    (find (registerActionHandler p k' a' c).actionMap k.toNat).isSome = (k' == k || (find p.actionMap k.toNat).isSome) := by
  unfold registerActionHandler
  simp only
  rw [find_assign _ _ _ _ h.2.1]
  by_cases kk : k' = k
  · simp [kk]
  · have : ¬ k.toNat = k'.toNat := fun e => kk (BitVec.eq_of_toNat_eq e.symm)
    simp [this, kk]

theorem fold_spec (rs : List Reg) : ∀ p, Inv p → Inv (rs.foldl apply p) ∧
    (∀ e : BitVec 8, (rs.foldl apply p).eventMap.filter (fun x => x.1 = e.toNat) =
      p.eventMap.filter (fun x => x.1 = e.toNat) ++ (listeners e rs).map (fun c => (e.toNat, c))) ∧
    (∀ k a, lookup (rs.foldl apply p) k a = (handler k a rs).or (lookup p k a)) ∧
    (∀ k : BitVec 8, (find (rs.foldl apply p).actionMap k.toNat).isSome = (known k rs || (find p.actionMap k.toNat).isSome)) := by
  induction rs with
  | nil =>
    intro p h
    refine ⟨h, ?_, ?_, ?_⟩
    · intro e; simp [listeners]
    · intro k a; simp [handler]
    · intro k; simp [known]
  | cons r rs ih =>
    intro p h
    obtain ⟨i1, i2, i3, i4⟩ := ih (apply p r) (inv_apply p r h)
    refine ⟨i1, ?_, ?_, ?_⟩
    · intro e
      rw [List.foldl_cons, i2 e]
      cases r with
      | event i c =>
        simp only [apply, registerEventListener, listeners]
        rw [filter_insert _ _ _ _ h.1]
        by_cases ie : i = e
        · simp [ie]
        · have : ¬ i.toNat = e.toNat := fun q => ie (BitVec.eq_of_toNat_eq q)
          simp [ie, this]
      | action k a c => simp [apply, registerActionHandler, listeners]
    · intro k a
      rw [List.foldl_cons, i3 k a]
      cases r with
      | event i c => simp [apply, registerEventListener, handler, lookup]
      | action k' a' c =>
        simp only [apply, handler]
        rw [lookup_action p h]
        cases f : handler k a rs with
        | some c' => simp
        | none =>
          by_cases q : k' = k ∧ a' = a
          · simp [q]
          · simp [q]
    · intro k
      rw [List.foldl_cons, i4 k]
      cases r with
      | event i c => simp [apply, registerEventListener, known]
      | action k' a' c =>
        simp only [apply]
        rw [known_action p h]
        simp only [known, List.any_cons]
        cases (k' == k) <;> simp

theorem inv_empty : Inv empty := ⟨by simp [Sorted, empty], by simp [Strict, empty], by intro k m h; simp [empty, find] at h⟩

theorem call_eq (payload : List (BitVec 8)) (c : Callback) (h : fits payload c) : call c payload = some (expected payload c) := by
  unfold call expected
  cases f : c.payload with
  | none => simp
  | some n => simp [h n f]

theorem callAll_eq (payload : List (BitVec 8)) (k : Nat) (cs : List Callback) (h : ∀ c ∈ cs, fits payload c) :
    callAll (cs.map (fun c => (k, c))) payload = some (cs.map (expected payload)) := by
  induction cs with
  | nil => rfl
  | cons c cs ih =>
    simp only [List.map_cons, callAll]
    rw [call_eq payload c (h c (by simp)), ih (fun x hx => h x (by simp [hx]))]
    rfl

/-- C354: after all sequences of registrations, an event calls exactly the listeners registered for it, each once per registration and in the
order of registration, with the payload, and the result is `OK` exactly if there are any (if the payload has at least the
size of their parameters). -/
theorem C354_events_partial (rs : List Reg) (e : BitVec 8) (payload : List (BitVec 8)) (h : ∀ c ∈ listeners e rs, fits payload c) :
    deliverPacket (after rs) 0#8 e payload =
      some (if listeners e rs = [] then .NO_EVENT else .OK, (listeners e rs).map (expected payload)) := by
  obtain ⟨i1, i2, _, _⟩ := fold_spec rs empty inv_empty
  have r : range (after rs).eventMap e.toNat = (listeners e rs).map (fun c => (e.toNat, c)) := by
    unfold after
    rw [range_eq _ _ i1.1, i2 e]
    simp [empty]
  unfold deliverPacket
  rw [if_pos rfl, r]
  have ca := callAll_eq payload e.toNat (listeners e rs) h
  cases f : listeners e rs with
  | nil => simp
  | cons c cs =>
    rw [f] at ca
    simp only [List.map_cons] at ca ⊢
    rw [ca]
    simp

/-- Case: two listeners of event 5, registered around another one. -/
example : deliverPacket (after [.event 5#8 ⟨1, some 2⟩, .event 3#8 ⟨2, none⟩, .event 5#8 ⟨3, none⟩]) 0#8 5#8 [7#8, 8#8] =
    some (.OK, [⟨1, [7#8, 8#8]⟩, ⟨3, []⟩]) := by decide

/-- C355: after all sequences of registrations, a request calls exactly the handler registered last for the action of the
component; otherwise nothing is called and the result says whether the component has any action, as does `isComponentAvailable()`. -/
theorem C355_requests_partial (rs : List Reg) (k a : BitVec 8) (hk : k ≠ 0#8) (payload : List (BitVec 8)) (h : ∀ c, handler k a rs = some c → fits payload c) :
    deliverPacket (after rs) k a payload = some (match handler k a rs with
      | some c => (.OK, [expected payload c])
      | none => (if known k rs then .NO_ACTION else .NO_COMPONENT, [])) ∧
    isComponentAvailable (after rs) k = known k rs := by
  obtain ⟨_, _, i3, i4⟩ := fold_spec rs empty inv_empty
  have i3 := i3 k a
  have i4 := i4 k
  change lookup (after rs) k a = _ at i3
  change (find (after rs).actionMap k.toNat).isSome = _ at i4
  simp only [lookup, empty, find, List.dropWhile_nil, Option.bind_none, Option.or_none] at i3
  simp only [empty, find, List.dropWhile_nil, Option.isSome_none, Bool.or_false] at i4
  change (find (after rs).actionMap k.toNat).bind (fun m => find m a.toNat) = _ at i3
  change (find (after rs).actionMap k.toNat).isSome = _ at i4
  refine ⟨?_, i4⟩
  unfold deliverPacket
  rw [if_neg hk]
  cases f : find (after rs).actionMap k.toNat with
  | none =>
    rw [f] at i3 i4
    simp only [Option.bind_none] at i3
    simp only [Option.isSome_none] at i4
    rw [← i3, ← i4]
    simp
  | some m =>
    rw [f] at i3 i4
    simp only [Option.bind_some] at i3
    simp only [Option.isSome_some] at i4
    simp only
    rw [i3, ← i4]
    cases g : handler k a rs with
    | none => simp
    | some c => simp [call_eq payload c (h c g)]

/-- Case: the handler registered last counts. -/
example : deliverPacket (after [.action 2#8 5#8 ⟨1, none⟩, .action 1#8 5#8 ⟨2, none⟩, .action 2#8 5#8 ⟨3, some 1⟩]) 2#8 5#8 [7#8, 8#8] =
    some (.OK, [⟨3, [7#8]⟩]) ∧
    deliverPacket (after [.action 2#8 5#8 ⟨1, none⟩]) 2#8 6#8 [] = some (.NO_ACTION, []) ∧
    deliverPacket (after [.action 2#8 5#8 ⟨1, none⟩]) 3#8 5#8 [] = some (.NO_COMPONENT, []) := by decide

/-- C354 (refuted): the size of the payload is not compared with the size of the parameter, so a listener with a payload reads behind the
payload of a packet without one. -/
theorem C354_short_counterexample :
    deliverPacket (after [.event 5#8 ⟨1, some 2⟩]) 0#8 5#8 [] = none ∧
    deliverPacket (after [.event 5#8 ⟨1, some 2⟩]) 0#8 5#8 [1#8] = none := by decide

/-- C355 (refuted): so does a handler; and a handler for component 0 can be registered and the component is available, but requests to it are events. -/
theorem C355_zero_counterexample :
    deliverPacket (after [.action 2#8 5#8 ⟨1, some 2⟩]) 2#8 5#8 [1#8] = none ∧
    isComponentAvailable (after [.action 0#8 5#8 ⟨1, none⟩]) 0#8 = true ∧
    deliverPacket (after [.action 0#8 5#8 ⟨1, none⟩]) 0#8 5#8 [] = some (.NO_EVENT, []) := by decide

end Props.DynamicPostman
