import Verif.Model.Gui

set_option autoImplicit false

/-! Widgets of graphical interfaces: C314–C320. -/

namespace Props.Gui

open Modm.Gui

/-! ## Who gets an event (C314, C315) -/

/-- Spec: a plain widget -/
structure Leaf where
  id : Nat
  area : Rect
  interactive : Bool

mutual
/-- Spec: the plain widgets in the order they are drawn: later ones are on top -/
def leaves : Node → List Leaf
  | .leaf id r i => [⟨id, r, i⟩]
  | .group kids => leavesKids kids
def leavesKids : List Node → List Leaf
  | [] => []
  | n :: ns => leaves n ++ leavesKids ns
end

/-- Spec: the widget on top at a point -/
def topmost (widgets : List Node) (x y : Int) : Option Leaf := ((widgets.flatMap leaves).filter fun l => covers l.area (x, y)).getLast?

/-- Spec: what the widget that is touched does -/
def react (l : Option Leaf) (d : Direction) (s : Ui) : Ui :=
  match l with
  | none => s
  | some l =>
    if l.interactive then
      { activated := fun i => if i = l.id then decide (d = .down) else s.activated i, dirty := fun i => if i = l.id then true else s.dirty i, calls := s.calls ++ [(l.id, d)] }
    else s

theorem handleLeaf_eq (l : Leaf) (ev : InputEvent) (s : Ui) : handleLeaf l.id l.area l.interactive ev s =
    if within l.area ev.x ev.y then (true, react (some l) ev.direction s) else (false, s) := by
  unfold handleLeaf
  by_cases hw : within l.area ev.x ev.y = true
  · rw [if_pos hw, if_pos hw]
    congr 1
    simp only [react]
    by_cases hi : l.interactive = true
    · rw [if_pos hi, if_pos hi]
      cases hd : ev.direction <;> simp only [Ui.activate, Ui.deactivate, Ui.mk.injEq, and_true] <;>
        refine ⟨?_, ?_⟩ <;> funext i <;> by_cases hx : i = l.id <;> simp [Function.update, hx]
    · rw [if_neg hi, if_neg hi]
  · rw [if_neg hw, if_neg hw]

/-- what the first of the widgets does -/
def firstOf (ls : List Leaf) (ev : InputEvent) (s : Ui) : Bool × Ui :=
  match (ls.filter fun l => within l.area ev.x ev.y).head? with
  | some l => (true, react (some l) ev.direction s)
  | none => (false, s)

theorem firstOf_append (a b : List Leaf) (ev : InputEvent) (s : Ui) : firstOf (a ++ b) ev s =
    if (firstOf a ev s).1 then firstOf a ev s else firstOf b ev s := by
  unfold firstOf
  rw [List.filter_append]
  cases h : a.filter fun l => within l.area ev.x ev.y with
  | nil => simp
  | cons x xs => simp

theorem firstOf_false (a : List Leaf) (ev : InputEvent) (s : Ui) (h : (firstOf a ev s).1 = false) : (firstOf a ev s).2 = s := by
  unfold firstOf at h ⊢
  cases hx : (a.filter fun l => within l.area ev.x ev.y).head? with
  | none => rfl
  | some x => rw [hx] at h; simp at h

mutual
theorem handle_eq : ∀ (n : Node) (ev : InputEvent) (s : Ui), n.handle ev s = firstOf (leaves n) ev s
  | .leaf id r i, ev, s => by
    rw [Node.handle, leaves, handleLeaf_eq ⟨id, r, i⟩]
    unfold firstOf
    by_cases hw : within r ev.x ev.y = true
    · simp [hw]
    · simp [hw]
  | .group kids, ev, s => by
    rw [Node.handle, leaves]
    exact handleKids_eq kids ev s
theorem handleKids_eq : ∀ (ns : List Node) (ev : InputEvent) (s : Ui), handleKids ns ev s = firstOf (leavesKids ns) ev s
  | [], ev, s => by rw [handleKids, leavesKids]; rfl
  | n :: ns, ev, s => by
    rw [handleKids, leavesKids, firstOf_append, handle_eq n ev s]
    by_cases h : (firstOf (leaves n) ev s).1 = true
    · rw [if_pos h, if_pos h]
      exact Prod.ext h.symm rfl
    · rw [if_neg h, if_neg h, firstOf_false _ _ _ (by simpa using h)]
      exact handleKids_eq ns ev s
end

theorem reversed_eq (ns : List Node) (ev : InputEvent) (s : Ui)
    (hone : ∀ n ∈ ns, ((leaves n).filter fun l => covers l.area (ev.x, ev.y)).length ≤ 1)
    (hedge : ∀ n ∈ ns, ∀ l ∈ leaves n, covers l.area (ev.x, ev.y) = within l.area ev.x ev.y) :
    handleReversed ns ev s = react (topmost ns.reverse ev.x ev.y) ev.direction s := by
  induction ns with
  | nil => rfl
  | cons n ns ih =>
    have ih := ih (fun m hm => hone m (List.mem_cons_of_mem _ hm)) (fun m hm => hedge m (List.mem_cons_of_mem _ hm))
    have hn := hone n List.mem_cons_self
    have he : ((leaves n).filter fun l => covers l.area (ev.x, ev.y)) = (leaves n).filter fun l => within l.area ev.x ev.y :=
      List.filter_congr fun l hl => hedge n List.mem_cons_self l hl
    rw [he] at hn
    rw [handleReversed, handle_eq]
    unfold topmost
    rw [List.reverse_cons, List.flatMap_append, List.filter_append]
    simp only [List.flatMap_cons, List.flatMap_nil, List.append_nil]
    rw [he]
    unfold firstOf
    rcases hx : (leaves n).filter (fun l => within l.area ev.x ev.y) with _ | ⟨a, _ | ⟨b, c⟩⟩
    · simp only [hx, List.head?_nil, List.append_nil]
      exact ih
    · simp only [hx, List.head?_cons, if_true, List.getLast?_append, List.getLast?_singleton, Option.some_or]
    · rw [hx] at hn
      simp at hn

theorem covers_within (r : Rect) (x y : Int) (h : covers r (x, y) = true → r.x ≠ x ∧ r.y ≠ y) : covers r (x, y) = within r x y := by
  rw [Bool.eq_iff_iff]
  unfold covers within at *
  simp only [Bool.and_eq_true, decide_eq_true_eq] at *
  constructor
  · intro hc
    have := h hc
    omega
  · intro hc
    omega

/-- **C314** (partial). An event goes to the widget on top at this point and to no other, and does nothing if there is none: for all trees of
widgets and all events, if of the widgets in one group at most one covers the point, and the point is not in the first row or
column of a widget.  False without these conditions: see the counterexamples. -/
theorem C314_topmost_partial (widgets : List Node) (ev : InputEvent) (s : Ui)
    (hone : ∀ n ∈ widgets, ((leaves n).filter fun l => covers l.area (ev.x, ev.y)).length ≤ 1)
    (hedge : ∀ n ∈ widgets, ∀ l ∈ leaves n, covers l.area (ev.x, ev.y) = true → l.area.x ≠ ev.x ∧ l.area.y ≠ ev.y) :
    update widgets [ev] s = react (topmost widgets ev.x ev.y) ev.direction s := by
  have := reversed_eq widgets.reverse ev s (fun n hn => hone n (List.mem_reverse.1 hn))
    (fun n hn l hl => covers_within _ _ _ (hedge n (List.mem_reverse.1 hn) l hl))
  rw [List.reverse_reverse] at this
  exact this

/-- Two buttons that overlap, and a group -/
def sample : List Node := [.leaf 0 ⟨0, 0, 10, 10⟩ true, .leaf 1 ⟨5, 5, 10, 10⟩ true, .group [.leaf 2 ⟨30, 0, 5, 5⟩ true, .leaf 3 ⟨40, 0, 5, 5⟩ false]]

example : (∀ n ∈ sample, ((leaves n).filter fun l => covers l.area (7, 8)).length ≤ 1) ∧
    (∀ n ∈ sample, ∀ l ∈ leaves n, covers l.area (7, 8) = true → l.area.x ≠ 7 ∧ l.area.y ≠ 8) ∧
    (topmost sample 7 8).map Leaf.id = some 1 ∧ (update sample [⟨7, 8, .down⟩] {}).calls = [(1, .down)] ∧
    (update sample [⟨32, 3, .down⟩] {}).calls = [(2, .down)] ∧ (update sample [⟨42, 3, .down⟩] {}).calls = [] := by decide +kernel

/-- **C314** is false in the first row and column: the widget covers the point, is on top and interactive, but does not react; with a widget of one column it never does. -/
theorem C314_edge_counterexample :
    (topmost [.leaf 0 ⟨10, 10, 20, 20⟩ true] 10 15).map Leaf.id = some 0 ∧ (update [.leaf 0 ⟨10, 10, 20, 20⟩ true] [⟨10, 15, .down⟩] {}).calls = [] ∧
    (∀ (x y : Int) (s : Ui), update [.leaf 0 ⟨10, 10, 1, 20⟩ true] [⟨x, y, .down⟩] s = s) := by
  refine ⟨by decide +kernel, by decide +kernel, ?_⟩
  intro x y s
  have : within ⟨10, 10, 1, 20⟩ x y = false := by
    unfold within
    simp only [Bool.and_eq_false_iff, decide_eq_false_iff_not]
    omega
  simp [update, handleReversed, Node.handle, handleLeaf, this]

/-- **C314** is false in groups whose children overlap: the child below gets the event. -/
theorem C314_group_counterexample :
    let g : List Node := [.group [.leaf 0 ⟨0, 0, 10, 10⟩ true, .leaf 1 ⟨0, 0, 10, 10⟩ true]]
    (topmost g 5 5).map Leaf.id = some 1 ∧ (update g [⟨5, 5, .down⟩] {}).calls = [(0, .down)] := by decide +kernel

/-- **C315** (partial). A press and a release on the same widget call both callbacks once, leave the widget inactive and to be redrawn, and
change no other widget.  Missing: the release at another place. -/
theorem C315_press_partial (widgets : List Node) (x y x' y' : Int) (l : Leaf) (s : Ui)
    (hone : ∀ n ∈ widgets, ((leaves n).filter fun l => covers l.area (x, y)).length ≤ 1)
    (hedge : ∀ n ∈ widgets, ∀ l ∈ leaves n, covers l.area (x, y) = true → l.area.x ≠ x ∧ l.area.y ≠ y)
    (hone' : ∀ n ∈ widgets, ((leaves n).filter fun l => covers l.area (x', y')).length ≤ 1)
    (hedge' : ∀ n ∈ widgets, ∀ l ∈ leaves n, covers l.area (x', y') = true → l.area.x ≠ x' ∧ l.area.y ≠ y')
    (ht : topmost widgets x y = some l) (ht' : topmost widgets x' y' = some l) (hi : l.interactive = true) :
    let t := update widgets [⟨x, y, .down⟩, ⟨x', y', .up⟩] s
    t.activated l.id = false ∧ t.dirty l.id = true ∧ t.calls = s.calls ++ [(l.id, .down), (l.id, .up)] ∧
    ∀ i, i ≠ l.id → t.activated i = s.activated i ∧ t.dirty i = s.dirty i := by
  intro t
  have h1 := C314_topmost_partial widgets ⟨x, y, .down⟩ s hone hedge
  have h2 := C314_topmost_partial widgets ⟨x', y', .up⟩ (update widgets [⟨x, y, .down⟩] s) hone' hedge'
  have h3 : t = update widgets [⟨x', y', .up⟩] (update widgets [⟨x, y, .down⟩] s) := rfl
  simp only [ht, ht'] at h1 h2
  rw [h3, h2, h1]
  simp only [react, hi, if_true]
  refine ⟨by simp, by simp, by simp, ?_⟩
  intro i hne
  simp [hne]

example : (topmost sample 7 8).map Leaf.id = some 1 ∧ (topmost sample 12 13).map Leaf.id = some 1 ∧
    (update sample [⟨7, 8, .down⟩, ⟨12, 13, .up⟩] {}).calls = [(1, .down), (1, .up)] := by decide +kernel

/-- **C315** is false if the finger leaves the widget: after the release the widget stays active, and its `cb_deactivate` is not called. -/
theorem C315_leave_counterexample :
    let t := update sample [⟨7, 8, .down⟩, ⟨100, 100, .up⟩] {}
    t.activated 1 = true ∧ t.calls = [(1, .down)] := by decide +kernel

/-! ## Positions (C316) -/

mutual
/-- Spec: every widget is where its parent is plus its relative position -/
def Placed (org : Int × Int) : Tree → Prop
  | .mk g rel pos _ kids => pos = addP org rel ∧ (g = false → kids = []) ∧ PlacedKids pos kids
def PlacedKids (org : Int × Int) : List Tree → Prop
  | [] => True
  | t :: ts => Placed org t ∧ PlacedKids org ts
end

mutual
/-- only groups have children -/
def Shaped : Tree → Prop
  | .mk g _ _ _ kids => (g = false → kids = []) ∧ ShapedKids kids
def ShapedKids : List Tree → Prop
  | [] => True
  | t :: ts => Shaped t ∧ ShapedKids ts
end

/-- the origin of a widget with these parents -/
def origin (anc : List (Int × Int)) : Int × Int := anc.foldl addP (0, 0)

theorem foldl_addP (anc : List (Int × Int)) (a b : Int × Int) : anc.foldl addP (addP a b) = addP (anc.foldl addP a) b := by
  induction anc generalizing a with
  | nil => rfl
  | cons c anc ih =>
    rw [List.foldl_cons, List.foldl_cons]
    have : addP (addP a b) c = addP (addP a c) b := by unfold addP; ext <;> simp <;> omega
    rw [this, ih]

theorem absolute_eq (rel : Int × Int) (anc : List (Int × Int)) : absolute rel anc = addP (origin anc) rel := by
  unfold absolute origin
  rw [← foldl_addP]
  congr 1
  unfold addP
  ext <;> simp

theorem origin_cons (rel : Int × Int) (anc : List (Int × Int)) : origin (rel :: anc) = addP (origin anc) rel := by
  rw [← absolute_eq]
  unfold origin absolute
  rw [List.foldl_cons]
  congr 1
  unfold addP
  ext <;> simp

mutual
theorem updatePosition_placed : ∀ (t : Tree) (anc : List (Int × Int)), Shaped t → Placed (origin anc) (t.updatePosition anc)
  | .mk g rel pos dim kids, anc, h => by
    rw [Shaped] at h
    rw [Tree.updatePosition, Placed, absolute_eq]
    refine ⟨rfl, ?_, ?_⟩
    · intro hg
      rw [if_neg (by simp [hg])]
      exact h.1 hg
    · cases g with
      | false => rw [if_neg (by decide), h.1 rfl]; trivial
      | true =>
        rw [if_pos rfl, ← origin_cons]
        exact updateKids_placed kids (rel :: anc) h.2
theorem updateKids_placed : ∀ (ts : List Tree) (anc : List (Int × Int)), ShapedKids ts → PlacedKids (origin anc) (updateKids anc ts)
  | [], _, _ => by rw [updateKids]; trivial
  | t :: ts, anc, h => by
    rw [ShapedKids] at h
    rw [updateKids, PlacedKids]
    exact ⟨updatePosition_placed t anc h.1, updateKids_placed ts anc h.2⟩
end

mutual
theorem placed_shaped : ∀ (t : Tree) (org : Int × Int), Placed org t → Shaped t
  | .mk g rel pos dim kids, org, h => by
    rw [Placed] at h
    rw [Shaped]
    exact ⟨h.2.1, placedKids_shaped kids pos h.2.2⟩
theorem placedKids_shaped : ∀ (ts : List Tree) (org : Int × Int), PlacedKids org ts → ShapedKids ts
  | [], _, _ => by trivial
  | t :: ts, org, h => by
    rw [PlacedKids] at h
    rw [ShapedKids]
    exact ⟨placed_shaped t org h.1, placedKids_shaped ts org h.2⟩
end

theorem again_placed (t : Tree) (anc : List (Int × Int)) (h : Placed (origin anc) t) : Placed (origin anc) (t.again anc) := by
  cases t with
  | mk g rel pos dim kids =>
    have hs := placed_shaped _ _ h
    rw [Placed] at h
    rw [Shaped] at hs
    rw [Tree.again, Placed]
    refine ⟨h.1, ?_, ?_⟩
    · intro hg
      rw [if_neg (by simp [hg])]
      exact h.2.1 hg
    · cases g with
      | false => rw [if_neg (by decide)]; exact h.2.2
      | true =>
        rw [if_pos rfl, h.1, ← origin_cons]
        exact updateKids_placed kids _ hs.2

theorem setPosition_placed (t : Tree) (anc : List (Int × Int)) (p : Int × Int) (h : Shaped t) : Placed (origin anc) (t.setPosition anc p) := by
  unfold Tree.setPosition
  apply again_placed
  apply updatePosition_placed
  cases t with
  | mk g rel pos dim kids => rw [Tree.setRelative, Shaped]; rw [Shaped] at h; exact h

theorem placedKids_append (a b : List Tree) (org : Int × Int) (ha : PlacedKids org a) (hb : PlacedKids org b) : PlacedKids org (a ++ b) := by
  induction a with
  | nil => exact hb
  | cons t ts ih =>
    rw [PlacedKids] at ha
    rw [List.cons_append, PlacedKids]
    exact ⟨ha.1, ih ha.2⟩

/-- What is packed is a widget, and only groups are packed into -/
def Allowed (o : PosOp) : Prop := match o with | .setPosition _ => True | .pack w _ => Shaped w

/-- the operation is `pack` and the widget no group -/
def PackInLeaf (o : PosOp) (t : Tree) : Prop := match o, t with | .pack _ _, .mk g _ _ _ _ => g = false | _, _ => False

theorem op_placed (o : PosOp) (t : Tree) (anc : List (Int × Int)) (ho : Allowed o) (hl : ¬ PackInLeaf o t) (h : Placed (origin anc) t) :
    Placed (origin anc) (t.op anc o) := by
  cases o with
  | setPosition p => exact setPosition_placed t anc p (placed_shaped _ _ h)
  | pack w c =>
    cases t with
    | mk g rel pos dim kids =>
      simp only [Tree.op, Tree.pack]
      by_cases hf : fits dim w.dim c = true
      · rw [if_pos hf]
        rw [Placed] at h
        rw [Placed]
        refine ⟨h.1, fun hg => (hl hg).elim, ?_⟩
        apply placedKids_append _ _ _ h.2.2
        rw [PlacedKids, h.1, ← origin_cons]
        exact ⟨setPosition_placed _ _ _ (placed_shaped _ _ (updatePosition_placed _ _ ho)), trivial⟩
      · rw [if_neg hf]
        exact h

mutual
/-- the widget at a path is no plain widget if something is packed into it -/
def OpOk (o : PosOp) : List Nat → Tree → Prop
  | [], t => ¬ PackInLeaf o t
  | i :: path, .mk _ _ _ _ kids => OpOkKids o i path kids
def OpOkKids (o : PosOp) : Nat → List Nat → List Tree → Prop
  | _, _, [] => True
  | 0, path, t :: _ => OpOk o path t
  | i + 1, path, _ :: ts => OpOkKids o i path ts
end

mutual
theorem opAt_placed : ∀ (path : List Nat) (t : Tree) (o : PosOp) (anc : List (Int × Int)), Allowed o → OpOk o path t → Placed (origin anc) t →
    Placed (origin anc) (t.opAt o path anc)
  | [], t, o, anc, ho, hk, h => by
    rw [OpOk] at hk
    rw [Tree.opAt]
    exact op_placed o t anc ho hk h
  | i :: path, .mk g rel pos dim kids, o, anc, ho, hk, h => by
    rw [OpOk] at hk
    rw [Tree.opAt, Placed]
    rw [Placed] at h
    have hp : pos = origin (rel :: anc) := by rw [origin_cons]; exact h.1
    refine ⟨h.1, ?_, ?_⟩
    · intro hg
      rw [h.2.1 hg]
      cases i <;> rfl
    · rw [hp]
      exact opKids_placed i path kids o (rel :: anc) ho hk (hp ▸ h.2.2)
theorem opKids_placed : ∀ (i : Nat) (path : List Nat) (ts : List Tree) (o : PosOp) (anc : List (Int × Int)), Allowed o → OpOkKids o i path ts →
    PlacedKids (origin anc) ts → PlacedKids (origin anc) (opKids o i path anc ts)
  | i, path, [], o, anc, ho, hk, h => by
    cases i <;> exact h
  | 0, path, t :: ts, o, anc, ho, hk, h => by
    rw [OpOkKids] at hk
    rw [opKids, PlacedKids]
    rw [PlacedKids] at h
    exact ⟨opAt_placed path t o anc ho hk h.1, h.2⟩
  | i + 1, path, t :: ts, o, anc, ho, hk, h => by
    rw [OpOkKids] at hk
    rw [opKids, PlacedKids]
    rw [PlacedKids] at h
    exact ⟨h.1, opKids_placed i path ts o anc ho hk h.2⟩
end

/-- **C316**. After `setPosition` of any widget in a tree (at any depth) and after packing any subtree into any group of it, every widget of the whole
tree is at the position of its parent plus its relative position. -/
theorem C316_positions (o : PosOp) (path : List Nat) (t : Tree) (ho : Allowed o) (hk : OpOk o path t) (h : Placed (0, 0) t) :
    Placed (0, 0) (t.opAt o path []) := opAt_placed path t o [] ho hk h

/-- **C316**, the beginning: whatever the positions were, `setPosition` of the top widget (as in `View::pack`) places all of them. -/
theorem C316_start (t : Tree) (h : Shaped t) (p : Int × Int) : Placed (0, 0) (t.setPosition [] p) ∧ (t.setPosition [] p).pos = p := by
  have hp := setPosition_placed t [] p h
  refine ⟨hp, ?_⟩
  cases t with
  | mk g rel pos dim kids =>
    simp only [Tree.setPosition, Tree.setRelative, Tree.updatePosition, Tree.again, Tree.pos, absolute, List.foldl_nil]

/-- **C316**, the children: `pack` accepts exactly the positions where the child lies within the group, and then it gets this relative position. -/
theorem C316_fits (anc : List (Int × Int)) (w : Tree) (c : Int × Int) (t : Tree) :
    ((Tree.pack anc w c t).1 = true ↔ 0 ≤ c.1 ∧ 0 ≤ c.2 ∧ c.1 + w.dim.1 ≤ t.dim.1 ∧ c.2 + w.dim.2 ≤ t.dim.2) ∧
    ((Tree.pack anc w c t).1 = true → ((Tree.pack anc w c t).2.kids.getLast?).map Tree.rel = some c) ∧
    ((Tree.pack anc w c t).1 = false → (Tree.pack anc w c t).2 = t) := by
  cases t with
  | mk g rel pos dim kids =>
    have hdim : (Tree.mk g rel pos dim kids).dim = dim := rfl
    rw [hdim]
    simp only [Tree.pack]
    by_cases hf : fits dim w.dim c = true
    · rw [if_pos hf]
      refine ⟨?_, ?_, by simp⟩
      · simp only [true_iff]
        simp only [fits, Bool.not_eq_true', Bool.or_eq_false_iff, decide_eq_false_iff_not] at hf
        omega
      · intro _
        cases w with
        | mk wg wrel wpos wdim wkids => simp [Tree.kids, Tree.rel, Tree.updatePosition, Tree.setPosition, Tree.setRelative, Tree.again]
    · rw [if_neg hf]
      refine ⟨?_, by simp, by simp⟩
      simp only [Bool.false_eq_true, false_iff]
      intro hc
      apply hf
      simp only [fits, Bool.not_eq_true', Bool.or_eq_false_iff, decide_eq_false_iff_not]
      omega

/-- A group with a group with a widget -/
def nested : Tree := .mk true (5, 5) (5, 5) (100, 100) [.mk true (10, 0) (15, 5) (50, 50) [.mk false (1, 2) (16, 7) (3, 3) []]]

example : Placed (0, 0) nested ∧ Shaped nested ∧ Allowed (.setPosition (20, 30)) ∧ OpOk (.setPosition (20, 30)) [0] nested ∧
    (((nested.opAt (.setPosition (20, 30)) [0] []).kids.flatMap Tree.kids).map Tree.pos) = [(26, 37)] := by
  refine ⟨?_, ?_, trivial, ?_, ?_⟩
  · simp [nested, Placed, PlacedKids, addP]
  · simp [nested, Shaped, ShapedKids]
  · simp [nested, OpOk, OpOkKids, PackInLeaf]
  · simp [nested, Tree.opAt, opKids, Tree.op, Tree.setPosition, Tree.setRelative, Tree.updatePosition, updateKids, Tree.again, absolute, addP, Tree.kids, Tree.pos]

/-! ## Drawing (C317) -/

/-- part `k` of widget `i` exists and covers the point -/
def At (v : View) (p : Int × Int) (i k : Nat) : Prop := i < v.n ∧ ((v.wid i).parts[k]?).any (covers · p) = true

/-- Spec: the part on top at the point: no later widget, and no later part of the same widget, covers it -/
def IsTop (v : View) (p : Int × Int) (i k : Nat) : Prop := At v p i k ∧ ∀ j l, At v p j l → j < i ∨ (j = i ∧ l ≤ k)

/-- Views that have been built by `pack` -/
inductive Built : View → Prop
  | new : Built {}
  | pack (v : View) (dim : Int × Int) (w : Wid) : Built v → Built (v.pack dim w).2

/-- Plain widgets consist of themselves; the parts of groups lie within the group and do not overlap; no group lies on another widget -/
structure Tidy (v : View) : Prop where
  plain : ∀ i, i < v.n → (v.wid i).group = false → (v.wid i).parts = [(v.wid i).rect]
  inside : ∀ i k p, At v p i k → covers (v.wid i).rect p = true
  apart : ∀ i k l p, At v p i k → At v p i l → k = l
  free : ∀ i j, i < j → j < v.n → (v.wid j).group = true → checkIntersection (v.wid i).rect (v.wid j).rect = false

theorem built_inter (v : View) (h : Built v) : v.inter = updateIntersections v := by
  induction h with
  | new => funext i; rfl
  | pack v dim w h ih =>
    unfold View.pack
    by_cases hc : w.rect.x ≥ dim.1 ∨ w.rect.y ≥ dim.2 ∨ w.rect.x < 0 ∨ w.rect.y < 0
    · rw [if_pos hc]
      exact ih
    · rw [if_neg hc]
      rfl

theorem mem_inter (v : View) (h : Built v) (i j : Nat) : j ∈ v.inter i ↔ j < v.n ∧ i < j ∧ checkIntersection (v.wid i).rect (v.wid j).rect = true := by
  rw [built_inter v h]
  simp [updateIntersections]

theorem intersect_of_covers (a b : Rect) (p : Int × Int) (ha : covers a p = true) (hb : covers b p = true) : checkIntersection a b = true := by
  unfold covers at ha hb
  unfold checkIntersection
  simp only [Bool.and_eq_true, decide_eq_true_eq] at ha hb
  simp only [Bool.not_eq_true', Bool.or_eq_false_iff, decide_eq_false_iff_not]
  omega

/-- every rendering is followed by one of each plain widget on top -/
def Good (v : View) (L : List (Nat × Nat)) : Prop :=
  ∀ A a B, L = A ++ a :: B → ∀ j, j ∈ v.inter a.1 → (v.wid j).group = false → (j, 0) ∈ B

theorem good_append (v : View) (L M : List (Nat × Nat)) (hL : Good v L) (hM : Good v M) : Good v (L ++ M) := by
  intro A a B he j hj hg
  rcases List.append_eq_append_iff.1 he with ⟨C, h1, h2⟩ | ⟨C, h1, h2⟩
  · exact hM C a B h2 j hj hg
  · cases C with
    | nil => exact hM [] a B h2.symm j hj hg
    | cons c C =>
      rw [List.cons_append, List.cons.injEq] at h2
      obtain ⟨rfl, rfl⟩ := h2
      exact List.mem_append_left _ (hL A a C h1 j hj hg)

/-- what one widget renders, followed by something with all plain widgets on top -/
theorem good_own (v : View) (i : Nat) (R M : List (Nat × Nat)) (hR : ∀ a ∈ R, a.1 = i) (hM : Good v M)
    (hj : ∀ j, j ∈ v.inter i → (v.wid j).group = false → (j, 0) ∈ M) : Good v (R ++ M) := by
  intro A a B he j hja hg
  rcases List.append_eq_append_iff.1 he with ⟨C, h1, h2⟩ | ⟨C, h1, h2⟩
  · exact hM C a B h2 j hja hg
  · cases C with
    | nil => exact hM [] a B h2.symm j hja hg
    | cons c C =>
      rw [List.cons_append, List.cons.injEq] at h2
      obtain ⟨rfl, rfl⟩ := h2
      have : a.1 = i := hR a (h1 ▸ List.mem_append_right _ List.mem_cons_self)
      rw [this] at hja
      exact List.mem_append_right _ (hj j hja hg)

/-- what a rendering does: entries of this widget only, and those that are dirty -/
theorem render_log (v : View) (i : Nat) (s : Pass) : ∃ R, (render v i s).log = s.log ++ R ∧ (∀ a ∈ R, a.1 = i) ∧
    ((v.wid i).group = false → (i, 0) ∈ R) ∧ ((v.wid i).group = true → ∀ k, k < (v.wid i).parts.length → s.dirty i k = true → (i, k) ∈ R) ∧
    (render v i s).dirty = s.dirty := by
  unfold render
  cases hg : (v.wid i).group with
  | true =>
    rw [if_pos rfl]
    refine ⟨_, rfl, ?_, by simp, ?_, rfl⟩
    · intro a ha
      simp only [List.mem_map] at ha
      obtain ⟨k, _, rfl⟩ := ha
      rfl
    · intro _ k hk hd
      simp [hk, hd]
  | false =>
    rw [if_neg (by decide)]
    exact ⟨_, rfl, by simp, by simp, by simp, rfl⟩

/-- What `draw` of widget `i` does -/
structure Drawn (v : View) (s t : Pass) (L : List (Nat × Nat)) : Prop where
  log : t.log = s.log ++ L
  good : Good v L
  less : ∀ j k, t.dirty j k = true → s.dirty j k = true
  range : ∀ a ∈ L, a.1 < v.n
  done : ∀ j k, k < (v.wid j).parts.length → j < v.n → s.dirty j k = true → t.dirty j k = true ∨ (j, k) ∈ L

theorem Drawn.refl (v : View) (s : Pass) : Drawn v s s [] where
  log := by simp
  good := by
    intro A a B h
    cases A <;> cases h
  less := fun _ _ h => h
  range := by simp
  done := fun _ _ _ _ h => Or.inl h

theorem Drawn.trans {v : View} {s t u : Pass} {L M : List (Nat × Nat)} (h1 : Drawn v s t L) (h2 : Drawn v t u M) : Drawn v s u (L ++ M) where
  log := by rw [h2.log, h1.log, List.append_assoc]
  good := good_append v L M h1.good h2.good
  less := fun j k h => h1.less j k (h2.less j k h)
  range := fun a ha => (List.mem_append.1 ha).elim (h1.range a) (h2.range a)
  done := by
    intro j k hk hj hd
    rcases h1.done j k hk hj hd with h | h
    · rcases h2.done j k hk hj h with h | h
      · exact Or.inl h
      · exact Or.inr (List.mem_append_right _ h)
    · exact Or.inr (List.mem_append_left _ h)

theorem draw_spec (v : View) (hb : Built v) (ht : Tidy v) : ∀ (fuel i : Nat), i < v.n → v.n - i ≤ fuel → ∀ s : Pass,
    ∃ L, Drawn v s (draw v fuel i s) L ∧ ((v.wid i).group = false → (i, 0) ∈ L) ∧ ∀ k, (draw v fuel i s).dirty i k = false := by
  intro fuel
  induction fuel with
  | zero => intro i hi hf; omega
  | succ fuel ih =>
    intro i hi hf s
    have hfold : ∀ (js : List Nat) (u : Pass), (∀ j ∈ js, j < v.n ∧ i < j) →
        ∃ M, Drawn v u (js.foldl (fun s j => draw v fuel j s) u) M ∧ ∀ j ∈ js, (v.wid j).group = false → (j, 0) ∈ M := by
      intro js
      induction js with
      | nil => intro u _; exact ⟨[], Drawn.refl v u, by simp⟩
      | cons j js ihj =>
        intro u hjs
        have hj := hjs j List.mem_cons_self
        obtain ⟨L, hL, hLi, _⟩ := ih j hj.1 (by omega) u
        obtain ⟨M, hM, hMi⟩ := ihj (draw v fuel j u) (fun k hk => hjs k (List.mem_cons_of_mem _ hk))
        refine ⟨L ++ M, hL.trans hM, ?_⟩
        intro k hk hg
        rcases List.mem_cons.1 hk with rfl | hk
        · exact List.mem_append_left _ (hLi hg)
        · exact List.mem_append_right _ (hMi k hk hg)
    obtain ⟨R, hlog, hR, hRp, hRg, hdirty⟩ := render_log v i s
    obtain ⟨M, hM, hMi⟩ := hfold (v.inter i) (markDrawn i (render v i s)) (fun j hj => by
      have := (mem_inter v hb i j).1 hj
      exact ⟨this.1, this.2.1⟩)
    have hd1 : ∀ j k, (markDrawn i (render v i s)).dirty j k = if j = i then false else s.dirty j k := by
      intro j k
      unfold markDrawn
      rw [hdirty]
      by_cases h : j = i
      · subst h; simp
      · simp [h]
    rw [draw]
    refine ⟨R ++ M, ⟨?_, ?_, ?_, fun a ha => (List.mem_append.1 ha).elim (fun h => hR a h ▸ hi) (hM.range a), ?_⟩, fun hg => List.mem_append_left _ (hRp hg), ?_⟩
    · rw [hM.log, ← List.append_assoc]
      unfold markDrawn
      rw [hlog]
    · exact good_own v i R M hR hM.good hMi
    · intro j k h
      have := hM.less j k h
      rw [hd1] at this
      by_cases hji : j = i
      · rw [if_pos hji] at this; cases this
      · rw [if_neg hji] at this; exact this
    · intro j k hk hj hd
      by_cases hji : j = i
      · subst hji
        right
        apply List.mem_append_left
        cases hg : (v.wid j).group with
        | true => exact hRg hg k hk hd
        | false =>
          have := ht.plain j hj hg
          rw [this] at hk
          obtain rfl : k = 0 := by simpa using hk
          exact hRp hg
      · rcases hM.done j k hk hj (by rw [hd1, if_neg hji]; exact hd) with h | h
        · exact Or.inl h
        · exact Or.inr (List.mem_append_right _ h)
    · intro k
      cases h : ((v.inter i).foldl (fun s j => draw v fuel j s) (markDrawn i (render v i s))).dirty i k with
      | false => rfl
      | true =>
        have := hM.less i k h
        rw [hd1, if_pos rfl] at this
        cases this

/-- part of a widget that is dirty makes the widget dirty -/
theorem isDirty_of (v : View) (ht : Tidy v) (s : Pass) (i k : Nat) (hi : i < v.n) (hk : k < (v.wid i).parts.length) (hd : s.dirty i k = true) :
    isDirty v s i = true := by
  unfold isDirty
  cases hg : (v.wid i).group with
  | true => rw [if_pos rfl, List.any_eq_true]; exact ⟨k, List.mem_range.2 hk, hd⟩
  | false =>
    rw [if_neg (by decide)]
    have := ht.plain i hi hg
    rw [this] at hk
    obtain rfl : k = 0 := by simpa using hk
    exact hd

theorem viewDraw_spec (v : View) (hb : Built v) (ht : Tidy v) (s : Pass) : ∃ L, Drawn v s (v.draw s) L ∧
    ∀ i k, i < v.n → k < (v.wid i).parts.length → (v.draw s).dirty i k = false := by
  have : ∀ (m : Nat), m ≤ v.n → ∃ L, Drawn v s ((List.range m).foldl (fun s i => if isDirty v s i then draw v v.n i s else s) s) L ∧
      ∀ i k, i < m → k < (v.wid i).parts.length →
        ((List.range m).foldl (fun s i => if isDirty v s i then draw v v.n i s else s) s).dirty i k = false := by
    intro m
    induction m with
    | zero => intro _; exact ⟨[], Drawn.refl v s, by intro i k h; omega⟩
    | succ m ih =>
      intro hm
      obtain ⟨L, hL, hLd⟩ := ih (by omega)
      rw [List.range_succ, List.foldl_append, List.foldl_cons, List.foldl_nil]
      generalize (List.range m).foldl (fun s i => if isDirty v s i then draw v v.n i s else s) s = u at hL hLd
      by_cases hd : isDirty v u m = true
      · rw [if_pos hd]
        obtain ⟨M, hM, _, hMd⟩ := draw_spec v hb ht v.n m (by omega) (by omega) u
        refine ⟨L ++ M, hL.trans hM, ?_⟩
        intro i k hi hk
        rcases Nat.lt_succ_iff_lt_or_eq.1 hi with h | rfl
        · cases hx : (draw v v.n m u).dirty i k with
          | false => rfl
          | true =>
            have := hM.less i k hx
            rw [hLd i k h hk] at this
            cases this
        · exact hMd k
      · rw [if_neg hd]
        refine ⟨L, hL, ?_⟩
        intro i k hi hk
        rcases Nat.lt_succ_iff_lt_or_eq.1 hi with h | rfl
        · exact hLd i k h hk
        · cases hx : u.dirty i k with
          | false => rfl
          | true => exact (hd (isDirty_of v ht u i k (by omega) hk hx)).elim
  exact this v.n (Nat.le_refl _)

/-- the display at a point: unchanged, or the last rendering that covers it -/
theorem paint_last (v : View) (look : Nat → Nat → Nat) (p : Int × Int) (L : List (Nat × Nat)) (scr : Int × Int → Option (Nat × Nat × Nat)) :
    ((∀ a ∈ L, ((v.wid a.1).parts[a.2]?).any (covers · p) = false) ∧ L.foldl (paint v look) scr p = scr p) ∨
    ∃ A a B, L = A ++ a :: B ∧ ((v.wid a.1).parts[a.2]?).any (covers · p) = true ∧
      (∀ b ∈ B, ((v.wid b.1).parts[b.2]?).any (covers · p) = false) ∧ L.foldl (paint v look) scr p = some (a.1, a.2, look a.1 a.2) := by
  induction L generalizing scr with
  | nil => exact Or.inl ⟨by simp, rfl⟩
  | cons c L ih =>
    rcases ih (paint v look scr c) with ⟨h1, h2⟩ | ⟨A, a, B, h1, h2, h3, h4⟩
    · by_cases hc : ((v.wid c.1).parts[c.2]?).any (covers · p) = true
      · refine Or.inr ⟨[], c, L, rfl, hc, h1, ?_⟩
        rw [List.foldl_cons, h2]
        unfold paint
        rw [if_pos hc]
      · refine Or.inl ⟨?_, ?_⟩
        · intro a ha
          rcases List.mem_cons.1 ha with rfl | ha
          · simpa using hc
          · exact h1 a ha
        · rw [List.foldl_cons, h2]
          unfold paint
          rw [if_neg hc]
    · exact Or.inr ⟨c :: A, a, B, by rw [h1]; rfl, h2, h3, h4⟩

/-- **C317** (partial). After `View::draw` the display shows at every point that is covered by a widget what the widget on top looks like now, and no
widget is left to be drawn: for all views built by `pack`, all looks, and all displays before that were right where the part on top is not marked
dirty.  Missing: groups that lie on other widgets or whose children overlap, and widgets that are moved after `pack`. -/
theorem C317_display_partial (v : View) (hb : Built v) (ht : Tidy v) (look : Nat → Nat → Nat) (dirty : Nat → Nat → Bool)
    (scr : Int × Int → Option (Nat × Nat × Nat))
    (hs : ∀ p i k, IsTop v p i k → dirty i k = true ∨ scr p = some (i, k, look i k)) :
    (∀ p i k, IsTop v p i k → (v.draw ⟨dirty, []⟩).log.foldl (paint v look) scr p = some (i, k, look i k)) ∧
    ∀ i k, i < v.n → k < (v.wid i).parts.length → (v.draw ⟨dirty, []⟩).dirty i k = false := by
  obtain ⟨L, hL, hd⟩ := viewDraw_spec v hb ht ⟨dirty, []⟩
  refine ⟨?_, hd⟩
  have hlog : (v.draw ⟨dirty, []⟩).log = L := by rw [hL.log]; rfl
  have hrange := hL.range
  rw [hlog]
  intro p i k htop
  have hklen : k < (v.wid i).parts.length := by
    have := htop.1.2
    by_cases h : k < (v.wid i).parts.length
    · exact h
    · rw [List.getElem?_eq_none (by omega)] at this
      cases this
  rcases paint_last v look p L scr with ⟨h1, h2⟩ | ⟨A, a, B, h1, h2, h3, h4⟩
  · rw [h2]
    rcases hs p i k htop with hdi | hsc
    · rcases hL.done i k hklen htop.1.1 hdi with h | h
      · rw [hd i k htop.1.1 hklen] at h
        cases h
      · have := h1 _ h
        rw [htop.1.2] at this
        cases this
    · exact hsc
  · rw [h4]
    have hAt : At v p a.1 a.2 := ⟨hrange a (h1 ▸ List.mem_append_right _ List.mem_cons_self), h2⟩
    rcases htop.2 a.1 a.2 hAt with hlt | ⟨he, _⟩
    · exfalso
      have hint := intersect_of_covers _ _ p (ht.inside a.1 a.2 p hAt) (ht.inside i k p htop.1)
      have hg : (v.wid i).group = false := by
        cases hgi : (v.wid i).group with
        | false => rfl
        | true =>
          rw [ht.free a.1 i hlt htop.1.1 hgi] at hint
          cases hint
      have hmem := hL.good A a B h1 i ((mem_inter v hb a.1 i).2 ⟨htop.1.1, hlt, hint⟩) hg
      have hk0 : k = 0 := by
        rw [ht.plain i htop.1.1 hg] at hklen
        simpa using hklen
      have := h3 _ hmem
      rw [← hk0, htop.1.2] at this
      cases this
    · have hk : a.2 = k := ht.apart i a.2 k p (he ▸ hAt) htop.1
      rw [he, hk]

/-- Two widgets that overlap, and a group beside them -/
def panel : View :=
  let a := (({} : View).pack (100, 100) ⟨⟨0, 0, 20, 20⟩, false, [⟨0, 0, 20, 20⟩]⟩).2
  let b := (a.pack (100, 100) ⟨⟨10, 10, 20, 20⟩, false, [⟨10, 10, 20, 20⟩]⟩).2
  (b.pack (100, 100) ⟨⟨50, 0, 20, 10⟩, true, [⟨50, 0, 10, 10⟩, ⟨60, 0, 10, 10⟩]⟩).2

theorem panel_wid (i : Nat) (h : i < 3) : panel.wid i = if i = 0 then ⟨⟨0, 0, 20, 20⟩, false, [⟨0, 0, 20, 20⟩]⟩ else
    if i = 1 then ⟨⟨10, 10, 20, 20⟩, false, [⟨10, 10, 20, 20⟩]⟩ else ⟨⟨50, 0, 20, 10⟩, true, [⟨50, 0, 10, 10⟩, ⟨60, 0, 10, 10⟩]⟩ := by
  rcases (by omega : i = 0 ∨ i = 1 ∨ i = 2) with rfl | rfl | rfl <;> rfl

example : Built panel ∧ Tidy panel ∧ IsTop panel (15, 15) 1 0 ∧
    (panel.draw ⟨fun i _ => i == 0, []⟩).log = [(0, 0), (1, 0)] ∧ (panel.draw ⟨fun _ _ => true, []⟩).log = [(0, 0), (1, 0), (2, 0), (2, 1)] ∧
    (panel.draw ⟨fun i k => i == 2 && k == 1, []⟩).log = [(2, 1)] := by
  have hn : panel.n = 3 := by decide +kernel
  have hAt : ∀ (p : Int × Int) (i k : Nat), At panel p i k → (i = 0 ∧ k = 0 ∧ covers ⟨0, 0, 20, 20⟩ p = true) ∨
      (i = 1 ∧ k = 0 ∧ covers ⟨10, 10, 20, 20⟩ p = true) ∨ (i = 2 ∧ k = 0 ∧ covers ⟨50, 0, 10, 10⟩ p = true) ∨
      (i = 2 ∧ k = 1 ∧ covers ⟨60, 0, 10, 10⟩ p = true) := by
    intro p i k h
    obtain ⟨hi, hc⟩ := h
    rw [hn] at hi
    rw [panel_wid i hi] at hc
    rcases (by omega : i = 0 ∨ i = 1 ∨ i = 2) with rfl | rfl | rfl <;> rcases k with _ | _ | k <;> simp at hc ⊢ <;> exact hc
  refine ⟨Built.pack _ _ _ (Built.pack _ _ _ (Built.pack _ _ _ Built.new)), ⟨?_, ?_, ?_, ?_⟩, ⟨?_, ?_⟩, by decide +kernel, by decide +kernel, by decide +kernel⟩
  · intro i hi hg
    rw [hn] at hi
    rw [panel_wid i hi] at hg ⊢
    rcases (by omega : i = 0 ∨ i = 1 ∨ i = 2) with rfl | rfl | rfl <;> simp at hg ⊢
  · intro i k p h
    have hi := h.1
    rw [hn] at hi
    rw [panel_wid i hi]
    rcases hAt p i k h with ⟨rfl, rfl, hc⟩ | ⟨rfl, rfl, hc⟩ | ⟨rfl, rfl, hc⟩ | ⟨rfl, rfl, hc⟩ <;>
      simp [covers] at hc ⊢ <;> omega
  · intro i k l p h h'
    have a := hAt p i k h
    have b := hAt p i l h'
    simp only [covers, Bool.and_eq_true, decide_eq_true_eq] at a b
    omega
  · intro i j hij hj hg
    rw [hn] at hj
    rw [panel_wid j hj] at hg ⊢
    rw [panel_wid i (by omega)]
    rcases (by omega : i = 0 ∧ j = 1 ∨ i = 0 ∧ j = 2 ∨ i = 1 ∧ j = 2) with ⟨rfl, rfl⟩ | ⟨rfl, rfl⟩ | ⟨rfl, rfl⟩
    · simp at hg
    · decide +kernel
    · decide +kernel
  · exact ⟨by rw [hn]; decide, by decide +kernel⟩
  · intro j l h
    have := hAt _ j l h
    simp only [covers, Bool.and_eq_true, decide_eq_true_eq] at this
    omega

/-- **C317** is false for groups that lie on a widget: when the widget is drawn again, the group is gone from the display, because nothing in it is dirty. -/
theorem C317_group_counterexample :
    let a := (({} : View).pack (100, 100) ⟨⟨0, 0, 50, 50⟩, false, [⟨0, 0, 50, 50⟩]⟩).2
    let v := (a.pack (100, 100) ⟨⟨10, 10, 20, 20⟩, true, [⟨10, 10, 20, 20⟩]⟩).2
    let first := v.draw ⟨fun _ _ => true, []⟩
    let scr := first.log.foldl (paint v fun _ _ => 0) fun _ => none
    let second := v.draw ⟨fun i k => first.dirty i k || i == 0, []⟩
    scr (15, 15) = some (1, 0, 0) ∧ second.log.foldl (paint v fun i _ => if i = 0 then 7 else 0) scr (15, 15) = some (0, 0, 7) := by decide +kernel

/-- **C317** is false for children of a group that overlap: the child below is drawn over the child on top. -/
theorem C317_kids_counterexample :
    let v := (({} : View).pack (100, 100) ⟨⟨0, 0, 50, 50⟩, true, [⟨0, 0, 20, 20⟩, ⟨10, 10, 20, 20⟩]⟩).2
    let first := v.draw ⟨fun _ _ => true, []⟩
    let scr := first.log.foldl (paint v fun _ _ => 0) fun _ => none
    let second := v.draw ⟨fun i k => first.dirty i k || k == 0, []⟩
    scr (15, 15) = some (0, 1, 0) ∧ second.log.foldl (paint v fun _ k => if k = 0 then 7 else 0) scr (15, 15) = some (0, 0, 7) := by decide +kernel

/-- **C317** is false for widgets that are moved after `pack`: a widget moved onto another one is drawn over by it. -/
theorem C317_move_counterexample :
    let a := (({} : View).pack (100, 100) ⟨⟨0, 0, 20, 20⟩, false, [⟨0, 0, 20, 20⟩]⟩).2
    let b := (a.pack (100, 100) ⟨⟨50, 50, 20, 20⟩, false, [⟨50, 50, 20, 20⟩]⟩).2
    let v := b.move 1 ⟨⟨10, 10, 20, 20⟩, false, [⟨10, 10, 20, 20⟩]⟩
    let first := v.draw ⟨fun _ _ => true, []⟩
    let scr := first.log.foldl (paint v fun _ _ => 0) fun _ => none
    let second := v.draw ⟨fun i k => first.dirty i k || i == 0, []⟩
    scr (15, 15) = some (1, 0, 0) ∧ second.log.foldl (paint v fun i _ => if i = 0 then 7 else 0) scr (15, 15) = some (0, 0, 7) := by decide +kernel

/-! ## Fields (C318) -/

/-- Spec: the number of thousandths that a text stands for -/
def thousandths (t : NumText) : Int := (if t.minus then -1 else 1) * (t.whole * 1000 + t.frac : Nat)

theorem float_nonneg (n d : Nat) (hd : 0 < d) : thousandths (floatText n d) = (n * 1000 / d : Nat) ∧ (floatText n d).frac < 1000 := by
  have h1 : ((n : Int).tdiv d) = ((n / d : Nat) : Int) := Int.ofNat_tdiv n d ▸ rfl
  have h2 : ((n : Int) - ((n / d : Nat) : Int) * d) = ((n % d : Nat) : Int) := by
    have := Nat.div_add_mod n d
    rw [Nat.mul_comm] at this
    have h3 : (((n / d) * d + n % d : Nat) : Int) = (n : Int) := by exact_mod_cast this
    push_cast at h3 ⊢
    omega
  have h4 : (((n % d : Nat) : Int) * 1000).tdiv d = ((n % d * 1000 / d : Nat) : Int) := by
    have : (((n % d : Nat) : Int) * 1000) = ((n % d * 1000 : Nat) : Int) := by omega
    rw [this]
    exact Int.ofNat_tdiv _ d ▸ rfl
  have h5 : n * 1000 / d = n / d * 1000 + n % d * 1000 / d := by
    have h6 : n * 1000 = n % d * 1000 + d * (n / d * 1000) := by
      have := Nat.div_add_mod n d
      calc n * 1000 = (d * (n / d) + n % d) * 1000 := by rw [this]
        _ = n % d * 1000 + d * (n / d * 1000) := by rw [Nat.add_mul, Nat.mul_assoc, Nat.add_comm]
    rw [h6, Nat.add_mul_div_left _ _ hd, Nat.add_comm]
  unfold floatText thousandths
  simp only [h1, h2, h4, Int.natAbs_natCast]
  refine ⟨?_, ?_⟩
  · rw [if_neg (by simp; omega), h5]
    omega
  · exact Nat.div_lt_of_lt_mul (by have := Nat.mod_lt n hd; omega)

/-- **C318** (partial). The text of a FloatField stands for the value, rounded towards zero to thousandths, and has three digits after the point: for
all values that are not between -1 and 0. -/
theorem C318_float_partial (n : Int) (d : Nat) (hd : 0 < d) (h : 0 ≤ n ∨ n ≤ -d) :
    thousandths (floatText n d) = (n * 1000).tdiv d ∧ (floatText n d).frac < 1000 := by
  rcases h with h | h
  · obtain ⟨m, rfl⟩ := Int.eq_ofNat_of_zero_le h
    obtain ⟨h1, h2⟩ := float_nonneg m d hd
    refine ⟨?_, h2⟩
    rw [show ((m : Int) * 1000) = ((m * 1000 : Nat) : Int) by omega]
    rw [show ((m * 1000 : Nat) : Int).tdiv d = ((m * 1000 / d : Nat) : Int) from Int.ofNat_tdiv _ d ▸ rfl]
    exact h1
  · obtain ⟨m, rfl⟩ : ∃ m : Nat, n = -(m : Int) := ⟨n.natAbs, by omega⟩
    obtain ⟨h1, h2⟩ := float_nonneg m d hd
    have hm : d ≤ m := by omega
    have hb : ((m : Int).tdiv d) = ((m / d : Nat) : Int) := Int.ofNat_tdiv m d ▸ rfl
    have hpos : 0 < m / d := Nat.div_pos hm hd
    have heq : floatText (-(m : Int)) d = { floatText m d with minus := true } := by
      unfold floatText
      simp only [Int.neg_tdiv, Int.natAbs_neg]
      have : (-(m : Int) - -((m : Int).tdiv d) * d) = -((m : Int) - (m : Int).tdiv d * d) := by
        rw [Int.neg_mul]; omega
      rw [this, Int.neg_mul, Int.neg_tdiv, Int.natAbs_neg]
      simp only [NumText.mk.injEq, and_true]
      rw [hb]
      simp only [decide_eq_true_eq]
      omega
    rw [heq]
    refine ⟨?_, h2⟩
    have hm' : (floatText (m : Int) d).minus = false := by
      unfold floatText
      simp only [hb]
      simp only [decide_eq_false_iff_not]
      omega
    rw [Int.neg_mul, Int.neg_tdiv, show ((m : Int) * 1000) = ((m * 1000 : Nat) : Int) by omega]
    rw [show ((m * 1000 : Nat) : Int).tdiv d = ((m * 1000 / d : Nat) : Int) from Int.ofNat_tdiv _ d ▸ rfl, ← h1]
    unfold thousandths
    rw [hm']
    simp

example : floatText 7 2 = ⟨false, 3, 500⟩ ∧ floatText (-7) 2 = ⟨true, 3, 500⟩ ∧ floatText 1 16 = ⟨false, 0, 62⟩ := by decide +kernel

/-- **C318** is false between -1 and 0: -0.5 is shown as 0.500. -/
theorem C318_sign_counterexample : floatText (-1) 2 = ⟨false, 0, 500⟩ ∧ thousandths (floatText (-1) 2) = 500 ∧ ((-1 : Int) * 1000).tdiv 2 = -500 := by decide +kernel

/-- **C318**: a click on a check box changes its state, and it is drawn again. -/
theorem C318_click (c : Checkbox) : c.click.state = !c.state ∧ c.click.dirty = true := ⟨rfl, rfl⟩

/-- **C318** is false for `setState`: the check box that has been drawn is not drawn again. -/
theorem C318_setState_counterexample : ∃ c : Checkbox, c.dirty = false ∧ (c.set true).state ≠ c.state ∧ (c.set true).dirty = false := ⟨⟨false, false⟩, rfl, by decide, rfl⟩

/-! ## Rockers (C319) -/

/-- `n` times a function -/
def times (f : BitVec 32 → BitVec 32) : Nat → BitVec 32 → BitVec 32
  | 0, x => x
  | n + 1, x => times f n (f x)

theorem next_toNat (a b i : BitVec 32) (hi : i.toNat ≤ b.toNat) :
    (rockerNext a b i).toNat = if i.toNat = b.toNat then a.toNat else i.toNat + 1 := by
  unfold rockerNext
  by_cases h : i ≥ b
  · rw [if_pos h, if_pos (by have : b.toNat ≤ i.toNat := h; omega)]
  · have h' : ¬ b.toNat ≤ i.toNat := h
    rw [if_neg h, if_neg (by omega), BitVec.toNat_add]
    have := b.isLt
    have h1 : (1 : BitVec 32).toNat = 1 := rfl
    omega

theorem previous_toNat (a b i : BitVec 32) (hi : a.toNat ≤ i.toNat) :
    (rockerPrevious a b i).toNat = if i.toNat = a.toNat then b.toNat else i.toNat - 1 := by
  unfold rockerPrevious
  by_cases h : i ≤ a
  · rw [if_pos h, if_pos (by have : i.toNat ≤ a.toNat := h; omega)]
  · have h' : ¬ i.toNat ≤ a.toNat := h
    rw [if_neg h, if_neg (by omega), BitVec.toNat_sub]
    have := i.isLt
    have h1 : (1 : BitVec 32).toNat = 1 := rfl
    omega

/-- **C319**. `next` and `previous` of a StringRocker stay within start … end, undo each other. -/
theorem C319_inverse (a b i : BitVec 32) (ha : a ≤ i) (hb : i ≤ b) :
    (a ≤ rockerNext a b i ∧ rockerNext a b i ≤ b) ∧ (a ≤ rockerPrevious a b i ∧ rockerPrevious a b i ≤ b) ∧
    rockerPrevious a b (rockerNext a b i) = i ∧ rockerNext a b (rockerPrevious a b i) = i := by
  have ha' : a.toNat ≤ i.toNat := ha
  have hb' : i.toNat ≤ b.toNat := hb
  have hn := next_toNat a b i hb'
  have hp := previous_toNat a b i ha'
  have n1 : a.toNat ≤ (rockerNext a b i).toNat ∧ (rockerNext a b i).toNat ≤ b.toNat := by
    rw [hn]; split <;> omega
  have p1 : a.toNat ≤ (rockerPrevious a b i).toNat ∧ (rockerPrevious a b i).toNat ≤ b.toNat := by
    rw [hp]; split <;> omega
  refine ⟨n1, p1, ?_, ?_⟩
  · apply BitVec.eq_of_toNat_eq
    rw [previous_toNat _ _ _ n1.1, hn]
    by_cases h : i.toNat = b.toNat
    · rw [if_pos h, if_pos rfl, h]
    · rw [if_neg h, if_neg (by omega)]; omega
  · apply BitVec.eq_of_toNat_eq
    rw [next_toNat _ _ _ p1.2, hp]
    by_cases h : i.toNat = a.toNat
    · rw [if_pos h, if_pos rfl, h]
    · rw [if_neg h, if_neg (by omega)]; omega

theorem times_next (a b i : BitVec 32) (hab : a.toNat ≤ b.toNat) (ha : a.toNat ≤ i.toNat) (hb : i.toNat ≤ b.toNat) (n : Nat) :
    (times (rockerNext a b) n i).toNat = a.toNat + (i.toNat - a.toNat + n) % (b.toNat - a.toNat + 1) := by
  induction n generalizing i with
  | zero => rw [times, Nat.add_zero, Nat.mod_eq_of_lt (by omega)]; omega
  | succ n ih =>
    have hn := next_toNat a b i hb
    by_cases h : i.toNat = b.toNat
    · rw [if_pos h] at hn
      rw [times, ih _ (by omega) (by omega), hn, h]
      have : b.toNat - a.toNat + (n + 1) = (a.toNat - a.toNat + n) + (b.toNat - a.toNat + 1) := by omega
      rw [this, Nat.add_mod_right]
    · rw [if_neg h] at hn
      rw [times, ih _ (by omega) (by omega), hn]
      congr 2
      omega

/-- **C319**. All entries are reached in turn: `n` times `next` goes `n` entries further, cyclically. -/
theorem C319_cycle (a b i : BitVec 32) (ha : a ≤ i) (hb : i ≤ b) (n : Nat) :
    (times (rockerNext a b) n i).toNat = a.toNat + (i.toNat - a.toNat + n) % (b.toNat - a.toNat + 1) :=
  times_next a b i (Nat.le_trans ha hb) ha hb n

example : times (rockerNext 3 5) 4 4#32 = 5#32 ∧ rockerPrevious 3 5 3#32 = 5#32 ∧ rockerNext 0 0xffffffff 0xffffffff = 0#32 := by decide +kernel

/-! ## Colours (C320) -/

/-- the numbers of plain widgets -/
def ids : List Node → List Nat
  | [] => []
  | .leaf id _ _ :: ns => id :: ids ns
  | .group _ :: ns => ids ns

/-- **C320** (partial). `View::setColorPalette` returns and sets the colours of all widgets of the view, if there are no groups among them. -/
theorem C320_palette_partial (widgets : List Node) (h : ∀ n ∈ widgets, ∃ id r i, n = .leaf id r i) (fuel : Nat) (hf : 0 < fuel) :
    viewSetColorPalette fuel widgets = some (ids widgets) := by
  obtain ⟨f, rfl⟩ : ∃ f, fuel = f + 1 := ⟨fuel - 1, by omega⟩
  have : widgets.mapM (setColorPalette (f + 1)) = some ((ids widgets).map fun i => [i]) := by
    induction widgets with
    | nil => rfl
    | cons n ns ih =>
      obtain ⟨id, r, i, rfl⟩ := h n List.mem_cons_self
      rw [List.mapM_cons, ih (fun m hm => h m (List.mem_cons_of_mem _ hm))]
      rfl
  unfold viewSetColorPalette
  rw [this]
  simp only [Option.map_some, Option.some.injEq]
  induction ids widgets with
  | nil => rfl
  | cons x xs ih => rw [List.map_cons, List.flatten_cons, ih]; rfl

example : viewSetColorPalette 1 [.leaf 4 ⟨0, 0, 1, 1⟩ true, .leaf 7 ⟨0, 0, 1, 1⟩ false] = some [4, 7] := by decide +kernel

/-- **C320** is false for groups: `setColorPalette` of a group calls itself and never returns, whatever depth of calls is allowed. -/
theorem C320_group_counterexample (kids : List Node) (fuel : Nat) : setColorPalette fuel (.group kids) = none ∧
    viewSetColorPalette fuel [.group kids] = none := by
  have h : setColorPalette fuel (.group kids) = none := by
    induction fuel with
    | zero => rfl
    | succ fuel ih => rw [setColorPalette, ih]; rfl
  refine ⟨h, ?_⟩
  unfold viewSetColorPalette
  rw [List.mapM_cons, h]
  rfl

end Props.Gui
