import Verif.Spec.BlockAllocator
import Mathlib.Data.List.Chain
import Mathlib.Tactic.Ring
import Mathlib.Tactic.Linarith
import Mathlib.Tactic.IntervalCases

set_option autoImplicit false

namespace Props.BlockAllocator

open Modm.BlockAllocator Spec.BlockAllocator

/-! ## The runs of blocks behind the markers -/

/-- A run of blocks: its length and whether it is in use. -/
abbrev Seg := Nat × Bool

def tag (b : Seg) : Int := if b.2 then b.1 else -(b.1 : Int)

def tot : List Seg → Nat
  | [] => 0
  | b :: bs => b.1 + tot bs

/-- The runs `bs` lie one after the other from block `s` on, each with its two markers. -/
def Tiles (B : Nat) (mem : Nat → Int) : Nat → List Seg → Prop
  | _, [] => True
  | s, b :: bs =>
    1 ≤ b.1 ∧ mem (s * B) = tag b ∧ mem ((s + b.1) * B - 1) = tag b ∧ Tiles B mem (s + b.1) bs

/-- The payload pointers and the lengths of the runs in use. -/
def usedAt (B : Nat) : Nat → List Seg → List (Nat × Nat)
  | _, [] => []
  | s, b :: bs => if b.2 then (s * B + 1, b.1) :: usedAt B (s + b.1) bs else usedAt B (s + b.1) bs

/-- No two free runs lie side by side. -/
def Merged (bs : List Seg) : Prop := List.IsChain (fun a b : Seg => a.2 = true ∨ b.2 = true) bs

theorem tot_append (a b : List Seg) : tot (a ++ b) = tot a + tot b := by
  induction a with
  | nil => simp [tot]
  | cons x xs ih => simp [tot, ih]; omega

theorem tiles_append (B : Nat) (mem : Nat → Int) (a b : List Seg) : ∀ s,
    Tiles B mem s (a ++ b) ↔ Tiles B mem s a ∧ Tiles B mem (s + tot a) b := by
  induction a with
  | nil => intro s; simp [Tiles, tot]
  | cons x xs ih =>
    intro s
    simp only [List.cons_append, Tiles, ih, tot, Nat.add_assoc]
    tauto

theorem usedAt_append (B : Nat) (a b : List Seg) : ∀ s,
    usedAt B s (a ++ b) = usedAt B s a ++ usedAt B (s + tot a) b := by
  induction a with
  | nil => intro s; simp [usedAt, tot]
  | cons x xs ih =>
    intro s
    simp only [List.cons_append, usedAt, ih, tot, Nat.add_assoc]
    split <;> simp

theorem length_le_tot (B : Nat) (mem : Nat → Int) (bs : List Seg) : ∀ s,
    Tiles B mem s bs → bs.length ≤ tot bs := by
  induction bs with
  | nil => intro s _; simp [tot]
  | cons b bs ih =>
    intro s h
    have := ih _ h.2.2.2
    have := h.1
    simp [tot]; omega

/-- Markers only depend on the words of the runs. -/
theorem tiles_congr (B : Nat) (hB : 1 ≤ B) (m m' : Nat → Int) (bs : List Seg) : ∀ s,
    (∀ i, s * B ≤ i → i < (s + tot bs) * B → m' i = m i) → Tiles B m s bs → Tiles B m' s bs := by
  induction bs with
  | nil => intro s _ _; trivial
  | cons b bs ih =>
    intro s he h
    obtain ⟨h1, h2, h3, h4⟩ := h
    have e1 : (s + tot (b :: bs)) * B = s * B + b.1 * B + tot bs * B := by simp [tot]; ring
    have e2 : (s + b.1) * B = s * B + b.1 * B := by ring
    have e3 : (s + b.1 + tot bs) * B = s * B + b.1 * B + tot bs * B := by ring
    have p1 : 1 ≤ b.1 * B := Nat.mul_pos h1 hB
    refine ⟨h1, ?_, ?_, ih _ (fun i hi hj => he i ?_ ?_) h4⟩
    · rw [he _ (le_refl _) (by omega)]; exact h2
    · rw [he _ (by omega) (by omega)]; exact h3
    · omega
    · omega

theorem mem_usedAt (B : Nat) (bs : List Seg) : ∀ s p k, (p, k) ∈ usedAt B s bs →
    ∃ l r, bs = l ++ (k, true) :: r ∧ p = (s + tot l) * B + 1 := by
  induction bs with
  | nil => intro s p k h; simp [usedAt] at h
  | cons b bs ih =>
    intro s p k h
    obtain ⟨n, u⟩ := b
    cases u with
    | false =>
      simp only [usedAt, Bool.false_eq_true, if_false] at h
      obtain ⟨l, r, e, hp⟩ := ih _ _ _ h
      exact ⟨(n, false) :: l, r, by simp [e], by rw [hp]; simp only [tot]; ring⟩
    | true =>
      simp only [usedAt, if_true, List.mem_cons] at h
      rcases h with h | h
      · obtain ⟨rfl, rfl⟩ := Prod.mk.inj h
        exact ⟨[], bs, rfl, by simp [tot]⟩
      · obtain ⟨l, r, e, hp⟩ := ih _ _ _ h
        exact ⟨(n, true) :: l, r, by simp [e], by rw [hp]; simp only [tot]; ring⟩

/-- Runs in use lie in increasing order and do not overlap. -/
theorem usedAt_pairwise (B : Nat) (bs : List Seg) : ∀ s,
    (∀ x ∈ usedAt B s bs, s * B + 1 ≤ x.1) ∧
    (usedAt B s bs).Pairwise (fun x y => x.1 + x.2 * B ≤ y.1) := by
  induction bs with
  | nil => intro s; simp [usedAt]
  | cons b bs ih =>
    intro s
    obtain ⟨n, u⟩ := b
    obtain ⟨i1, i2⟩ := ih (s + n)
    have e : (s + n) * B = s * B + n * B := by ring
    cases u with
    | false =>
      simp only [usedAt, Bool.false_eq_true, if_false]
      exact ⟨fun x hx => by have := i1 x hx; omega, i2⟩
    | true =>
      simp only [usedAt, if_true, List.mem_cons, List.pairwise_cons]
      refine ⟨?_, ?_, i2⟩
      · rintro x (rfl | hx)
        · exact le_refl _
        · have := i1 x hx; omega
      · intro x hx
        have := i1 x hx
        show s * B + 1 + n * B ≤ x.1
        omega

theorem usedAt_free (B s : Nat) (c : List Seg) (h : ∀ b ∈ c, b.2 = false) : usedAt B s c = [] := by
  induction c generalizing s with
  | nil => rfl
  | cons b bs ih =>
    have hb := h b (by simp)
    simp only [usedAt, hb, Bool.false_eq_true, if_false]
    exact ih _ fun x hx => h x (by simp [hx])

/-! ## Loads and stores -/

theorem signed_self (v : Int) (h1 : -32768 ≤ v) (h2 : v < 32768) : signed v = v := by
  unfold signed; omega

theorem store_ok (h : Heap) (p : Nat) (v : Int) (hp : p < h.fin) (h1 : -32768 ≤ v)
    (h2 : v < 32768) :
    h.store p v = some ⟨h.block, h.slots, fun i => if i = p then v else h.mem i, h.hint⟩ := by
  rw [Heap.store, if_pos hp, signed_self v h1 h2]

theorem load_ok (h : Heap) (p : Nat) (hp : p < h.fin) : h.load p = some (h.mem p) := by
  rw [Heap.load, if_pos hp]

/-- What an operation that only touches the blocks from `s` up to `e` leaves alone. -/
structure Within (h h' : Heap) (s e : Nat) : Prop where
  block : h'.block = h.block
  slots : h'.slots = h.slots
  hint : h'.hint = h.hint
  same : ∀ i, (i < s * h.block ∨ e * h.block ≤ i) → h'.mem i = h.mem i

theorem carve_ok (h : Heap) (s k need : Nat) (hB : 2 ≤ h.block) (hk : s + k ≤ h.slots)
    (hs : h.slots ≤ 32767) (hn : 1 ≤ need) (hle : need ≤ k) :
    ∃ h', carve h (s * h.block) k need = some h' ∧ Within h h' s (s + k) ∧
      Tiles h.block h'.mem s
        ((need, true) :: if need < k then [(k - need, false)] else []) := by
  obtain ⟨B, n, m, hi⟩ := h
  simp only at hB hk hs ⊢
  have f : ∀ m' : Nat → Int, (Heap.mk B n m' hi).fin = n * B := fun _ => rfl
  have b1 : (s + k) * B ≤ n * B := Nat.mul_le_mul_right _ hk
  have e1 : (s + k) * B = s * B + k * B := by ring
  have b2 : need * B ≤ k * B := Nat.mul_le_mul_right _ hle
  have b3 : 2 ≤ need * B := le_trans hB (Nat.le_mul_of_pos_left _ hn)
  have e2 : (s + need) * B = s * B + need * B := by ring
  unfold carve
  rw [store_ok _ _ _ (by rw [f]; omega) (by omega) (by omega), Option.bind_some]
  simp only
  rw [store_ok _ _ _ (by rw [f]; omega) (by omega) (by omega), Option.bind_some]
  simp only
  by_cases hlt : need < k
  · have b4 : (need + 1) * B ≤ k * B := Nat.mul_le_mul_right _ hlt
    have e3 : (need + 1) * B = need * B + B := by ring
    rw [if_pos hlt, if_pos hlt, store_ok _ _ _ (by rw [f]; omega) (by omega) (by omega),
      Option.bind_some]
    simp only
    rw [store_ok _ _ _ (by rw [f]; omega) (by omega) (by omega)]
    refine ⟨_, rfl, ⟨rfl, rfl, rfl, ?_⟩, ?_⟩
    · intro i hi
      simp only at hi ⊢
      rw [if_neg (by omega), if_neg (by omega), if_neg (by omega), if_neg (by omega)]
    · have e4 : s + need + (k - need) = s + k := by omega
      have ht : tag (k - need, false) = -((k : Int) - need) := by
        simp only [tag, Bool.false_eq_true, if_false]
        omega
      refine ⟨hn, ?_, ?_, by simp only; omega, ?_, ?_, trivial⟩
      · simp only
        rw [if_neg (by omega), if_neg (by omega), if_neg (by omega), if_pos trivial]; rfl
      · simp only
        rw [e2, if_neg (by omega), if_neg (by omega), if_pos rfl]; rfl
      · simp only
        rw [e2, if_neg (by omega), if_pos rfl, ht]
      · simp only
        rw [e4, e1, if_pos rfl, ht]
  · have hk' : k = need := by omega
    subst hk'
    rw [if_neg hlt, if_neg hlt]
    refine ⟨_, rfl, ⟨rfl, rfl, rfl, ?_⟩, hn, ?_, ?_, trivial⟩
    · intro i hi
      simp only at hi ⊢
      rw [if_neg (by omega), if_neg (by omega)]
    · simp only
      rw [if_neg (by omega), if_pos trivial]; rfl
    · simp only
      rw [e2, if_pos rfl]; rfl

/-- The search of `allocate` takes the first free run that is long enough. -/
theorem search_ok (need : Nat) (h : Heap) (hB : 2 ≤ h.block) (hs : h.slots ≤ 32767) :
    ∀ (bs : List Seg) (s fuel : Nat), bs ≠ [] → bs.length < fuel → Tiles h.block h.mem s bs →
      s + tot bs = h.slots →
      (∃ l1 k l2, bs = l1 ++ (k, false) :: l2 ∧ need ≤ k ∧
        search need fuel h (s * h.block) =
          (carve h ((s + tot l1) * h.block) k need).map
            fun h' => (h', (s + tot l1) * h.block + 1)) ∨
      ((∀ b ∈ bs, b.2 = false → b.1 < need) ∧
        search need fuel h (s * h.block) = some (h, 0)) := by
  intro bs
  induction bs with
  | nil => intro s fuel hne; exact absurd rfl hne
  | cons b bs ih =>
    intro s fuel _ hf ht hsum
    obtain ⟨k, u⟩ := b
    obtain ⟨h1, h2, h3, h4⟩ := ht
    simp only [tot] at hsum h1 h4
    cases fuel with
    | zero => omega
    | succ fuel =>
      have q1 : (s + k) * h.block ≤ h.slots * h.block := Nat.mul_le_mul_right _ (by omega)
      have e1 : (s + k) * h.block = s * h.block + k * h.block := by ring
      have q2 : 1 ≤ k * h.block := Nat.mul_pos h1 (by omega)
      have hlt : s * h.block < h.fin := by unfold Heap.fin; omega
      have hnext : (s * h.block + k * h.block < h.fin) ↔ bs ≠ [] := by
        unfold Heap.fin
        constructor
        · rintro hh rfl
          simp only [tot] at hsum
          have : s + k = h.slots := by omega
          rw [← this] at hh
          omega
        · intro hne
          have : 1 ≤ tot bs := by
            have := length_le_tot _ _ _ _ h4
            have := List.length_pos_iff.mpr hne
            omega
          have q3 : (s + k + 1) * h.block ≤ h.slots * h.block := Nat.mul_le_mul_right _ (by omega)
          have e3 : (s + k + 1) * h.block = s * h.block + k * h.block + h.block := by ring
          omega
      have step : ∀ r, search need fuel h ((s + k) * h.block) = r →
          ∀ x : Option (Heap × Nat), (x = if s * h.block + k * h.block < h.fin then
            search need fuel h (s * h.block + k * h.block) else some (h, 0)) →
          (bs = [] → x = some (h, 0)) ∧ (bs ≠ [] → x = r) := by
        intro r hr x hx
        constructor
        · intro hb
          rw [hx, if_neg (fun c => hnext.1 c hb)]
        · intro hb
          rw [hx, if_pos (hnext.2 hb), ← e1, hr]
      rw [search, load_ok _ _ hlt, Option.bind_some]
      rw [h2]
      -- the case where this run is not taken
      have go : (u = false → k < need) → ∀ x : Option (Heap × Nat),
          (x = if s * h.block + k * h.block < h.fin then
            search need fuel h (s * h.block + k * h.block) else some (h, 0)) →
          (∃ l1 k' l2, (k, u) :: bs = l1 ++ (k', false) :: l2 ∧ need ≤ k' ∧
            x = (carve h ((s + tot l1) * h.block) k' need).map
                fun h' => (h', (s + tot l1) * h.block + 1)) ∨
          ((∀ b ∈ (k, u) :: bs, b.2 = false → b.1 < need) ∧ x = some (h, 0)) := by
        intro hku x hx
        by_cases hb : bs = []
        · right
          refine ⟨?_, (step _ rfl x hx).1 hb⟩
          intro b hbm hbf
          rw [hb] at hbm
          simp only [List.mem_singleton] at hbm
          subst hbm
          exact hku hbf
        · have hx' := (step _ rfl x hx).2 hb
          rcases ih (s + k) fuel hb (by simp at hf; omega) h4 (by omega) with
            ⟨l1, k', l2, e, hk', hs'⟩ | ⟨hall, hs'⟩
          · left
            refine ⟨(k, u) :: l1, k', l2, by simp [e], hk', ?_⟩
            rw [hx', hs']
            simp only [tot, Nat.add_assoc]
          · right
            refine ⟨?_, by rw [hx', hs']⟩
            intro b hbm hbf
            rcases List.mem_cons.mp hbm with rfl | hbm
            · exact hku hbf
            · exact hall b hbm hbf
      cases u with
      | false =>
        have ht : tag (k, false) = -(k : Int) := by simp [tag]
        have hneg : -(k : Int) < 0 := by omega
        have hk : (-(-(k : Int))).toNat = k := by omega
        rw [ht, if_pos hneg, hk]
        by_cases hle : need ≤ k
        · left
          refine ⟨[], k, bs, rfl, hle, ?_⟩
          simp only [tot, Nat.add_zero]
          rw [if_pos hle]
        · simp only
          rw [if_neg hle, if_neg (by omega)]
          exact go (fun _ => by omega) _ rfl
      | true =>
        have ht : tag (k, true) = (k : Int) := by simp [tag]
        rw [ht, if_neg (by omega), if_neg (by omega), Int.toNat_natCast]
        exact go (fun c => by cases c) _ rfl

/-! ## Neighbours of a run -/

/-- The free run in front of `r`, if any. -/
theorem front (r : List Seg) : ∃ c r', r = c ++ r' ∧
    ((c = [] ∧ (∀ b, r'.head? = some b → b.2 = true)) ∨ ∃ k, c = [(k, false)]) := by
  cases r with
  | nil => exact ⟨[], [], rfl, .inl ⟨rfl, by simp⟩⟩
  | cons b r =>
    obtain ⟨k, u⟩ := b
    cases u with
    | false => exact ⟨[(k, false)], r, rfl, .inr ⟨k, rfl⟩⟩
    | true => exact ⟨[], (k, true) :: r, rfl, .inl ⟨rfl, by simp⟩⟩

theorem back (l : List Seg) : ∃ l' c, l = l' ++ c ∧
    ((c = [] ∧ (∀ b, l'.getLast? = some b → b.2 = true)) ∨ ∃ k, c = [(k, false)]) := by
  rcases List.eq_nil_or_concat l with rfl | ⟨l', b, rfl⟩
  · exact ⟨[], [], rfl, .inl ⟨rfl, by simp⟩⟩
  · obtain ⟨k, u⟩ := b
    cases u with
    | false => exact ⟨l', [(k, false)], by simp, .inr ⟨k, rfl⟩⟩
    | true => exact ⟨l' ++ [(k, true)], [], by simp, .inl ⟨rfl, by simp⟩⟩

theorem last_marker (B : Nat) (mem : Nat → Int) (l : List Seg) (b : Seg)
    (h : Tiles B mem 0 (l ++ [b])) : 1 ≤ b.1 ∧ mem (tot (l ++ [b]) * B - 1) = tag b := by
  rw [tiles_append] at h
  obtain ⟨h1, -, h3, -⟩ := h.2
  refine ⟨h1, ?_⟩
  rw [tot_append]
  simpa [tot] using h3

theorem above_ok (h : Heap) (hB : 2 ≤ h.block) (s : Nat) (c r : List Seg)
    (hc : (c = [] ∧ (∀ b, r.head? = some b → b.2 = true)) ∨ ∃ k, c = [(k, false)])
    (ht : Tiles h.block h.mem s (c ++ r)) (hsum : s + tot (c ++ r) = h.slots) :
    above h (s * h.block) = some (tot c) := by
  have hlt : c ++ r ≠ [] → s * h.block < h.fin := by
    intro hne
    have := length_le_tot _ _ _ _ ht
    have := List.length_pos_iff.mpr hne
    have q : (s + 1) * h.block ≤ h.slots * h.block := Nat.mul_le_mul_right _ (by omega)
    have e : (s + 1) * h.block = s * h.block + h.block := by ring
    unfold Heap.fin; omega
  unfold above
  rcases hc with ⟨rfl, hr⟩ | ⟨k, rfl⟩
  · cases r with
    | nil =>
      rw [if_neg (by unfold Heap.fin; rw [← hsum]; simp [tot])]
      rfl
    | cons b r =>
      rw [if_pos (hlt (by simp)), load_ok _ _ (hlt (by simp)), Option.map_some]
      have hb := hr b rfl
      have h2 := ht.2.1
      rw [h2]
      have : ¬ tag b < 0 := by unfold tag; rw [hb]; simp
      rw [if_neg this]
      rfl
  · rw [if_pos (hlt (by simp)), load_ok _ _ (hlt (by simp)), Option.map_some]
    have h2 := ht.2.1
    have h1 := ht.1
    simp only at h1
    rw [h2]
    have : tag (k, false) = -(k : Int) := by simp [tag]
    rw [this, if_pos (by omega)]
    simp [tot]

theorem below_ok (h : Heap) (hB : 2 ≤ h.block) (l c : List Seg)
    (hc : (c = [] ∧ (∀ b, l.getLast? = some b → b.2 = true)) ∨ ∃ k, c = [(k, false)])
    (ht : Tiles h.block h.mem 0 (l ++ c)) (hsum : tot (l ++ c) ≤ h.slots) :
    below h (tot (l ++ c) * h.block) = some (tot c) := by
  have hle : tot (l ++ c) * h.block ≤ h.fin := by
    unfold Heap.fin; exact Nat.mul_le_mul_right _ hsum
  unfold below
  rcases hc with ⟨rfl, hr⟩ | ⟨k, rfl⟩
  · rcases List.eq_nil_or_concat l with rfl | ⟨l', b, rfl⟩
    · simp [tot]
    · simp only [List.concat_eq_append, List.append_nil] at ht hle ⊢
      obtain ⟨h1, h2⟩ := last_marker _ _ _ _ ht
      have q : 1 ≤ tot (l' ++ [b]) := by rw [tot_append]; simp [tot]; omega
      have q2 : 1 ≤ tot (l' ++ [b]) * h.block := Nat.mul_pos q (by omega)
      rw [if_pos q2, load_ok _ _ (by omega), Option.map_some, h2]
      have hb := hr b (by simp)
      have : ¬ tag b < 0 := by unfold tag; rw [hb]; simp
      rw [if_neg this]
      rfl
  · obtain ⟨h1, h2⟩ := last_marker _ _ _ _ ht
    simp only at h1
    have q : 1 ≤ tot (l ++ [(k, false)]) := by rw [tot_append]; simp [tot]; omega
    have q2 : 1 ≤ tot (l ++ [(k, false)]) * h.block := Nat.mul_pos q (by omega)
    rw [if_pos q2, load_ok _ _ (by omega), Option.map_some, h2]
    have : tag (k, false) = -(k : Int) := by simp [tag]
    rw [this, if_pos (by omega)]
    simp [tot]

theorem free_ok (h : Heap) (hB : 2 ≤ h.block) (hs : h.slots ≤ 32767) (hh : h.hint = 0)
    (l c1 c2 r : List Seg) (k : Nat)
    (hc1 : (c1 = [] ∧ (∀ b, l.getLast? = some b → b.2 = true)) ∨ ∃ k, c1 = [(k, false)])
    (hc2 : (c2 = [] ∧ (∀ b, r.head? = some b → b.2 = true)) ∨ ∃ k, c2 = [(k, false)])
    (ht : Tiles h.block h.mem 0 (l ++ c1 ++ (k, true) :: (c2 ++ r)))
    (hsum : tot (l ++ c1 ++ (k, true) :: (c2 ++ r)) = h.slots) :
    ∃ h', free h (tot (l ++ c1) * h.block + 1) = some h' ∧
      Within h h' (tot l) (tot l + (tot c1 + k + tot c2)) ∧
      Tiles h.block h'.mem (tot l) [(tot c1 + k + tot c2, false)] := by
  have ht0 := ht
  rw [tiles_append] at ht
  obtain ⟨tl, h1, h2, h3, tr⟩ := ht
  simp only [Nat.zero_add] at h1 h2 h3 tr
  have hsum0 := hsum
  rw [tot_append] at hsum
  simp only [tot] at hsum
  have ta := tot_append l c1
  have tb := tot_append c2 r
  have e0 : tot (l ++ c1) * h.block + k * h.block = (tot (l ++ c1) + k) * h.block := by ring
  have q0 : (tot (l ++ c1) + k) * h.block ≤ h.slots * h.block :=
    Nat.mul_le_mul_right _ (by omega)
  have q1 : 1 ≤ k * h.block := Nat.mul_pos h1 (by omega)
  have hfin : tot (l ++ c1) * h.block < h.fin := by unfold Heap.fin; omega
  have htag : tag (k, true) = (k : Int) := by simp [tag]
  unfold free
  rw [if_neg (by omega)]
  simp only [Nat.add_sub_cancel]
  rw [load_ok _ _ hfin, Option.bind_some, h2, htag, if_neg (by omega), Int.toNat_natCast, e0,
    above_ok h hB _ c2 r hc2 tr (by rw [tot_append]; omega), Option.bind_some,
    below_ok h hB l c1 hc1 tl (by omega), Option.bind_some]
  have e1 : tot (l ++ c1) * h.block = tot l * h.block + tot c1 * h.block := by
    rw [tot_append]; ring
  rw [if_neg (by omega)]
  have e2 : tot (l ++ c1) * h.block - tot c1 * h.block = tot l * h.block := by omega
  rw [e2]
  have et : k + tot c2 + tot c1 = tot c1 + k + tot c2 := by omega
  rw [et]
  obtain ⟨t, htt⟩ : ∃ t, t = tot c1 + k + tot c2 := ⟨_, rfl⟩
  rw [← htt]
  have e3 : (tot l + t) * h.block = tot l * h.block + t * h.block := by ring
  have q3 : (tot l + t) * h.block ≤ h.slots * h.block := Nat.mul_le_mul_right _ (by omega)
  have q4 : h.block ≤ t * h.block := Nat.le_mul_of_pos_left _ (by omega)
  obtain ⟨B, n, m, hi⟩ := h
  simp only at *
  have f : ∀ m' : Nat → Int, (Heap.mk B n m' hi).fin = n * B := fun _ => rfl
  rw [store_ok _ _ _ (by rw [f]; omega) (by omega) (by omega), Option.bind_some]
  simp only
  rw [store_ok _ _ _ (by rw [f]; omega) (by omega) (by omega), Option.map_some]
  refine ⟨_, rfl, ⟨rfl, rfl, ?_, ?_⟩, by simp only; omega, ?_, ?_, trivial⟩
  · simp only [hh, Nat.not_lt_zero, if_false]
  · intro i hi
    simp only at hi ⊢
    rw [if_neg (by omega), if_neg (by omega)]
  · simp only
    rw [if_neg (by omega), if_pos trivial]
    simp [tag]
  · simp only
    rw [e3, if_pos rfl]
    simp [tag]

/-! ## The invariant -/

/-- Two used or free runs that may lie side by side. -/
theorem merged_append (a b : List Seg) : Merged (a ++ b) ↔ Merged a ∧ Merged b ∧
    ∀ x, a.getLast? = some x → ∀ y, b.head? = some y → x.2 = true ∨ y.2 = true := by
  unfold Merged
  rw [List.isChain_append]
  simp only [Option.mem_def]

structure Inv (B n : Nat) (w : World) (bs : List Seg) : Prop where
  block : w.heap.block = B
  slots : w.heap.slots = n
  hint : w.heap.hint = 0
  tiles : Tiles B w.heap.mem 0 bs
  total : tot bs = n
  merged : Merged bs
  live : (w.live.map fun a => (a.ptr, blocks B a.size)).Perm (usedAt B 0 bs)
  fits : ∀ a ∈ w.live, 1 ≤ blocks B a.size
  data : ∀ a ∈ w.live, ∀ off v, a.data off = some v →
    off < words a.size ∧ w.heap.mem (a.ptr + off) = v

theorem blocks_words (B size : Nat) (hB : 2 ≤ B) :
    1 ≤ blocks B size ∧ words size + 2 ≤ blocks B size * B := by
  unfold blocks words
  obtain ⟨d, hd⟩ : ∃ d, d = (size + 4 + (B * 2 - 1)) / (B * 2) := ⟨_, rfl⟩
  rw [← hd]
  have h1 : size + 4 + (B * 2 - 1) < (d + 1) * (B * 2) := by
    rw [hd]
    have := Nat.lt_div_mul_add (a := size + 4 + (B * 2 - 1)) (b := B * 2) (by omega)
    rw [Nat.add_mul, Nat.one_mul]; exact this
  have e1 : (d + 1) * (B * 2) = d * B * 2 + B * 2 := by ring
  have h2 : size + 4 ≤ d * B * 2 := by omega
  constructor
  · rcases Nat.eq_zero_or_pos d with h | h
    · rw [h] at h2; omega
    · exact h
  · omega

theorem needed_eq (B size : Nat) (h : size + 4 + (B * 2 - 1) < 2 ^ 32) :
    needed B size = blocks B size := by
  unfold needed blocks
  rw [Nat.mod_eq_of_lt (a := size + 4) (by omega), Nat.mod_eq_of_lt h]

/-- Where the words of a held allocation are. -/
theorem live_mem (B n : Nat) (w : World) (bs : List Seg) (I : Inv B n w bs) (a : Alloc)
    (ha : a ∈ w.live) : ∃ l r, bs = l ++ (blocks B a.size, true) :: r ∧ a.ptr = tot l * B + 1 := by
  have h : (a.ptr, blocks B a.size) ∈ usedAt B 0 bs :=
    I.live.mem_iff.mp (List.mem_map.mpr ⟨a, ha, rfl⟩)
  obtain ⟨l, r, e, hp⟩ := mem_usedAt B bs 0 _ _ h
  exact ⟨l, r, e, by simpa using hp⟩

theorem live_pairwise (B n : Nat) (w : World) (bs : List Seg) (I : Inv B n w bs) :
    w.live.Pairwise fun a b =>
      a.ptr + blocks B a.size * B ≤ b.ptr ∨ b.ptr + blocks B b.size * B ≤ a.ptr := by
  have h := (usedAt_pairwise B bs 0).2
  have h' : (usedAt B 0 bs).Pairwise
      (fun x y : Nat × Nat => x.1 + x.2 * B ≤ y.1 ∨ y.1 + y.2 * B ≤ x.1) :=
    h.imp fun hx => .inl hx
  have h'' := (I.live.symm.pairwise_iff (fun {x y} hxy => hxy.symm)).mp h'
  rw [List.pairwise_map] at h''
  exact h''

theorem ptr_inj (B n : Nat) (w : World) (bs : List Seg) (I : Inv B n w bs) (hB : 2 ≤ B)
    (a b : Alloc) (ha : a ∈ w.live) (hb : b ∈ w.live) (h : a.ptr = b.ptr) : a = b := by
  by_contra hne
  have : Std.Symm (fun a b : Alloc =>
      a.ptr + blocks B a.size * B ≤ b.ptr ∨ b.ptr + blocks B b.size * B ≤ a.ptr) :=
    ⟨fun _ _ hxy => hxy.symm⟩
  have hp := (live_pairwise B n w bs I).forall ha hb hne
  have h1 : 1 ≤ blocks B a.size * B := Nat.mul_pos (I.fits a ha) (by omega)
  have h2 : 1 ≤ blocks B b.size * B := Nat.mul_pos (I.fits b hb) (by omega)
  omega

/-- Words of held allocations are not touched by an operation on the runs next to them. -/
theorem data_kept (B n : Nat) (w : World) (bs : List Seg) (I : Inv B n w bs) (hB : 2 ≤ B)
    (l c r : List Seg) (hbs : bs = l ++ c ++ r) (a : Alloc) (ha : a ∈ w.live)
    (hc : (a.ptr, blocks B a.size) ∉ usedAt B (tot l) c) (off : Nat) (ho : off < words a.size) :
    a.ptr + off < tot l * B ∨ (tot l + tot c) * B ≤ a.ptr + off := by
  have h : (a.ptr, blocks B a.size) ∈ usedAt B 0 bs :=
    I.live.mem_iff.mp (List.mem_map.mpr ⟨a, ha, rfl⟩)
  rw [hbs, usedAt_append, usedAt_append, List.mem_append, List.mem_append] at h
  simp only [Nat.zero_add] at h
  have hw := (blocks_words B a.size hB).2
  rcases h with (h | h) | h
  · left
    obtain ⟨l', r', e, hp⟩ := mem_usedAt B l 0 _ _ h
    have e2 : tot l = tot l' + (blocks B a.size + tot r') := by rw [e, tot_append]; rfl
    have e3 : tot l * B = tot l' * B + (blocks B a.size * B + tot r' * B) := by rw [e2]; ring
    rw [Nat.zero_add] at hp
    omega
  · exact absurd h hc
  · right
    obtain ⟨l', r', e, hp⟩ := mem_usedAt B r _ _ _ h
    rw [tot_append] at hp
    have e3 : (tot l + tot c + tot l') * B = (tot l + tot c) * B + tot l' * B := by ring
    omega

theorem init_inv (B n : Nat) (hB : 2 ≤ B) (h1 : 1 ≤ n) (h2 : n ≤ 32767) (raw : Nat → Int)
    (h : Heap) (e : init B n raw = some h) : Inv B n ⟨h, []⟩ [(n, false)] := by
  have q : 2 ≤ n * B := le_trans hB (Nat.le_mul_of_pos_left _ h1)
  have f : ∀ (m' : Nat → Int) (x : Nat), (Heap.mk B n m' x).fin = n * B := fun _ _ => rfl
  unfold init at e
  simp only at e
  rw [store_ok _ _ _ (by rw [f]; omega) (by omega) (by omega), Option.bind_some] at e
  simp only [f] at e
  rw [store_ok _ _ _ (by rw [f]; omega) (by omega) (by omega)] at e
  simp only [Option.some.injEq] at e
  subst e
  refine ⟨rfl, rfl, rfl, ⟨h1, ?_, ?_, trivial⟩, by simp [tot], by simp [Merged], by simp [usedAt],
    by simp, by simp⟩
  · simp only [Nat.zero_mul]
    rw [if_neg (by omega), if_pos trivial]
    simp [tag]
  · simp only [Nat.zero_add]
    rw [if_pos trivial]
    simp [tag]

theorem init_defined (B n : Nat) (hB : 2 ≤ B) (h1 : 1 ≤ n) (h2 : n ≤ 32767) (raw : Nat → Int) :
    ∃ h, init B n raw = some h := by
  have q : 2 ≤ n * B := le_trans hB (Nat.le_mul_of_pos_left _ h1)
  have f : ∀ (m' : Nat → Int) (x : Nat), (Heap.mk B n m' x).fin = n * B := fun _ _ => rfl
  unfold init
  simp only
  rw [store_ok _ _ _ (by rw [f]; omega) (by omega) (by omega), Option.bind_some]
  simp only [f]
  rw [store_ok _ _ _ (by rw [f]; omega) (by omega) (by omega)]
  exact ⟨_, rfl⟩

/-- What `allocate` does to the runs. -/
theorem allocate_ok (B n : Nat) (w : World) (bs : List Seg) (I : Inv B n w bs) (hB : 2 ≤ B)
    (h1 : 1 ≤ n) (h2 : n ≤ 32767) (size : Nat) (hsz : size + 4 + (B * 2 - 1) < 2 ^ 32) :
    (∃ l k r h', bs = l ++ (k, false) :: r ∧ blocks B size ≤ k ∧
      allocate w.heap size = some (h', tot l * B + 1) ∧
      Inv B n ⟨h', ⟨tot l * B + 1, size, fun _ => none⟩ :: w.live⟩
        (l ++ (blocks B size, true) ::
          ((if blocks B size < k then [(k - blocks B size, false)] else []) ++ r))) ∨
    ((∀ b ∈ bs, b.2 = false → b.1 < blocks B size) ∧ allocate w.heap size = some (w.heap, 0)) := by
  have hne : bs ≠ [] := by rintro rfl; have := I.total; simp [tot] at this; omega
  have hlen := length_le_tot _ _ _ _ I.tiles
  have ht := I.total
  have hbl := I.block
  have hsl := I.slots
  have hbw := blocks_words B size hB
  have hs := search_ok (blocks B size) w.heap (by omega) (by omega) bs 0 (w.heap.slots + 1) hne
    (by omega) (by rw [hbl]; exact I.tiles) (by omega)
  have hal : allocate w.heap size =
      search (blocks B size) (w.heap.slots + 1) w.heap (0 * w.heap.block) := by
    unfold allocate
    rw [I.hint, hbl, needed_eq B size hsz, Nat.zero_mul]
  rw [← hal] at hs
  rcases hs with ⟨l, k, r, e, hk, hs⟩ | ⟨hall, hs⟩
  · left
    have ht' : tot l + (k + tot r) = n := by
      rw [← ht, e, tot_append]; rfl
    obtain ⟨h', hc, hw, htl⟩ := carve_ok w.heap (tot l) k (blocks B size) (by omega) (by omega)
      (by omega) hbw.1 hk
    rw [Nat.zero_add, hc, Option.map_some, hbl] at hs
    refine ⟨l, k, r, h', e, hk, hs, ?_⟩
    have hrest : ∀ x : List Seg,
        (x = if blocks B size < k then [(k - blocks B size, false)] else []) →
        tot x = k - blocks B size ∧ usedAt B (tot l + blocks B size) x = [] := by
      intro x hx
      split at hx <;> subst hx <;> simp [tot, usedAt] <;> omega
    obtain ⟨hx1, hx2⟩ := hrest _ rfl
    have hM := I.merged
    rw [e] at hM
    have hsame : ∀ i, (i < tot l * B ∨ (tot l + k) * B ≤ i) → h'.mem i = w.heap.mem i := by
      intro i hi
      exact hw.same i (by rw [hbl]; exact hi)
    have htiles := I.tiles
    rw [e, tiles_append] at htiles
    obtain ⟨t1, t2⟩ := htiles
    have t3 := t2.2.2.2
    simp only [Nat.zero_add] at t3
    have hU : usedAt B 0 bs = usedAt B 0 l ++ usedAt B (tot l + k) r := by
      rw [e, usedAt_append, Nat.zero_add, usedAt]
      simp
    have hU' : usedAt B 0 (l ++ (blocks B size, true) ::
          ((if blocks B size < k then [(k - blocks B size, false)] else []) ++ r)) =
        usedAt B 0 l ++ (tot l * B + 1, blocks B size) :: usedAt B (tot l + k) r := by
      rw [usedAt_append, Nat.zero_add, usedAt]
      simp only [if_true]
      rw [usedAt_append, hx2, hx1, List.nil_append]
      congr 3
      omega
    refine ⟨hw.block.trans hbl, hw.slots.trans hsl, hw.hint.trans I.hint, ?_, ?_, ?_, ?_, ?_, ?_⟩
    · rw [tiles_append]
      refine ⟨tiles_congr B (by omega) _ _ l 0 (fun i _ hi => hsame i (.inl ?_)) t1, ?_⟩
      · simpa using hi
      · simp only [Nat.zero_add]
        rw [hbl] at htl
        rw [← List.cons_append, tiles_append]
        refine ⟨htl, ?_⟩
        have : tot l + tot ((blocks B size, true) ::
            if blocks B size < k then [(k - blocks B size, false)] else []) = tot l + k := by
          rw [tot, hx1]; omega
        rw [this]
        refine tiles_congr B (by omega) _ _ r _ (fun i hi _ => hsame i (.inr hi)) t3
    · rw [tot_append, tot, tot_append, hx1]; omega
    · rw [merged_append] at hM ⊢
      obtain ⟨m1, m2, m3⟩ := hM
      refine ⟨m1, ?_, fun x _ y hy => .inr ?_⟩
      · rw [← List.singleton_append, merged_append]
        refine ⟨by simp [Merged], ?_, fun x hx y _ => .inl ?_⟩
        · rw [← List.singleton_append, merged_append] at m2
          split
          · rw [merged_append]
            refine ⟨by simp [Merged], m2.2.1, fun x hx y hy => ?_⟩
            refine .inr ((m2.2.2 (k, false) (by simp) y hy).resolve_left (by simp))
          · simpa using m2.2.1
        · simp at hx; rw [← hx]
      · simp at hy; rw [← hy]
    · rw [hU']
      simp only [List.map_cons]
      have := I.live
      rw [hU] at this
      exact (List.Perm.cons _ this).trans List.perm_middle.symm
    · intro a ha
      rcases List.mem_cons.mp ha with rfl | ha
      · exact hbw.1
      · exact I.fits a ha
    · intro a ha off v hd
      rcases List.mem_cons.mp ha with rfl | ha
      · simp at hd
      · obtain ⟨d1, d2⟩ := I.data a ha off v hd
        refine ⟨d1, ?_⟩
        have := data_kept B n w bs I hB l [(k, false)] r (by simp [e]) a ha (by simp [usedAt]) off d1
        rw [← d2]
        exact hsame _ (by simpa [tot] using this)
  · right
    refine ⟨hall, hs⟩

/-- What `free` does to the runs. -/
theorem free_inv (B n : Nat) (w : World) (bs : List Seg) (I : Inv B n w bs) (hB : 2 ≤ B)
    (h2 : n ≤ 32767) (p : Nat) (hp : ∃ a ∈ w.live, a.ptr = p) :
    ∃ h' bs', free w.heap p = some h' ∧
      Inv B n ⟨h', w.live.filter fun a => a.ptr ≠ p⟩ bs' := by
  obtain ⟨a, ha, rfl⟩ := hp
  obtain ⟨l1, l2, e, hp⟩ := live_mem B n w bs I a ha
  obtain ⟨l, c1, e1, hc1⟩ := back l1
  obtain ⟨c2, r, e2, hc2⟩ := front l2
  obtain ⟨k, hk⟩ : ∃ k, k = blocks B a.size := ⟨_, rfl⟩
  rw [← hk, e1, e2] at e
  have hbl := I.block
  have hsl := I.slots
  obtain ⟨h', hf, hw, htl⟩ := free_ok w.heap (by omega) (by omega) I.hint l c1 c2 r k hc1 hc2
    (by rw [hbl, ← e]; exact I.tiles) (by rw [← e, hsl]; exact I.total)
  have hp' : a.ptr = tot (l ++ c1) * w.heap.block + 1 := by rw [hbl, ← e1]; exact hp
  rw [← hp'] at hf
  have f1 : ∀ b ∈ c1, b.2 = false := by
    rcases hc1 with ⟨rfl, -⟩ | ⟨x, rfl⟩ <;> simp
  have f2 : ∀ b ∈ c2, b.2 = false := by
    rcases hc2 with ⟨rfl, -⟩ | ⟨x, rfl⟩ <;> simp
  obtain ⟨t, ht⟩ : ∃ t, t = tot c1 + k + tot c2 := ⟨_, rfl⟩
  rw [← ht] at hw htl
  have hsame : ∀ i, (i < tot l * B ∨ (tot l + t) * B ≤ i) → h'.mem i = w.heap.mem i := by
    intro i hi
    exact hw.same i (by rw [hbl]; exact hi)
  have hmid : tot (c1 ++ (k, true) :: c2) = t := by rw [tot_append, tot]; omega
  have e' : bs = l ++ (c1 ++ (k, true) :: c2) ++ r := by rw [e]; simp
  have hT := I.tiles
  rw [e', tiles_append, tiles_append] at hT
  obtain ⟨⟨t1, -⟩, t3⟩ := hT
  rw [tot_append, hmid, Nat.zero_add] at t3
  have hM := I.merged
  have hUc : usedAt B (tot l) (c1 ++ (k, true) :: c2) = [(a.ptr, k)] := by
    rw [usedAt_append, usedAt_free _ _ c1 f1, usedAt, usedAt_free _ _ c2 f2, hp', hbl, tot_append]
    simp
  have hU : usedAt B 0 bs = usedAt B 0 l ++ (a.ptr, k) :: usedAt B (tot l + t) r := by
    rw [e', usedAt_append, usedAt_append, tot_append, hmid, Nat.zero_add, hUc]
    simp
  have hU' : usedAt B 0 (l ++ (t, false) :: r) = usedAt B 0 l ++ usedAt B (tot l + t) r := by
    rw [usedAt_append, Nat.zero_add, usedAt]
    simp
  have hlive := I.live
  refine ⟨h', l ++ (t, false) :: r, hf, hw.block.trans hbl, hw.slots.trans hsl,
    hw.hint.trans I.hint, ?_, ?_, ?_, ?_, ?_, ?_⟩
  · rw [tiles_append, Nat.zero_add]
    refine ⟨tiles_congr B (by omega) _ _ l 0 (fun i _ hi => hsame i (.inl ?_)) t1, ?_⟩
    · simpa using hi
    · rw [hbl] at htl
      refine ⟨htl.1, htl.2.1, htl.2.2.1,
        tiles_congr B (by omega) _ _ r _ (fun i hi _ => hsame i (.inr hi)) t3⟩
  · have := I.total
    rw [e', tot_append, tot_append, hmid] at this
    rw [tot_append, tot]
    omega
  · rw [e'] at hM
    rw [merged_append, merged_append] at hM
    obtain ⟨⟨m1, m2, m3⟩, m4, m5⟩ := hM
    rw [merged_append]
    refine ⟨m1, ?_, ?_⟩
    · rw [← List.singleton_append, merged_append]
      refine ⟨by simp [Merged], m4, fun x hx y hy => .inr ?_⟩
      rcases hc2 with ⟨-, hr⟩ | ⟨x', rfl⟩
      · exact hr y hy
      · exact (m5 (x', false) (by simp) y hy).resolve_left (by simp)
    · intro x hx y hy
      left
      rcases hc1 with ⟨-, hl⟩ | ⟨x', rfl⟩
      · exact hl x hx
      · exact (m3 x hx (x', false) (by simp)).resolve_right (by simp)
  · rw [hU']
    have hf1 : (w.live.filter fun a' => decide (a'.ptr ≠ a.ptr)).map
          (fun a => (a.ptr, blocks B a.size)) =
        (w.live.map fun a => (a.ptr, blocks B a.size)).filter fun x => decide (x.1 ≠ a.ptr) := by
      rw [List.filter_map]
      rfl
    rw [hf1]
    have hf2 := hlive.filter fun x : Nat × Nat => decide (x.1 ≠ a.ptr)
    rw [hU, List.filter_append, List.filter_cons] at hf2
    have hpw := (usedAt_pairwise B bs 0).2
    rw [hU, List.pairwise_append, List.pairwise_cons] at hpw
    obtain ⟨-, ⟨p1, -⟩, p2⟩ := hpw
    have k1 : 1 ≤ k * B := by
      rw [hk]; exact Nat.mul_pos (I.fits a ha) (by omega)
    have g1 : (usedAt B 0 l).filter (fun x => decide (x.1 ≠ a.ptr)) = usedAt B 0 l := by
      rw [List.filter_eq_self]
      intro x hx
      obtain ⟨l', r', el, hxp⟩ := mem_usedAt B l 0 x.1 x.2 hx
      have := p2 x hx (a.ptr, k) (by simp)
      have hx1 : 1 ≤ x.2 := by
        have := t1
        rw [el, tiles_append] at this
        exact this.2.1
      have : 1 ≤ x.2 * B := Nat.mul_pos hx1 (by omega)
      simp only [decide_eq_true_eq]
      omega
    have g2 : (usedAt B (tot l + t) r).filter (fun x => decide (x.1 ≠ a.ptr)) =
        usedAt B (tot l + t) r := by
      rw [List.filter_eq_self]
      intro x hx
      have := p1 x hx
      simp only [decide_eq_true_eq]
      simp only at this
      omega
    rw [g1, g2] at hf2
    simpa using hf2
  · intro a' ha'
    exact I.fits a' (List.mem_filter.mp ha').1
  · intro a' ha' off v hd
    obtain ⟨hm, hne⟩ := List.mem_filter.mp ha'
    simp only [ne_eq, decide_not, Bool.not_eq_true', decide_eq_false_iff_not] at hne
    obtain ⟨d1, d2⟩ := I.data a' hm off v hd
    refine ⟨d1, ?_⟩
    have := data_kept B n w bs I hB l _ r e' a' hm (by
      rw [hUc]
      simp only [List.mem_singleton, Prod.mk.injEq, not_and]
      intro hh
      exact absurd hh hne) off d1
    rw [hmid] at this
    rw [← d2]
    exact hsame _ this

/-- What a write of the user does. -/
theorem write_inv (B n : Nat) (w : World) (bs : List Seg) (I : Inv B n w bs) (hB : 2 ≤ B)
    (a : Alloc) (ha : a ∈ w.live) (off : Nat) (ho : off < words a.size) (v : Int)
    (hv1 : -32768 ≤ v) (hv2 : v < 32768) :
    ∃ h', w.heap.store (a.ptr + off) v = some h' ∧
      Inv B n ⟨h', w.live.map (record a.ptr off v)⟩ bs := by
  obtain ⟨l, r, e, hp⟩ := live_mem B n w bs I a ha
  obtain ⟨k, hk⟩ : ∃ k, k = blocks B a.size := ⟨_, rfl⟩
  rw [← hk] at e
  have hw := (blocks_words B a.size hB).2
  rw [← hk] at hw
  have hbl := I.block
  have hsl := I.slots
  have ht : tot l + (k + tot r) = n := by
    rw [← I.total, e, tot_append]; rfl
  have b1 : (tot l + k) * B ≤ n * B := Nat.mul_le_mul_right _ (by omega)
  have e1 : (tot l + k) * B = tot l * B + k * B := by ring
  have hin : a.ptr + off < w.heap.fin := by
    unfold Heap.fin
    rw [hbl, hsl]
    omega
  refine ⟨_, store_ok _ _ _ hin hv1 hv2, hbl, hsl, I.hint, ?_, I.total, I.merged, ?_, ?_, ?_⟩
  · -- the markers are not hit
    have hT := I.tiles
    rw [e, tiles_append] at hT ⊢
    rw [Nat.zero_add] at hT ⊢
    obtain ⟨t1, h1, h2, h3, t2⟩ := hT
    simp only at h1 h2 h3 t2 ⊢
    refine ⟨tiles_congr B (by omega) _ _ l 0 (fun i _ hi => ?_) t1, h1, ?_, ?_,
      tiles_congr B (by omega) _ _ r _ (fun i hi _ => ?_) t2⟩
    · rw [if_neg]
      rw [Nat.zero_add] at hi
      omega
    · simp only
      rw [if_neg (by omega)]; exact h2
    · simp only
      rw [if_neg (by omega)]; exact h3
    · simp only at hi
      rw [if_neg (by omega)]
  · have : (w.live.map (record a.ptr off v)).map (fun a => (a.ptr, blocks B a.size)) =
        w.live.map (fun a => (a.ptr, blocks B a.size)) := by
      rw [List.map_map]
      refine List.map_congr_left fun x _ => ?_
      simp only [Function.comp, record]
      split <;> rfl
    simp only [this]
    exact I.live
  · intro x hx
    obtain ⟨y, hy, rfl⟩ := List.mem_map.mp hx
    have := I.fits y hy
    unfold record
    split <;> exact this
  · intro x hx i u hd
    obtain ⟨y, hy, rfl⟩ := List.mem_map.mp hx
    by_cases hyp : y.ptr = a.ptr
    · have hya : y = a := ptr_inj B n w bs I hB y a hy ha hyp
      subst hya
      unfold record at hd ⊢
      rw [if_pos rfl] at hd ⊢
      simp only at hd ⊢
      by_cases hio : i = off
      · subst hio
        rw [if_pos rfl, Option.some.injEq] at hd
        rw [if_pos rfl]
        exact ⟨ho, hd⟩
      · rw [if_neg hio] at hd
        rw [if_neg (by omega)]
        exact I.data y hy i u hd
    · unfold record at hd ⊢
      rw [if_neg hyp] at hd ⊢
      obtain ⟨d1, d2⟩ := I.data y hy i u hd
      refine ⟨d1, ?_⟩
      simp only
      rw [if_neg, d2]
      have hin' := data_kept B n w bs I hB l [(k, true)] r (by simp [e]) y hy (by
        simp only [usedAt, if_true, List.mem_singleton, Prod.mk.injEq, not_and]
        intro hh
        rw [← hp] at hh
        exact absurd hh hyp) i d1
      simp only [tot, Nat.add_zero] at hin'
      omega

theorem step_inv (B n : Nat) (w : World) (bs : List Seg) (I : Inv B n w bs) (hB : 2 ≤ B)
    (h1 : 1 ≤ n) (h2 : n ≤ 32767) (op : Op) (ha : Allowed w op) :
    ∃ w' bs', step w op = some w' ∧ Inv B n w' bs' := by
  cases op with
  | allocate size =>
    simp only [Allowed, I.block] at ha
    rcases allocate_ok B n w bs I hB h1 h2 size ha with ⟨l, k, r, h', -, -, he, hI⟩ | ⟨-, he⟩
    · refine ⟨_, _, ?_, hI⟩
      simp only [step, he, Option.map_some]
      rw [if_neg (by omega)]
    · refine ⟨w, bs, ?_, I⟩
      simp only [step, he, Option.map_some, if_true]
  | free p =>
    rcases ha with rfl | ha
    · refine ⟨⟨w.heap, w.live.filter fun a => a.ptr ≠ 0⟩, bs, by simp [step, free], ?_⟩
      have : (w.live.filter fun a => decide (a.ptr ≠ 0)) = w.live := by
        rw [List.filter_eq_self]
        intro a ha
        obtain ⟨l, r, -, hp⟩ := live_mem B n w bs I a ha
        simp only [decide_eq_true_eq]
        omega
      rw [this]
      exact I
    · obtain ⟨h', bs', he, hI⟩ := free_inv B n w bs I hB h2 p ha
      exact ⟨_, bs', by simp [step, he], hI⟩
  | write p off v =>
    obtain ⟨⟨a, ha, rfl, ho⟩, hv1, hv2⟩ := ha
    obtain ⟨h', he, hI⟩ := write_inv B n w bs I hB a ha off ho v hv1 hv2
    exact ⟨_, bs, by simp [step, he], hI⟩

theorem reach_inv (B n : Nat) (hB : 2 ≤ B) (h1 : 1 ≤ n) (h2 : n ≤ 32767) (w : World)
    (hr : Reach B n w) : ∃ bs, Inv B n w bs := by
  induction hr with
  | init raw h e => exact ⟨_, init_inv B n hB h1 h2 raw h e⟩
  | step w w' op _ a e ih =>
    obtain ⟨bs, I⟩ := ih
    obtain ⟨w'', bs', e', I'⟩ := step_inv B n w bs I hB h1 h2 op a
    rw [e, Option.some.injEq] at e'
    subst e'
    exact ⟨bs', I'⟩

/-! ## C60 -/

/-- However `allocate`, `free` and writes into held allocations follow each other, the allocator
never leaves its heap and never hangs. -/
theorem C60_defined (B n : Nat) (hB : 2 ≤ B) (h1 : 1 ≤ n) (h2 : n ≤ 32767) (w : World)
    (hr : Reach B n w) (op : Op) (ha : Allowed w op) : ∃ w', step w op = some w' := by
  obtain ⟨bs, I⟩ := reach_inv B n hB h1 h2 w hr
  obtain ⟨w', -, e, -⟩ := step_inv B n w bs I hB h1 h2 op ha
  exact ⟨w', e⟩

/-- The allocations held at any time lie inside of the heap, are as long as asked for and do not
overlap. -/
theorem C60_separate (B n : Nat) (hB : 2 ≤ B) (h1 : 1 ≤ n) (h2 : n ≤ 32767) (w : World)
    (hr : Reach B n w) :
    (∀ a ∈ w.live, 1 ≤ a.ptr ∧ a.ptr + words a.size + 1 ≤ n * B) ∧
    w.live.Pairwise fun a b =>
      a.ptr + words a.size ≤ b.ptr ∨ b.ptr + words b.size ≤ a.ptr := by
  obtain ⟨bs, I⟩ := reach_inv B n hB h1 h2 w hr
  constructor
  · intro a ha
    obtain ⟨l, r, e, hp⟩ := live_mem B n w bs I a ha
    have hw := (blocks_words B a.size hB).2
    have ht : tot l + (blocks B a.size + tot r) = n := by
      rw [← I.total, e, tot_append]; rfl
    have b1 : (tot l + blocks B a.size) * B ≤ n * B := Nat.mul_le_mul_right _ (by omega)
    have e1 : (tot l + blocks B a.size) * B = tot l * B + blocks B a.size * B := by ring
    omega
  · refine (live_pairwise B n w bs I).imp ?_
    intro a b h
    have := (blocks_words B a.size hB).2
    have := (blocks_words B b.size hB).2
    omega

/-- What the user wrote into an allocation stays there until it is freed. -/
theorem C60_keeps_data (B n : Nat) (hB : 2 ≤ B) (h1 : 1 ≤ n) (h2 : n ≤ 32767) (w : World)
    (hr : Reach B n w) (a : Alloc) (ha : a ∈ w.live) (off : Nat) (v : Int)
    (hd : a.data off = some v) : w.heap.load (a.ptr + off) = some v := by
  obtain ⟨bs, I⟩ := reach_inv B n hB h1 h2 w hr
  obtain ⟨d1, d2⟩ := I.data a ha off v hd
  have hs := (C60_separate B n hB h1 h2 w hr).1 a ha
  rw [load_ok, d2]
  unfold Heap.fin
  rw [I.block, I.slots]
  omega

/-- Every allocation is aligned like `MODM_ALIGNMENT` demands: to 8 bytes, or to 4 bytes, when the
size of a block is a multiple of that. -/
theorem C60_aligned (eight : Bool) (B n : Nat) (hB : 2 ≤ B)
    (hal : (if eight then 8 else 4) ∣ B * 2) (h1 : 1 ≤ n) (h2 : n ≤ 32767) (w : World)
    (hr : Reach B n w) (heapStart : Nat) (a : Alloc) (ha : a ∈ w.live) :
    (if eight then 8 else 4) ∣ alignPointer eight heapStart + 2 * a.ptr := by
  obtain ⟨bs, I⟩ := reach_inv B n hB h1 h2 w hr
  obtain ⟨l, r, -, hp⟩ := live_mem B n w bs I a ha
  obtain ⟨d, hd⟩ := hal
  have e : 2 * a.ptr = (if eight then 8 else 4) * (tot l * d) + 2 := by
    rw [hp]
    have : 2 * (tot l * B + 1) = tot l * (B * 2) + 2 := by ring
    rw [this, hd]; ring
  rw [e]
  cases eight with
  | true =>
    simp only [if_true, alignPointer]
    have hc : heapStart % 8 < 8 := Nat.mod_lt _ (by omega)
    obtain ⟨m, hm⟩ : ∃ m, m = heapStart % 8 := ⟨_, rfl⟩
    rw [← hm] at hc ⊢
    interval_cases m <;> simp <;> omega
  | false =>
    simp only [Bool.false_eq_true, if_false, alignPointer]
    have hc : heapStart % 4 < 4 := Nat.mod_lt _ (by omega)
    obtain ⟨m, hm⟩ : ∃ m, m = heapStart % 4 := ⟨_, rfl⟩
    rw [← hm] at hc ⊢
    interval_cases m <;> simp <;> omega

/-- The restriction on the size is needed: a request close to `SIZE_MAX` wraps around, and gets a
block of 12 bytes. -/
theorem C60_huge_request_counterexample :
    (init 8 3 fun _ => 0).bind (fun h => (allocate h (2 ^ 32 - 2)).map (·.2)) = some 1 := by
  decide +kernel

/-- The restriction on the number of blocks is needed: with 40000 blocks the first marker reads as
a run in use, and the first `allocate` never returns. -/
theorem C60_large_heap_counterexample :
    ∃ h, init 8 40000 (fun _ => 0) = some h ∧ allocate h 1 = none := by
  refine ⟨_, rfl, ?_⟩
  decide +kernel

/-! ## C61 -/

theorem gap (B need : Nat) (hB : 2 ≤ B) (hn : 1 ≤ need) (bs : List Seg) : ∀ (o s : Nat),
    Merged bs → (∀ b ∈ bs, 1 ≤ b.1) → (∀ b ∈ bs, b.2 = false → b.1 < need) → o ≤ s →
    s + need ≤ o + tot bs →
    ∃ x ∈ usedAt B o bs, x.1 - 1 < (s + need) * B ∧ s * B < x.1 - 1 + x.2 * B := by
  induction bs with
  | nil => intro o s _ _ _ _ h; simp [tot] at h; omega
  | cons b bs ih =>
    intro o s hm hpos hall hos hsum
    obtain ⟨k, u⟩ := b
    simp only [tot] at hsum
    have hm' : Merged bs := by
      rw [← List.singleton_append, merged_append] at hm
      exact hm.2.1
    have ih' := ih (o + k) s hm' (fun b hb => hpos b (by simp [hb]))
      (fun b hb => hall b (by simp [hb]))
    cases u with
    | true =>
      simp only [usedAt, if_true]
      by_cases hs : s < o + k
      · refine ⟨_, List.mem_cons_self, ?_, ?_⟩
        · have : (o + 1) * B ≤ (s + need) * B := Nat.mul_le_mul_right _ (by omega)
          have e : (o + 1) * B = o * B + B := by ring
          simp only [Nat.add_sub_cancel]
          omega
        · have : (s + 1) * B ≤ (o + k) * B := Nat.mul_le_mul_right _ (by omega)
          have e : (s + 1) * B = s * B + B := by ring
          have e2 : (o + k) * B = o * B + k * B := by ring
          simp only [Nat.add_sub_cancel]
          omega
      · obtain ⟨x, hx, hx'⟩ := ih' (by omega) (by omega)
        exact ⟨x, List.mem_cons_of_mem _ hx, hx'⟩
    | false =>
      simp only [usedAt, Bool.false_eq_true, if_false]
      by_cases hs : s < o + k
      · have hk := hall (k, false) (by simp) rfl
        simp only at hk
        cases bs with
        | nil => simp [tot] at hsum; omega
        | cons b' bs' =>
          obtain ⟨k', u'⟩ := b'
          have hu : u' = true := by
            rw [← List.singleton_append, merged_append] at hm
            exact (hm.2.2 (k, false) (by simp) (k', u') (by simp)).resolve_left (by simp)
          subst hu
          have hk' := hpos (k', true) (by simp)
          simp only at hk'
          refine ⟨((o + k) * B + 1, k'), by simp [usedAt], ?_, ?_⟩
          · have : (o + k + 1) * B ≤ (s + need) * B := Nat.mul_le_mul_right _ (by omega)
            have e : (o + k + 1) * B = (o + k) * B + B := by ring
            simp only [Nat.add_sub_cancel]
            omega
          · have : (s + 1) * B ≤ (o + k) * B := Nat.mul_le_mul_right _ (by omega)
            have e : (s + 1) * B = s * B + B := by ring
            simp only [Nat.add_sub_cancel]
            omega
      · exact ih' (by omega) (by omega)

theorem tiles_pos (B : Nat) (mem : Nat → Int) (bs : List Seg) : ∀ s, Tiles B mem s bs →
    ∀ b ∈ bs, 1 ≤ b.1 := by
  induction bs with
  | nil => intro s _ b hb; simp at hb
  | cons x xs ih =>
    intro s h b hb
    rcases List.mem_cons.mp hb with rfl | hb
    · exact h.1
    · exact ih _ h.2.2.2 b hb

/-- `allocate` answers with the null pointer only if there is no gap for the request: every
stretch of as many blocks as the request takes meets an allocation that is still held. -/
theorem C61_fails_only_without_gap (B n : Nat) (hB : 2 ≤ B) (h1 : 1 ≤ n) (h2 : n ≤ 32767)
    (w : World) (hr : Reach B n w) (size : Nat) (hs : Allowed w (.allocate size)) (h' : Heap)
    (hf : allocate w.heap size = some (h', 0)) (s : Nat) (hsn : s + blocks B size ≤ n) :
    ∃ a ∈ w.live, a.ptr - 1 < (s + blocks B size) * B ∧
      s * B < a.ptr - 1 + blocks B a.size * B := by
  obtain ⟨bs, I⟩ := reach_inv B n hB h1 h2 w hr
  simp only [Allowed, I.block] at hs
  rcases allocate_ok B n w bs I hB h1 h2 size hs with ⟨l, k, r, h'', -, -, he, -⟩ | ⟨hall, -⟩
  · rw [hf, Option.some.injEq, Prod.mk.injEq] at he
    omega
  · obtain ⟨x, hx, hx1, hx2⟩ := gap B _ hB (blocks_words B size hB).1 bs 0 s I.merged
      (tiles_pos _ _ _ _ I.tiles) hall (by omega) (by rw [I.total]; omega)
    obtain ⟨a, ha, rfl⟩ := List.mem_map.mp (I.live.mem_iff.mpr hx)
    exact ⟨a, ha, hx1, hx2⟩

/-- Once everything is freed the heap is in one piece again. -/
theorem C61_all_freed (B n : Nat) (hB : 2 ≤ B) (h1 : 1 ≤ n) (h2 : n ≤ 32767) (w : World)
    (hr : Reach B n w) (hl : w.live = []) (size : Nat) (hs : Allowed w (.allocate size))
    (hsz : blocks B size ≤ n) : ∃ h' p, p ≠ 0 ∧ allocate w.heap size = some (h', p) := by
  obtain ⟨w', e⟩ := C60_defined B n hB h1 h2 w hr _ hs
  simp only [step, Option.map_eq_some_iff] at e
  obtain ⟨⟨h', p⟩, e, -⟩ := e
  refine ⟨h', p, ?_, e⟩
  rintro rfl
  obtain ⟨a, ha, -⟩ := C61_fails_only_without_gap B n hB h1 h2 w hr size hs h' e 0 (by omega)
  rw [hl] at ha
  simp at ha

/-- The blocks in free runs. -/
def freeTot : List Seg → Nat
  | [] => 0
  | b :: bs => (if b.2 then 0 else b.1) + freeTot bs

theorem freeTot_used (B : Nat) (bs : List Seg) : ∀ s,
    freeTot bs + ((usedAt B s bs).map (·.2)).sum = tot bs := by
  induction bs with
  | nil => intro s; simp [freeTot, usedAt, tot]
  | cons b bs ih =>
    intro s
    obtain ⟨k, u⟩ := b
    have := ih (s + k)
    cases u <;> simp [freeTot, usedAt, tot] <;> omega

theorem available_ok (h : Heap) (hB : 2 ≤ h.block) : ∀ (bs : List Seg) (s fuel : Nat), bs ≠ [] →
    bs.length < fuel → Tiles h.block h.mem s bs → s + tot bs = h.slots →
    available fuel h (s * h.block) = some (freeTot bs * h.block * 2) := by
  intro bs
  induction bs with
  | nil => intro s fuel hne; exact absurd rfl hne
  | cons b bs ih =>
    intro s fuel _ hf ht hsum
    obtain ⟨k, u⟩ := b
    obtain ⟨h1, h2, h3, h4⟩ := ht
    simp only [tot] at hsum h1 h4
    cases fuel with
    | zero => omega
    | succ fuel =>
      have q1 : (s + k) * h.block ≤ h.slots * h.block := Nat.mul_le_mul_right _ (by omega)
      have e1 : (s + k) * h.block = s * h.block + k * h.block := by ring
      have q2 : 1 ≤ k * h.block := Nat.mul_pos h1 (by omega)
      have hlt : s * h.block < h.fin := by unfold Heap.fin; omega
      rw [available, load_ok _ _ hlt, Option.bind_some, h2]
      have n0 : tag (k, u) ≠ 0 := by cases u <;> simp [tag] <;> omega
      have na : (tag (k, u)).natAbs = k := by cases u <;> simp [tag]
      have neg : (tag (k, u) < 0) ↔ u = false := by cases u <;> simp [tag]; omega
      rw [if_neg n0]
      simp only [na, neg]
      by_cases hb : bs = []
      · subst hb
        simp only [tot, Nat.add_zero] at hsum
        rw [if_neg (by unfold Heap.fin; rw [← hsum]; omega)]
        cases u <;> simp [freeTot]
      · have : 1 ≤ tot bs := by
          have := length_le_tot _ _ _ _ h4
          have := List.length_pos_iff.mpr hb
          omega
        have q3 : (s + k + 1) * h.block ≤ h.slots * h.block := Nat.mul_le_mul_right _ (by omega)
        have e3 : (s + k + 1) * h.block = s * h.block + k * h.block + h.block := by ring
        rw [if_pos (by unfold Heap.fin; omega), ← e1,
          ih (s + k) fuel hb (by simp at hf; omega) h4 (by omega), Option.map_some]
        cases u <;> simp [freeTot] <;> ring

/-- `getAvailableSize` reports exactly the blocks that no held allocation takes, in bytes. -/
theorem C61_available (B n : Nat) (hB : 2 ≤ B) (h1 : 1 ≤ n) (h2 : n ≤ 32767) (w : World)
    (hr : Reach B n w) :
    ∃ freeBlocks, getAvailableSize w.heap = some (freeBlocks * B * 2) ∧
      freeBlocks + (w.live.map fun a => blocks B a.size).sum = n := by
  obtain ⟨bs, I⟩ := reach_inv B n hB h1 h2 w hr
  have hne : bs ≠ [] := by rintro rfl; have := I.total; simp [tot] at this; omega
  have hlen := length_le_tot _ _ _ _ I.tiles
  have ht := I.total
  have hbl := I.block
  have hsl := I.slots
  refine ⟨freeTot bs, ?_, ?_⟩
  · have := available_ok w.heap (by omega) bs 0 (w.heap.slots + 1) hne (by omega)
      (by rw [hbl]; exact I.tiles) (by omega)
    rw [Nat.zero_mul, hbl] at this
    exact this
  · have hp := (I.live.map (fun x : Nat × Nat => x.2)).sum_nat
    rw [List.map_map] at hp
    have := freeTot_used B bs 0
    rw [← hp] at this
    rw [← ht, ← this]
    rfl

/-- The example of block_allocator_impl.hpp:38-60, and a longer one: two allocations, the first one
freed, its blocks used again, and a request that finds no gap. -/
example : (init 8 3 fun _ => 0).bind (fun h => (step ⟨h, []⟩ (.allocate 12)).bind fun w =>
    (step w (.allocate 28)).bind fun w => (step w (.free 1)).bind fun w =>
    (step w (.allocate 13)).bind fun w => (step w (.write 9 3 (-5))).bind fun w =>
    (step w (.allocate 5)).map fun w => (w.live.map (·.ptr), getAvailableSize w.heap)) =
    some ([1, 9], some 0) := by
  decide +kernel

/-- Worlds with allocations are reachable. -/
example : ∃ w, Reach 8 3 w ∧ w.live.map (·.size) = [12] := by
  refine ⟨_, Reach.step ⟨_, []⟩ _ (.allocate 12) (Reach.init (fun _ => 0) _ rfl) ?_ rfl, ?_⟩
  · show 12 + 4 + (8 * 2 - 1) < 2 ^ 32
    omega
  · decide +kernel

end Props.BlockAllocator
