import Verif.Spec.AvrHeap
import Verif.Props.BlockAllocator

set_option autoImplicit false

/-!
# Theorems about `malloc` and `free` on AVR (C275)
-/

namespace Props.AvrHeap

open Model.AvrHeap Spec.AvrHeap
open Props.BlockAllocator (Seg tag tot Tiles usedAt tot_append tiles_append usedAt_append length_le_tot tiles_congr mem_usedAt usedAt_pairwise usedAt_free front back last_marker)

theorem int8_self (v : Int) (h1 : -128 ≤ v) (h2 : v < 128) : int8 v = v := by unfold int8; omega

/-- The slots for a request: two markers and the bytes, rounded up. -/
def slots (B size : Nat) : Nat := (size + 2 + (B - 1)) / B

theorem slots_bytes (B size : Nat) (hB : 2 ≤ B) : 1 ≤ slots B size ∧ size + 2 ≤ slots B size * B := by
  unfold slots
  have h := Nat.lt_div_mul_add (a := size + 2 + (B - 1)) (b := B) (by omega)
  have h2 : size + 2 ≤ (size + 2 + (B - 1)) / B * B := by omega
  refine ⟨?_, h2⟩
  rcases Nat.eq_zero_or_pos ((size + 2 + (B - 1)) / B) with h0 | h0
  · rw [h0] at h2; omega
  · exact h0

theorem needed_eq (B P size : Nat) (hB : 2 ≤ B) (hP : P ≤ 126) (hs : size ≤ P * B) : neededSlots B size = slots B size ∧ slots B size ≤ P + 1 := by
  have hle : slots B size ≤ P + 1 := by
    unfold slots
    have : size + 2 + (B - 1) < (P + 2) * B := by
      have e : (P + 2) * B = P * B + 2 * B := by ring
      omega
    have := Nat.div_lt_of_lt_mul (show size + 2 + (B - 1) < B * (P + 2) by rw [Nat.mul_comm]; exact this)
    omega
  refine ⟨?_, hle⟩
  have hd := Nat.div_add_mod (size + 2) B
  have hm := Nat.mod_lt (size + 2) (show 0 < B by omega)
  have e : (size + 2) / B + (if (size + 2) % B ≠ 0 then 1 else 0) = slots B size := by
    unfold slots
    symm
    by_cases h0 : (size + 2) % B = 0
    · rw [if_neg (by simpa using h0)]
      rw [Nat.div_eq_iff (by omega)]
      have : B * ((size + 2) / B) = (size + 2) / B * B := Nat.mul_comm _ _
      simp only [Nat.add_zero]
      constructor
      · omega
      · omega
    · rw [if_pos h0]
      rw [Nat.div_eq_iff (by omega)]
      have : B * ((size + 2) / B) = (size + 2) / B * B := Nat.mul_comm _ _
      have e2 : ((size + 2) / B + 1) * B = (size + 2) / B * B + B := by ring
      constructor
      · omega
      · omega
  unfold neededSlots
  rw [e, Nat.mod_eq_of_lt (by omega)]

/-! ## The loop -/

theorem search_ok (need : Nat) (h : Heap) (hB : 2 ≤ h.block) :
    ∀ (bs : List Seg) (s fuel : Nat), bs ≠ [] → bs.length < fuel → Tiles h.block h.mem s bs →
      (s + tot bs) * h.block = h.cur → (∀ b ∈ bs, b.1 ≤ 127) →
      (∃ l1 k l2, bs = l1 ++ (k, false) :: l2 ∧ need ≤ k ∧
        search h need fuel (s * h.block) = some (.slot ((s + tot l1) * h.block) k)) ∨
      ((∀ b ∈ bs, b.2 = false → b.1 < need) ∧ search h need fuel (s * h.block) = some (.last h.cur)) := by
  intro bs
  induction bs with
  | nil => intro s fuel hne; exact absurd rfl hne
  | cons b bs ih =>
    intro s fuel _ hf ht hsum hsm
    obtain ⟨k, u⟩ := b
    obtain ⟨h1, h2, h3, h4⟩ := ht
    have hk := hsm (k, u) (by simp)
    simp only [tot] at hsum h1 h4 hk
    cases fuel with
    | zero => omega
    | succ fuel =>
      have e1 : (s + k) * h.block = s * h.block + k * h.block := by ring
      have e2 : (s + (k + tot bs)) * h.block = s * h.block + k * h.block + tot bs * h.block := by ring
      have q2 : 1 ≤ k * h.block := Nat.mul_pos h1 (by omega)
      have eq : ((s * h.block : Nat) : Int) + (k : Int) * h.block = ((s * h.block + k * h.block : Nat) : Int) := by push_cast; ring
      have hnext : bs ≠ [] → s * h.block + k * h.block < h.cur := by
        intro hne
        have : 1 ≤ tot bs := by
          have := length_le_tot _ _ _ _ h4
          have := List.length_pos_iff.mpr hne
          omega
        have : 1 ≤ tot bs * h.block := Nat.mul_pos this (by omega)
        omega
      have hstop : bs = [] → s * h.block + k * h.block = h.cur := by
        rintro rfl
        simp only [tot] at e2 hsum
        omega
      have go : (u = false → k < need) →
          (if ((s * h.block : Nat) : Int) + (k : Int) * h.block < 0 then none
            else if (((s * h.block : Nat) : Int) + (k : Int) * h.block).toNat < h.cur then
              search h need fuel (((s * h.block : Nat) : Int) + (k : Int) * h.block).toNat
            else some (.last (((s * h.block : Nat) : Int) + (k : Int) * h.block).toNat)) = search h need (fuel + 1) (s * h.block) →
          (∃ l1 k' l2, (k, u) :: bs = l1 ++ (k', false) :: l2 ∧ need ≤ k' ∧
            search h need (fuel + 1) (s * h.block) = some (.slot ((s + tot l1) * h.block) k')) ∨
          ((∀ b ∈ (k, u) :: bs, b.2 = false → b.1 < need) ∧ search h need (fuel + 1) (s * h.block) = some (.last h.cur)) := by
        intro hku hx
        rw [eq, Int.toNat_natCast, if_neg (by omega)] at hx
        by_cases hb : bs = []
        · right
          have := hstop hb
          rw [if_neg (by omega), this] at hx
          refine ⟨?_, hx.symm⟩
          intro b hbm hbf
          rw [hb] at hbm
          simp only [List.mem_singleton] at hbm
          subst hbm
          exact hku hbf
        · rw [if_pos (hnext hb), ← e1] at hx
          rw [← hx]
          rcases ih (s + k) fuel hb (by simp at hf; omega) h4 (by rw [Nat.add_assoc]; exact hsum) (fun b hb => hsm b (by simp [hb])) with
            ⟨l1, k', l2, e, hk', hs'⟩ | ⟨hall, hs'⟩
          · left
            refine ⟨(k, u) :: l1, k', l2, by simp [e], hk', ?_⟩
            rw [hs']
            simp only [tot, Nat.add_assoc]
          · right
            refine ⟨?_, hs'⟩
            intro b hbm hbf
            rcases List.mem_cons.mp hbm with rfl | hbm
            · exact hku hbf
            · exact hall b hbm hbf
      cases u with
      | false =>
        have ht : tag (k, false) = -(k : Int) := by simp [tag]
        rw [ht] at h2
        have hi : int8 (-(-(k : Int))) = k := by rw [int8_self _ (by omega) (by omega)]; omega
        by_cases hle : need ≤ k
        · left
          refine ⟨[], k, bs, rfl, hle, ?_⟩
          simp only [search, h2, tot, Nat.add_zero]
          rw [if_pos (show -(k : Int) < 0 by omega), hi, if_pos ⟨by omega, by omega⟩, Int.toNat_natCast]
        · refine go (fun _ => by omega) ?_
          simp only [search, h2]
          rw [if_pos (show -(k : Int) < 0 by omega), hi, if_neg (show ¬ (-(k : Int) < 0 ∧ (need : Int) ≤ k) from fun c => hle (by have := c.2; omega))]
      | true =>
        have ht : tag (k, true) = (k : Int) := by simp [tag]
        rw [ht] at h2
        refine go (fun c => by cases c) ?_
        simp only [search, h2]
        rw [if_neg (show ¬ (k : Int) < 0 by omega), if_neg (show ¬ ((k : Int) < 0 ∧ (need : Int) ≤ k) from fun c => by have := c.1; omega)]

/-! ## Markers -/

theorem carve_ok (h : Heap) (s k need : Nat) (hB : 2 ≤ h.block) (hk : k ≤ 127) (hn : 1 ≤ need) (hle : need ≤ k) :
    (∀ i, (i < s * h.block ∨ (s + k) * h.block ≤ i) → (carve h (s * h.block) k need).mem i = h.mem i) ∧
      Tiles h.block (carve h (s * h.block) k need).mem s ((need, true) :: if need < k then [(k - need, false)] else []) := by
  obtain ⟨B, P, L, d, m, c, hi⟩ := h
  simp only at hB ⊢
  have e1 : (s + k) * B = s * B + k * B := by ring
  have b2 : need * B ≤ k * B := Nat.mul_le_mul_right _ hle
  have b3 : 2 ≤ need * B := le_trans hB (Nat.le_mul_of_pos_left _ hn)
  have e2 : (s + need) * B = s * B + need * B := by ring
  unfold carve
  simp only
  by_cases hlt : need < k
  · have b4 : (need + 1) * B ≤ k * B := Nat.mul_le_mul_right _ hlt
    have e3 : (need + 1) * B = need * B + B := by ring
    rw [if_pos hlt, if_pos hlt]
    unfold put
    rw [int8_self _ (by omega) (by omega), int8_self _ (by omega) (by omega)]
    constructor
    · intro i hi
      rw [if_neg (by omega), if_neg (by omega), if_neg (by omega), if_neg (by omega)]
    · have e4 : s + need + (k - need) = s + k := by omega
      have ht : tag (k - need, false) = -((k : Int) - need) := by
        simp only [tag, Bool.false_eq_true, if_false]
        omega
      refine ⟨hn, ?_, ?_, by simp only; omega, ?_, ?_, trivial⟩
      · simp only
        rw [if_neg (by omega), if_neg (by omega), if_neg (by omega), if_pos trivial]; rfl
      · simp only
        rw [e2, if_neg (by omega), if_neg (by omega), if_pos rfl]; rfl
      · simp only
        rw [e2, if_neg (by omega), if_pos rfl, ht]
      · simp only
        rw [e4, e1, if_pos rfl, ht]
  · have hk' : k = need := by omega
    subst hk'
    rw [if_neg hlt, if_neg hlt]
    unfold put
    rw [int8_self _ (by omega) (by omega)]
    refine ⟨?_, hn, ?_, ?_, trivial⟩
    · intro i hi
      rw [if_neg (by omega), if_neg (by omega)]
    · simp only
      rw [if_neg (by omega), if_pos trivial]; rfl
    · simp only
      rw [e2, if_pos rfl]; rfl

/-- The free runs that `free` leaves. -/
def freed (P n : Nat) : List Seg := if P < n then [(P, false), (n - P, false)] else [(n, false)]

theorem freed_tot (P n : Nat) : tot (freed P n) = n := by
  unfold freed
  split <;> simp [tot]
  omega

theorem freed_false (P n : Nat) : ∀ b ∈ freed P n, b.2 = false := by
  unfold freed
  split <;> simp

theorem mark_ok (h : Heap) (s n : Nat) (hB : 2 ≤ h.block) (hP : 1 ≤ h.parts) (hP2 : h.parts ≤ 127) (hn : 1 ≤ n) (hn2 : n ≤ 127 + h.parts) :
    (∀ i, (i < s * h.block ∨ (s + n) * h.block ≤ i) → mark h (s * h.block) n i = h.mem i) ∧
      Tiles h.block (mark h (s * h.block) n) s (freed h.parts n) := by
  obtain ⟨B, P, L, d, m, c, hi⟩ := h
  simp only at hB hP hP2 hn2 ⊢
  have e1 : (s + n) * B = s * B + n * B := by ring
  have e2 : (s + P) * B = s * B + P * B := by ring
  have b3 : 2 ≤ n * B := le_trans hB (Nat.le_mul_of_pos_left _ hn)
  have b5 : 2 ≤ P * B := le_trans hB (Nat.le_mul_of_pos_left _ hP)
  unfold mark freed
  simp only
  by_cases hlt : P < n
  · have b4 : (P + 1) * B ≤ n * B := Nat.mul_le_mul_right _ hlt
    have e3 : (P + 1) * B = P * B + B := by ring
    rw [if_pos hlt, if_pos hlt]
    unfold put
    rw [int8_self (-(P : Int)) (by omega) (by omega), int8_self (-((n : Int) - P)) (by omega) (by omega)]
    constructor
    · intro i hi
      rw [if_neg (by omega), if_neg (by omega), if_neg (by omega), if_neg (by omega)]
    · have e4 : s + P + (n - P) = s + n := by omega
      have ht : tag (n - P, false) = -((n : Int) - P) := by
        simp only [tag, Bool.false_eq_true, if_false]
        omega
      refine ⟨hP, ?_, ?_, by simp only; omega, ?_, ?_, trivial⟩
      · simp only
        rw [if_neg (by omega), if_neg (by omega), if_neg (by omega), if_pos trivial]; simp [tag]
      · simp only
        rw [e2, if_neg (by omega), if_neg (by omega), if_pos rfl]; simp [tag]
      · simp only
        rw [e2, if_neg (by omega), if_pos rfl, ht]
      · simp only
        rw [e4, e1, if_pos rfl, ht]
  · rw [if_neg hlt, if_neg hlt]
    unfold put
    rw [int8_self (-(n : Int)) (by omega) (by omega)]
    refine ⟨?_, hn, ?_, ?_, trivial⟩
    · intro i hi
      rw [if_neg (by omega), if_neg (by omega)]
    · simp only
      rw [if_neg (by omega), if_pos trivial]; simp [tag]
    · simp only
      rw [e1, if_pos rfl]; simp [tag]

/-! ## Neighbours -/

theorem above_ok (h : Heap) (s : Nat) (c r : List Seg) (hcur : (s + tot (c ++ r)) * h.block = h.cur) (hbeyond : 0 ≤ h.mem h.cur)
    (hc : (c = [] ∧ (∀ b, r.head? = some b → b.2 = true)) ∨ ∃ k, c = [(k, false)])
    (ht : Tiles h.block h.mem s (c ++ r)) : runAbove h (s * h.block) = tot c := by
  unfold runAbove
  rcases hc with ⟨rfl, hr⟩ | ⟨k, rfl⟩
  · cases r with
    | nil =>
      simp only [List.append_nil, tot, Nat.add_zero] at hcur
      rw [hcur, if_neg (by omega)]
      rfl
    | cons b r =>
      have hb := hr b rfl
      have h2 := ht.2.1
      rw [h2]
      have : ¬ tag b < 0 := by unfold tag; rw [hb]; simp
      rw [if_neg this]
      rfl
  · have h2 := ht.2.1
    have h1 := ht.1
    simp only at h1
    rw [h2]
    have : tag (k, false) = -(k : Int) := by simp [tag]
    rw [this, if_pos (by omega)]
    simp [tot]

theorem below_ok (h : Heap) (hB : 2 ≤ h.block) (hd : h.dummy = 0) (l c : List Seg)
    (hc : (c = [] ∧ (∀ b, l.getLast? = some b → b.2 = true)) ∨ ∃ k, c = [(k, false)])
    (ht : Tiles h.block h.mem 0 (l ++ c)) : runBelow h (tot (l ++ c) * h.block) = tot c := by
  unfold runBelow
  rcases hc with ⟨rfl, hr⟩ | ⟨k, rfl⟩
  · rcases List.eq_nil_or_concat l with rfl | ⟨l', b, rfl⟩
    · simp [tot, hd]
    · simp only [List.concat_eq_append, List.append_nil] at ht ⊢
      obtain ⟨h1, h2⟩ := last_marker _ _ _ _ ht
      have q : 1 ≤ tot (l' ++ [b]) := by rw [tot_append]; simp [tot]; omega
      have q2 : 1 ≤ tot (l' ++ [b]) * h.block := Nat.mul_pos q (by omega)
      rw [if_neg (show ¬ tot (l' ++ [b]) * h.block = 0 by omega), h2]
      have hb := hr b (by simp)
      have : ¬ tag b < 0 := by unfold tag; rw [hb]; simp
      simp only [this, if_false]
      rfl
  · obtain ⟨h1, h2⟩ := last_marker _ _ _ _ ht
    simp only at h1
    have q : 1 ≤ tot (l ++ [(k, false)]) := by rw [tot_append]; simp [tot]; omega
    have q2 : 1 ≤ tot (l ++ [(k, false)]) * h.block := Nat.mul_pos q (by omega)
    rw [if_neg (show ¬ tot (l ++ [(k, false)]) * h.block = 0 by omega), h2]
    have : tag (k, false) = -(k : Int) := by simp [tag]
    simp only [this]
    rw [if_pos (by omega)]
    simp [tot]

/-! ## Invariant -/

structure Inv (B P L : Nat) (raw : Nat → Int) (w : World) (bs : List Seg) : Prop where
  block : w.heap.block = B
  parts : w.heap.parts = P
  limit : w.heap.limit = L
  dummy : w.heap.dummy = 0
  hint : w.heap.hint = 0
  ne : bs ≠ []
  tiles : Tiles B w.heap.mem 0 bs
  cur : w.heap.cur = tot bs * B
  room : tot bs * B ≤ L
  small : ∀ b ∈ bs, b.1 ≤ 127
  beyond : ∀ i, tot bs * B ≤ i → w.heap.mem i = raw i
  live : (w.live.map fun a => (a.ptr, slots B a.size)).Perm (usedAt B 0 bs)
  data : ∀ a ∈ w.live, ∀ off v, a.data off = some v → off < a.size ∧ w.heap.mem (a.ptr + off) = v

/-- The settings for which the markers hold the lengths. -/
structure Fits (B P L : Nat) (raw : Nat → Int) : Prop where
  block : 2 ≤ B
  one : 1 ≤ P
  parts : P ≤ 126
  start : P * B ≤ L
  size : L / B ≤ 127 + P
  zero : ∀ i, 0 ≤ raw i

variable {B P L : Nat} {raw : Nat → Int} {w : World} {bs : List Seg}

theorem tot_le (F : Fits B P L raw) (I : Inv B P L raw w bs) : tot bs ≤ 127 + P :=
  le_trans ((Nat.le_div_iff_mul_le (by have := F.block; omega)).2 I.room) F.size

theorem live_mem (I : Inv B P L raw w bs) (a : Alloc) (ha : a ∈ w.live) :
    ∃ l r, bs = l ++ (slots B a.size, true) :: r ∧ a.ptr = tot l * B + 1 := by
  have h : (a.ptr, slots B a.size) ∈ usedAt B 0 bs := I.live.mem_iff.mp (List.mem_map.mpr ⟨a, ha, rfl⟩)
  obtain ⟨l, r, e, hp⟩ := mem_usedAt B bs 0 _ _ h
  exact ⟨l, r, e, by simpa using hp⟩

theorem live_pairwise (I : Inv B P L raw w bs) :
    w.live.Pairwise fun a b => a.ptr + slots B a.size * B ≤ b.ptr ∨ b.ptr + slots B b.size * B ≤ a.ptr := by
  have h := (usedAt_pairwise B bs 0).2
  have h' : (usedAt B 0 bs).Pairwise (fun x y : Nat × Nat => x.1 + x.2 * B ≤ y.1 ∨ y.1 + y.2 * B ≤ x.1) := h.imp fun hx => .inl hx
  have h'' := (I.live.symm.pairwise_iff (fun {x y} hxy => hxy.symm)).mp h'
  rw [List.pairwise_map] at h''
  exact h''

theorem ptr_inj (I : Inv B P L raw w bs) (hB : 2 ≤ B) (a b : Alloc) (ha : a ∈ w.live) (hb : b ∈ w.live) (h : a.ptr = b.ptr) : a = b := by
  by_contra hne
  have : Std.Symm (fun a b : Alloc => a.ptr + slots B a.size * B ≤ b.ptr ∨ b.ptr + slots B b.size * B ≤ a.ptr) := ⟨fun _ _ hxy => hxy.symm⟩
  have hp := (live_pairwise I).forall ha hb hne
  have h1 : 1 ≤ slots B a.size * B := Nat.mul_pos (slots_bytes B a.size hB).1 (by omega)
  have h2 : 1 ≤ slots B b.size * B := Nat.mul_pos (slots_bytes B b.size hB).1 (by omega)
  omega

theorem data_kept (I : Inv B P L raw w bs) (hB : 2 ≤ B) (l c r : List Seg) (hbs : bs = l ++ c ++ r) (a : Alloc) (ha : a ∈ w.live)
    (hc : (a.ptr, slots B a.size) ∉ usedAt B (tot l) c) (off : Nat) (ho : off < a.size) :
    a.ptr + off < tot l * B ∨ ((tot l + tot c) * B ≤ a.ptr + off ∧ a.ptr + off < tot bs * B) := by
  have h : (a.ptr, slots B a.size) ∈ usedAt B 0 bs := I.live.mem_iff.mp (List.mem_map.mpr ⟨a, ha, rfl⟩)
  rw [hbs, usedAt_append, usedAt_append, List.mem_append, List.mem_append] at h
  simp only [Nat.zero_add] at h
  have hw := (slots_bytes B a.size hB).2
  rcases h with (h | h) | h
  · left
    obtain ⟨l', r', e, hp⟩ := mem_usedAt B l 0 _ _ h
    have e2 : tot l = tot l' + (slots B a.size + tot r') := by rw [e, tot_append]; rfl
    have e3 : tot l * B = tot l' * B + (slots B a.size * B + tot r' * B) := by rw [e2]; ring
    rw [Nat.zero_add] at hp
    omega
  · exact absurd h hc
  · right
    obtain ⟨l', r', e, hp⟩ := mem_usedAt B r _ _ _ h
    rw [tot_append] at hp
    have e3 : (tot l + tot c + tot l') * B = (tot l + tot c) * B + tot l' * B := by ring
    have e4 : tot bs = tot l + tot c + (tot l' + (slots B a.size + tot r')) := by rw [hbs, tot_append, tot_append, e, tot_append]; rfl
    have e5 : tot bs * B = (tot l + tot c) * B + tot l' * B + (slots B a.size * B + tot r' * B) := by rw [e4]; ring
    omega

theorem init_inv (F : Fits B P L raw) : Inv B P L raw ⟨init B P L raw, []⟩ [(P, false)] := by
  have hB := F.block
  have h1 := F.one
  have h2 := F.parts
  have q : 2 ≤ P * B := le_trans hB (Nat.le_mul_of_pos_left _ h1)
  have i8 : int8 (-(P : Int)) = -(P : Int) := int8_self _ (by omega) (by omega)
  refine ⟨rfl, rfl, rfl, rfl, rfl, by simp, ⟨h1, ?_, ?_, trivial⟩, by simp [init, tot], by simpa [tot] using F.start, by simp; omega, ?_, by simp [usedAt], by simp⟩
  · simp only [init, put, Nat.zero_mul, i8]
    rw [if_neg (by omega), if_pos trivial]
    simp [tag]
  · simp only [init, put, Nat.zero_add, i8]
    rw [if_pos trivial]
    simp [tag]
  · intro i hi
    simp only [tot, Nat.add_zero] at hi
    simp only [init, put]
    rw [if_neg (by omega), if_neg (by omega)]

/-- A run taken from a free one. -/
theorem slot_inv (F : Fits B P L raw) (I : Inv B P L raw w bs) (size : Nat) (l r : List Seg) (k : Nat) (e : bs = l ++ (k, false) :: r)
    (hk : slots B size ≤ k) :
    Inv B P L raw ⟨carve w.heap (tot l * B) k (slots B size), ⟨tot l * B + 1, size, fun _ => none⟩ :: w.live⟩
      (l ++ (slots B size, true) :: ((if slots B size < k then [(k - slots B size, false)] else []) ++ r)) := by
  have hB := F.block
  have hbl := I.block
  have hbw := slots_bytes B size hB
  have hk127 := I.small (k, false) (by rw [e]; simp)
  simp only at hk127
  obtain ⟨hsame, htl⟩ := carve_ok w.heap (tot l) k (slots B size) (by omega) hk127 hbw.1 hk
  rw [hbl] at hsame htl
  have hrest : ∀ x : List Seg, (x = if slots B size < k then [(k - slots B size, false)] else []) →
      tot x = k - slots B size ∧ usedAt B (tot l + slots B size) x = [] ∧ ∀ b ∈ x, b.1 ≤ 127 := by
    intro x hx
    split at hx <;> subst hx <;> simp [tot, usedAt] <;> omega
  obtain ⟨hx1, hx2, hx3⟩ := hrest _ rfl
  have htiles := I.tiles
  rw [e, tiles_append] at htiles
  obtain ⟨t1, t2⟩ := htiles
  have t3 := t2.2.2.2
  simp only [Nat.zero_add] at t3
  have hU : usedAt B 0 bs = usedAt B 0 l ++ usedAt B (tot l + k) r := by
    rw [e, usedAt_append, Nat.zero_add, usedAt]
    simp
  have hU' : usedAt B 0 (l ++ (slots B size, true) :: ((if slots B size < k then [(k - slots B size, false)] else []) ++ r)) =
      usedAt B 0 l ++ (tot l * B + 1, slots B size) :: usedAt B (tot l + k) r := by
    rw [usedAt_append, Nat.zero_add, usedAt]
    simp only [if_true]
    rw [usedAt_append, hx2, hx1, List.nil_append]
    congr 3
    omega
  have htot : tot (l ++ (slots B size, true) :: ((if slots B size < k then [(k - slots B size, false)] else []) ++ r)) = tot bs := by
    rw [tot_append, tot, tot_append, hx1, e, tot_append, tot]; omega
  refine ⟨hbl, I.parts, I.limit, I.dummy, I.hint, by simp, ?_, by rw [htot]; exact I.cur, by rw [htot]; exact I.room, ?_, ?_, ?_, ?_⟩
  · rw [tiles_append]
    refine ⟨tiles_congr B (by omega) _ _ l 0 (fun i _ hi => hsame i (.inl ?_)) t1, ?_⟩
    · simpa using hi
    · simp only [Nat.zero_add]
      rw [← List.cons_append, tiles_append]
      refine ⟨htl, ?_⟩
      have : tot l + tot ((slots B size, true) :: if slots B size < k then [(k - slots B size, false)] else []) = tot l + k := by
        rw [tot, hx1]; omega
      rw [this]
      exact tiles_congr B (by omega) _ _ r _ (fun i hi _ => hsame i (.inr hi)) t3
  · intro b hb
    simp only [List.mem_append, List.mem_cons] at hb
    rcases hb with hb | rfl | hb | hb
    · exact I.small b (by rw [e]; simp [hb])
    · simp only; omega
    · exact hx3 b hb
    · exact I.small b (by rw [e]; simp [hb])
  · intro i hi
    rw [htot] at hi
    rw [← I.beyond i hi]
    refine hsame i (.inr (le_trans (Nat.mul_le_mul_right _ ?_) hi))
    rw [e, tot_append, tot]; omega
  · rw [hU']
    simp only [List.map_cons]
    have := I.live
    rw [hU] at this
    exact (List.Perm.cons _ this).trans List.perm_middle.symm
  · intro a ha off v hd
    rcases List.mem_cons.mp ha with rfl | ha
    · simp at hd
    · obtain ⟨d1, d2⟩ := I.data a ha off v hd
      refine ⟨d1, ?_⟩
      have := data_kept I hB l [(k, false)] r (by simp [e]) a ha (by simp [usedAt]) off d1
      rw [← d2]
      refine hsame _ ?_
      simp only [tot, Nat.add_zero] at this
      rcases this with h | h
      · exact .inl h
      · exact .inr h.1

/-- A run at the end of the heap, over the free run there. -/
theorem extend_inv (F : Fits B P L raw) (I : Inv B P L raw w bs) (size : Nat) (l c : List Seg) (e : bs = l ++ c)
    (hc : (c = [] ∧ (∀ b, l.getLast? = some b → b.2 = true)) ∨ ∃ k, c = [(k, false)]) (hP : slots B size ≤ P + 1) (hlt : tot c < slots B size) :
    (L / B - tot l < slots B size ∧ extend w.heap w.heap.cur (slots B size) = some (w.heap, 0)) ∨
      ∃ h', extend w.heap w.heap.cur (slots B size) = some (h', tot l * B + 1) ∧
        Inv B P L raw ⟨h', ⟨tot l * B + 1, size, fun _ => none⟩ :: w.live⟩ (l ++ [(slots B size, true)]) := by
  have hB := F.block
  have hbl := I.block
  have hbw := slots_bytes B size hB
  have hPP := F.parts
  have ht := I.tiles
  have hroom := I.room
  have htb : tot bs = tot l + tot c := by rw [e, tot_append]
  have ecur : tot bs * B = tot l * B + tot c * B := by rw [htb]; ring
  have hq : (if w.heap.mem (w.heap.cur - 1) < 0 then (w.heap.cur : Int) + w.heap.mem (w.heap.cur - 1) * w.heap.block else (w.heap.cur : Int)) = (tot l * B : Nat) := by
    rw [I.cur, hbl]
    rcases hc with ⟨rfl, hr⟩ | ⟨k, rfl⟩
    · rw [List.append_nil] at e
      subst e
      rcases List.eq_nil_or_concat bs with hh | ⟨l', b, hh⟩
      · exact absurd hh I.ne
      · rw [List.concat_eq_append] at hh
        rw [hh] at ht
        obtain ⟨h1, h2⟩ := last_marker _ _ _ _ ht
        rw [← hh] at h2
        have hb := hr b (by rw [hh]; simp)
        have : ¬ tag b < 0 := by unfold tag; rw [hb]; simp
        rw [h2, if_neg this]
    · rw [e] at ht
      obtain ⟨h1, h2⟩ := last_marker _ _ _ _ ht
      rw [← e] at h2
      simp only at h1
      have ht : tag (k, false) = -(k : Int) := by simp [tag]
      rw [h2, ht, if_pos (by omega), ecur]
      simp only [tot, Nat.add_zero]
      push_cast
      ring
  have hdiv : Int.tdiv ((L : Int) - (tot l * B : Nat)) B = ((L / B - tot l : Nat) : Int) := by
    have h1 : tot l * B ≤ L := by omega
    rw [show (L : Int) - (tot l * B : Nat) = ((L - tot l * B : Nat) : Int) by omega]
    rw [show Int.tdiv ((L - tot l * B : Nat) : Int) (B : Int) = (((L - tot l * B) / B : Nat) : Int) from rfl]
    rw [Nat.mul_comm, Nat.sub_mul_div]
  unfold extend
  simp only [hq]
  rw [if_neg (by omega), I.limit, hbl, hdiv]
  by_cases hfit : slots B size ≤ L / B - tot l
  · right
    rw [if_pos (by omega), Int.toNat_natCast]
    have hN : (tot l + slots B size) * B ≤ L := by
      have : tot l + slots B size ≤ L / B := by omega
      exact le_trans (Nat.mul_le_mul_right _ this) (Nat.div_mul_le_self L B)
    have e2 : (tot l + slots B size) * B = tot l * B + slots B size * B := by ring
    have b3 : 2 ≤ slots B size * B := le_trans hB (Nat.le_mul_of_pos_left _ hbw.1)
    have hcB : tot c * B ≤ slots B size * B := Nat.mul_le_mul_right _ (by omega)
    refine ⟨_, rfl, ?_⟩
    unfold put
    rw [int8_self _ (by omega) (by omega)]
    have hUc : usedAt B (tot l) c = [] := by
      rcases hc with ⟨rfl, -⟩ | ⟨k, rfl⟩ <;> simp [usedAt]
    have hU : usedAt B 0 bs = usedAt B 0 l := by rw [e, usedAt_append, Nat.zero_add, hUc, List.append_nil]
    have hU' : usedAt B 0 (l ++ [(slots B size, true)]) = usedAt B 0 l ++ [(tot l * B + 1, slots B size)] := by
      rw [usedAt_append, Nat.zero_add]; simp [usedAt]
    have htot : tot (l ++ [(slots B size, true)]) = tot l + slots B size := by rw [tot_append]; simp [tot]
    rw [e, tiles_append] at ht
    refine ⟨rfl, I.parts, rfl, I.dummy, I.hint, by simp, ?_, ?_, by rw [htot]; exact hN, ?_, ?_, ?_, ?_⟩
    · rw [tiles_append, Nat.zero_add]
      refine ⟨tiles_congr B (by omega) _ _ l 0 (fun i _ hi => ?_) ht.1, hbw.1, ?_, ?_, trivial⟩
      · rw [Nat.zero_add] at hi
        simp only
        rw [if_neg (by omega), if_neg (by omega)]
      · simp only
        rw [if_neg (by omega), if_pos trivial]
        rfl
      · simp only
        rw [e2, if_pos rfl]
        rfl
    · simp only
      rw [htot, e2]
    · intro b hb
      simp only [List.mem_append, List.mem_singleton] at hb
      rcases hb with hb | rfl
      · exact I.small b (by rw [e]; simp [hb])
      · simp only; omega
    · intro i hi
      rw [htot] at hi
      simp only
      rw [if_neg (by omega), if_neg (by omega)]
      exact I.beyond i (by omega)
    · rw [hU']
      simp only [List.map_cons]
      have := I.live
      rw [hU] at this
      exact (List.Perm.cons _ this).trans (List.perm_append_singleton _ _).symm
    · intro a ha off v hd
      rcases List.mem_cons.mp ha with rfl | ha
      · simp at hd
      · obtain ⟨d1, d2⟩ := I.data a ha off v hd
        refine ⟨d1, ?_⟩
        have := data_kept I hB l c [] (by simp [e]) a ha (by rw [hUc]; simp) off d1
        rw [← htb] at this
        have hlt : a.ptr + off < tot l * B := by
          rcases this with h | h
          · exact h
          · exact absurd h.2 (by have := h.1; omega)
        simp only
        rw [← d2, if_neg (by omega), if_neg (by omega)]
  · left
    rw [if_neg (by omega)]
    exact ⟨by omega, rfl⟩

/-- What `malloc` does. -/
theorem malloc_inv (F : Fits B P L raw) (I : Inv B P L raw w bs) (size : Nat) :
    (∃ h' p bs', allocate w.heap size = some (h', p + 1) ∧ Inv B P L raw ⟨h', ⟨p + 1, size, fun _ => none⟩ :: w.live⟩ bs') ∨
      (allocate w.heap size = some (w.heap, 0) ∧ (0 < size → size ≤ P * B → (∀ b ∈ bs, b.2 = false → b.1 < slots B size) ∧
        ∃ l c, bs = l ++ c ∧ ((c = [] ∧ (∀ b, l.getLast? = some b → b.2 = true)) ∨ ∃ k, c = [(k, false)]) ∧ L / B - tot l < slots B size)) := by
  have hB := F.block
  unfold allocate
  rw [I.parts, I.block]
  by_cases hsz : 0 < size ∧ size ≤ P * B
  · obtain ⟨hn, hle⟩ := needed_eq B P size hB F.parts hsz.2
    rw [if_pos hsz, hn, I.hint]
    have hlen := length_le_tot _ _ _ _ I.tiles
    have hcur : tot bs ≤ w.heap.cur := by rw [I.cur]; exact Nat.le_mul_of_pos_right _ (by omega)
    have hs := search_ok (slots B size) w.heap (by rw [I.block]; exact hB) bs 0 (w.heap.cur + 1) I.ne (by omega)
      (by rw [I.block]; exact I.tiles) (by rw [I.block, Nat.zero_add]; exact I.cur.symm) I.small
    rw [Nat.zero_mul] at hs
    rcases hs with ⟨l, k, r, e, hk, hs⟩ | ⟨hall, hs⟩
    · left
      rw [hs, Nat.zero_add, I.block]
      exact ⟨_, _, _, rfl, slot_inv F I size l r k e hk⟩
    · obtain ⟨l, c, e, hc⟩ := back bs
      have hlt : tot c < slots B size := by
        rcases hc with ⟨rfl, -⟩ | ⟨k, rfl⟩
        · simp only [tot]; exact (slots_bytes B size hB).1
        · have := hall (k, false) (by rw [e]; simp) rfl
          simpa [tot] using this
      rw [hs]
      rcases extend_inv F I size l c e hc hle hlt with ⟨hx, he⟩ | ⟨h', he, hI⟩
      · exact .inr ⟨he, fun _ _ => ⟨hall, l, c, e, hc, hx⟩⟩
      · exact .inl ⟨h', _, _, he, hI⟩
  · right
    rw [if_neg hsz]
    exact ⟨rfl, fun h1 h2 => absurd ⟨h1, h2⟩ hsz⟩

/-- What `free` does. -/
theorem free_inv (F : Fits B P L raw) (I : Inv B P L raw w bs) (p : Nat) (hp : ∃ a ∈ w.live, a.ptr = p) :
    ∃ h' bs', free w.heap p = some h' ∧ Inv B P L raw ⟨h', w.live.filter fun a => a.ptr ≠ p⟩ bs' := by
  have hB := F.block
  have hPP := F.parts
  have hP1 := F.one
  obtain ⟨a, ha, rfl⟩ := hp
  obtain ⟨l1, l2, e, hp⟩ := live_mem I a ha
  obtain ⟨l, c1, e1, hc1⟩ := back l1
  obtain ⟨c2, r, e2, hc2⟩ := front l2
  obtain ⟨k, hk⟩ : ∃ k, k = slots B a.size := ⟨_, rfl⟩
  have k1 : 1 ≤ k := by rw [hk]; exact (slots_bytes B a.size hB).1
  rw [← hk, e1, e2] at e
  have hbl := I.block
  have f1 : ∀ b ∈ c1, b.2 = false := by
    rcases hc1 with ⟨rfl, -⟩ | ⟨x, rfl⟩ <;> simp
  have f2 : ∀ b ∈ c2, b.2 = false := by
    rcases hc2 with ⟨rfl, -⟩ | ⟨x, rfl⟩ <;> simp
  obtain ⟨t, ht⟩ : ∃ t, t = tot c1 + k + tot c2 := ⟨_, rfl⟩
  have htotle := tot_le F I
  have htb : tot bs = tot l + tot c1 + (k + (tot c2 + tot r)) := by rw [e, tot_append, tot_append, tot, tot_append]
  have hmk := mark_ok w.heap (tot l) t (by omega) (by rw [I.parts]; exact hP1) (by rw [I.parts]; omega) (by omega) (by rw [I.parts]; omega)
  rw [hbl, I.parts] at hmk
  obtain ⟨hsame, htl⟩ := hmk
  have hp' : a.ptr = tot (l ++ c1) * w.heap.block + 1 := by rw [hbl, ← e1]; exact hp
  have htiles := I.tiles
  rw [e, tiles_append] at htiles
  obtain ⟨tl, th1, th2, th3, tr⟩ := htiles
  simp only [Nat.zero_add] at th2 tr
  have hfree : free w.heap a.ptr = some { w.heap with mem := mark w.heap (tot l * B) t, hint := 0 } := by
    unfold free
    rw [if_neg (by omega), hp']
    simp only [Nat.add_sub_cancel]
    have htag : tag (k, true) = (k : Int) := by simp [tag]
    rw [htag] at th2
    rw [hbl, th2, if_neg (by omega), Int.toNat_natCast]
    have hab := above_ok w.heap (tot (l ++ c1) + k) c2 r (by
      rw [I.cur, hbl, htb, tot_append, tot_append]; congr 1; omega) (by
      rw [I.cur, I.beyond _ (le_refl _)]; exact F.zero _) hc2 (by rw [hbl]; exact tr)
    have hbe := below_ok w.heap (by omega) I.dummy l c1 hc1 (by rw [hbl]; exact tl)
    rw [hbl] at hab hbe
    rw [show tot (l ++ c1) * B + k * B = (tot (l ++ c1) + k) * B by ring, hab, hbe]
    have e3 : tot (l ++ c1) * B = tot l * B + tot c1 * B := by rw [tot_append]; ring
    rw [if_neg (by omega), show tot (l ++ c1) * B - tot c1 * B = tot l * B by omega, show k + tot c2 + tot c1 = t by omega, I.hint,
      if_neg (by omega)]
  have hmid : tot (c1 ++ (k, true) :: c2) = t := by rw [tot_append, tot]; omega
  have e' : bs = l ++ (c1 ++ (k, true) :: c2) ++ r := by rw [e]; simp
  have hT := I.tiles
  rw [e', tiles_append, tiles_append] at hT
  obtain ⟨⟨t1, -⟩, t3⟩ := hT
  rw [tot_append, hmid, Nat.zero_add] at t3
  have hUc : usedAt B (tot l) (c1 ++ (k, true) :: c2) = [(a.ptr, k)] := by
    rw [usedAt_append, usedAt_free _ _ c1 f1, usedAt, usedAt_free _ _ c2 f2, hp', hbl, tot_append]
    simp
  have hU : usedAt B 0 bs = usedAt B 0 l ++ (a.ptr, k) :: usedAt B (tot l + t) r := by
    rw [e', usedAt_append, usedAt_append, tot_append, hmid, Nat.zero_add, hUc]
    simp
  have hU' : usedAt B 0 (l ++ (freed P t ++ r)) = usedAt B 0 l ++ usedAt B (tot l + t) r := by
    rw [usedAt_append, Nat.zero_add, usedAt_append, usedAt_free _ _ _ (freed_false P t), freed_tot, List.nil_append]
  have hlive := I.live
  have htot : tot (l ++ (freed P t ++ r)) = tot bs := by
    rw [tot_append, tot_append, freed_tot, htb]; omega
  refine ⟨_, l ++ (freed P t ++ r), hfree, hbl, I.parts, I.limit, I.dummy, rfl, ?_, ?_, by rw [htot]; exact I.cur, by rw [htot]; exact I.room, ?_, ?_, ?_, ?_⟩
  · unfold freed
    split <;> simp
  · rw [tiles_append, Nat.zero_add, tiles_append, freed_tot]
    exact ⟨tiles_congr B (by omega) _ _ l 0 (fun i _ hi => hsame i (.inl (by simpa using hi))) t1, htl,
      tiles_congr B (by omega) _ _ r _ (fun i hi _ => hsame i (.inr hi)) t3⟩
  · intro b hb
    simp only [List.mem_append] at hb
    rcases hb with hb | hb | hb
    · exact I.small b (by rw [e']; simp [hb])
    · unfold freed at hb
      split at hb
      · simp only [List.mem_cons, List.not_mem_nil, or_false] at hb
        rcases hb with rfl | rfl <;> simp only <;> omega
      · simp only [List.mem_cons, List.not_mem_nil, or_false] at hb
        subst hb
        simp only
        omega
    · exact I.small b (by rw [e']; simp [hb])
  · intro i hi
    rw [htot] at hi
    rw [← I.beyond i hi]
    exact hsame i (.inr (le_trans (Nat.mul_le_mul_right _ (by omega)) hi))
  · rw [hU']
    have hf1 : (w.live.filter fun a' => decide (a'.ptr ≠ a.ptr)).map (fun a => (a.ptr, slots B a.size)) =
        (w.live.map fun a => (a.ptr, slots B a.size)).filter fun x => decide (x.1 ≠ a.ptr) := by
      rw [List.filter_map]
      rfl
    rw [hf1]
    have hf2 := hlive.filter fun x : Nat × Nat => decide (x.1 ≠ a.ptr)
    rw [hU, List.filter_append, List.filter_cons] at hf2
    have hpw := (usedAt_pairwise B bs 0).2
    rw [hU, List.pairwise_append, List.pairwise_cons] at hpw
    obtain ⟨-, ⟨p1, -⟩, p2⟩ := hpw
    have k1 : 1 ≤ k * B := Nat.mul_pos k1 (by omega)
    have g1 : (usedAt B 0 l).filter (fun x => decide (x.1 ≠ a.ptr)) = usedAt B 0 l := by
      rw [List.filter_eq_self]
      intro x hx
      obtain ⟨l', r', el, hxp⟩ := mem_usedAt B l 0 x.1 x.2 hx
      have := p2 x hx (a.ptr, k) (by simp)
      have hx1 : 1 ≤ x.2 := by
        have := t1
        rw [el, tiles_append] at this
        exact this.2.1
      have : 1 ≤ x.2 * B := Nat.mul_pos hx1 (by omega)
      simp only [decide_eq_true_eq]
      omega
    have g2 : (usedAt B (tot l + t) r).filter (fun x => decide (x.1 ≠ a.ptr)) = usedAt B (tot l + t) r := by
      rw [List.filter_eq_self]
      intro x hx
      have := p1 x hx
      simp only [decide_eq_true_eq]
      simp only at this
      omega
    rw [g1, g2] at hf2
    simpa using hf2
  · intro a' ha' off v hd
    obtain ⟨hm, hne⟩ := List.mem_filter.mp ha'
    simp only [ne_eq, decide_not, Bool.not_eq_true', decide_eq_false_iff_not] at hne
    obtain ⟨d1, d2⟩ := I.data a' hm off v hd
    refine ⟨d1, ?_⟩
    have := data_kept I hB l _ r e' a' hm (by
      rw [hUc]
      simp only [List.mem_singleton, Prod.mk.injEq, not_and]
      intro hh
      exact absurd hh hne) off d1
    rw [hmid] at this
    rw [← d2]
    refine hsame _ ?_
    rcases this with h | h
    · exact .inl h
    · exact .inr h.1

/-- What a write of the user does. -/
theorem write_inv (F : Fits B P L raw) (I : Inv B P L raw w bs) (a : Alloc) (ha : a ∈ w.live) (off : Nat) (ho : off < a.size) (v : Int) :
    Inv B P L raw ⟨{ w.heap with mem := fun i => if i = a.ptr + off then v else w.heap.mem i }, w.live.map (record a.ptr off v)⟩ bs := by
  have hB := F.block
  obtain ⟨l, r, e, hp⟩ := live_mem I a ha
  obtain ⟨k, hk⟩ : ∃ k, k = slots B a.size := ⟨_, rfl⟩
  rw [← hk] at e
  have hw := (slots_bytes B a.size hB).2
  rw [← hk] at hw
  have htb : tot bs = tot l + (k + tot r) := by rw [e, tot_append]; rfl
  have e0 : tot bs * B = tot l * B + (k * B + tot r * B) := by rw [htb]; ring
  have e1 : (tot l + k) * B = tot l * B + k * B := by ring
  refine ⟨I.block, I.parts, I.limit, I.dummy, I.hint, I.ne, ?_, I.cur, I.room, I.small, ?_, ?_, ?_⟩
  · have hT := I.tiles
    rw [e, tiles_append] at hT ⊢
    rw [Nat.zero_add] at hT ⊢
    obtain ⟨t1, h1, h2, h3, t2⟩ := hT
    simp only at h1 h2 h3 t2 ⊢
    refine ⟨tiles_congr B (by omega) _ _ l 0 (fun i _ hi => ?_) t1, h1, ?_, ?_,
      tiles_congr B (by omega) _ _ r _ (fun i hi _ => ?_) t2⟩
    · rw [if_neg]
      rw [Nat.zero_add] at hi
      omega
    · simp only
      rw [if_neg (by omega)]; exact h2
    · simp only
      rw [if_neg (by omega)]; exact h3
    · simp only at hi
      rw [if_neg (by omega)]
  · intro i hi
    simp only
    rw [if_neg (by omega)]
    exact I.beyond i hi
  · have : (w.live.map (record a.ptr off v)).map (fun a => (a.ptr, slots B a.size)) = w.live.map (fun a => (a.ptr, slots B a.size)) := by
      rw [List.map_map]
      refine List.map_congr_left fun x _ => ?_
      simp only [Function.comp, record]
      split <;> rfl
    simp only [this]
    exact I.live
  · intro x hx i u hd
    obtain ⟨y, hy, rfl⟩ := List.mem_map.mp hx
    by_cases hyp : y.ptr = a.ptr
    · have hya : y = a := ptr_inj I hB y a hy ha hyp
      subst hya
      unfold record at hd ⊢
      rw [if_pos rfl] at hd ⊢
      simp only at hd ⊢
      by_cases hio : i = off
      · subst hio
        rw [if_pos rfl, Option.some.injEq] at hd
        rw [if_pos rfl]
        exact ⟨ho, hd⟩
      · rw [if_neg hio] at hd
        rw [if_neg (by omega)]
        exact I.data y hy i u hd
    · unfold record at hd ⊢
      rw [if_neg hyp] at hd ⊢
      obtain ⟨d1, d2⟩ := I.data y hy i u hd
      refine ⟨d1, ?_⟩
      simp only
      rw [if_neg, d2]
      have hin' := data_kept I hB l [(k, true)] r (by simp [e]) y hy (by
        simp only [usedAt, if_true, List.mem_singleton, Prod.mk.injEq, not_and]
        intro hh
        rw [← hp] at hh
        exact absurd hh hyp) i d1
      simp only [tot, Nat.add_zero] at hin'
      omega

theorem step_inv (F : Fits B P L raw) (I : Inv B P L raw w bs) (op : Op) (ha : Allowed w op) :
    ∃ w' bs', step w op = some w' ∧ Inv B P L raw w' bs' := by
  cases op with
  | malloc size =>
    rcases malloc_inv F I size with ⟨h', p, bs', he, hI⟩ | ⟨he, -⟩
    · refine ⟨_, _, ?_, hI⟩
      simp only [step, he, Option.map_some]
      rw [if_neg (by omega)]
    · refine ⟨w, bs, ?_, I⟩
      simp only [step, he, Option.map_some, if_true]
  | free p =>
    rcases ha with rfl | ha
    · refine ⟨⟨w.heap, w.live.filter fun a => a.ptr ≠ 0⟩, bs, by simp [step, free], ?_⟩
      have : (w.live.filter fun a => decide (a.ptr ≠ 0)) = w.live := by
        rw [List.filter_eq_self]
        intro a ha
        obtain ⟨l, r, -, hp⟩ := live_mem I a ha
        simp only [decide_eq_true_eq]
        omega
      rw [this]
      exact I
    · obtain ⟨h', bs', he, hI⟩ := free_inv F I p ha
      exact ⟨_, bs', by simp [step, he], hI⟩
  | write p off v =>
    obtain ⟨⟨a, ha, rfl, ho⟩, hv1, hv2⟩ := ha
    exact ⟨_, bs, rfl, write_inv F I a ha off ho v⟩

theorem reach_inv (F : Fits B P L raw) (hr : Reach B P L raw w) : ∃ bs, Inv B P L raw w bs := by
  induction hr with
  | init => exact ⟨_, init_inv F⟩
  | step w w' op _ a e ih =>
    obtain ⟨bs, I⟩ := ih
    obtain ⟨w'', bs', e', I'⟩ := step_inv F I op a
    rw [e, Option.some.injEq] at e'
    subst e'
    exact ⟨bs', I'⟩

/-! ## C275 -/

/-- `malloc` and `free` come to an end and stay in the heap. -/
theorem C275_defined_partial (F : Fits B P L raw) (hr : Reach B P L raw w) (op : Op) (ha : Allowed w op) : ∃ w', step w op = some w' := by
  obtain ⟨bs, I⟩ := reach_inv F hr
  obtain ⟨w', -, e, -⟩ := step_inv F I op ha
  exact ⟨w', e⟩

/-- What is held lies in the heap, is as long as asked for and does not overlap; the memory
behind the heap is as after the reset. -/
theorem C275_separate_partial (F : Fits B P L raw) (hr : Reach B P L raw w) :
    (∀ a ∈ w.live, 1 ≤ a.ptr ∧ a.ptr + a.size + 1 ≤ L) ∧
      (w.live.Pairwise fun a b => a.ptr + a.size ≤ b.ptr ∨ b.ptr + b.size ≤ a.ptr) ∧ ∀ i, L ≤ i → w.heap.mem i = raw i := by
  obtain ⟨bs, I⟩ := reach_inv F hr
  have hB := F.block
  refine ⟨?_, ?_, fun i hi => I.beyond i (le_trans I.room hi)⟩
  · intro a ha
    obtain ⟨l, r, e, hp⟩ := live_mem I a ha
    have hw := (slots_bytes B a.size hB).2
    have htb : tot bs = tot l + (slots B a.size + tot r) := by rw [e, tot_append]; rfl
    have e0 : tot bs * B = tot l * B + (slots B a.size * B + tot r * B) := by rw [htb]; ring
    have := I.room
    omega
  · refine (live_pairwise I).imp ?_
    intro a b h
    have := (slots_bytes B a.size hB).2
    have := (slots_bytes B b.size hB).2
    omega

/-- What the user wrote stays until it is freed. -/
theorem C275_data_partial (F : Fits B P L raw) (hr : Reach B P L raw w) (a : Alloc) (ha : a ∈ w.live) (off : Nat) (v : Int)
    (hd : a.data off = some v) : w.heap.mem (a.ptr + off) = v := by
  obtain ⟨bs, I⟩ := reach_inv F hr
  exact (I.data a ha off v hd).2

/-- The first `malloc` succeeds if and only if the heap has the room. -/
theorem C275_first_partial (F : Fits B P L raw) (size : Nat) (h0 : 0 < size) (hs : size ≤ P * B) :
    (∃ h' p, allocate (init B P L raw) size = some (h', p) ∧ p ≠ 0) ↔ slots B size * B ≤ L := by
  have hB := F.block
  have I := init_inv F
  have hbw := slots_bytes B size hB
  rcases malloc_inv F I size with ⟨h', p, bs', he, hI⟩ | ⟨he, hx⟩
  · refine ⟨fun _ => ?_, fun _ => ⟨h', p + 1, he, by omega⟩⟩
    have hr := hI.room
    obtain ⟨l, r, e, hp⟩ := live_mem hI ⟨p + 1, size, fun _ => none⟩ (by simp)
    simp only at e hp
    have htb : tot bs' = tot l + (slots B size + tot r) := by rw [e, tot_append]; rfl
    have e0 : tot bs' * B = tot l * B + (slots B size * B + tot r * B) := by rw [htb]; ring
    omega
  · obtain ⟨hall, l, c, ebs, hc, hlt⟩ := hx h0 hs
    have hl : tot l = 0 := by
      rcases hc with ⟨rfl, hr⟩ | ⟨k, rfl⟩
      · rw [List.append_nil] at ebs
        have := hr (P, false) (by rw [← ebs]; rfl)
        cases this
      · have : ([] : List Seg) ++ [(P, false)] = l ++ [(k, false)] := by simpa using ebs
        have := List.append_inj_left' this rfl
        rw [← this]
        rfl
    rw [hl, Nat.sub_zero] at hlt
    constructor
    · rintro ⟨h', p, he', hp⟩
      simp only at he
      rw [he] at he'
      simp only [Option.some.injEq, Prod.mk.injEq] at he'
      exact absurd he'.2.symm hp
    · intro h
      have := (Nat.le_div_iff_mul_le (by omega)).2 h
      omega

/-! ## What goes wrong -/

/-- Operations one after the other; the pointers that `malloc` returned. -/
def run (h : Heap) : List (Nat ⊕ Nat) → Option (Heap × List Nat)
  | [] => some (h, [])
  | .inl size :: ops =>
    match allocate h size with
    | none => none
    | some (h, p) => (run h ops).map fun r => (r.1, p :: r.2)
  | .inr ptr :: ops =>
    match free h ptr with
    | none => none
    | some h => run h ops

/-- A heap of 1024 bytes, and a negative byte behind it (the stack, say). Freeing memory at the end of
the heap writes markers behind the heap, or makes the next `malloc` return memory up to byte 1053. -/
theorem C275_end_counterexample :
    ((run (init 16 64 1024 fun _ => -2) [.inl 1022, .inr 1]).map fun r => (r.2, r.1.mem 1024, r.1.mem 1055)) = some ([1], -2, -2) ∧
      ((run (init 16 64 1024 fun _ => -5) [.inl 1022, .inr 1]).map fun r => (r.2, r.1.mem 1024, r.1.mem 1103)) = some ([1], -5, -5) ∧
      ((run (init 16 64 1024 fun i => if i = 1024 then -5 else 7) [.inl 1022, .inr 1]).map fun r => r.1.mem 1103) = some (-5) ∧
      ((run (init 16 64 1024 fun _ => -4) [.inl 500, .inl 500, .inr 513, .inl 540]).map Prod.snd) = some [1, 513, 513] := by
  decide +kernel

/-- Default settings and a heap of 3072 bytes: three pieces, freed in the order 1, 3, 2. The marker
in the middle is -128, and the second `malloc` after it walks out of the heap. -/
theorem C275_marker_counterexample :
    ((run (init 16 64 3072 fun _ => 0) [.inl 1022, .inl 1022, .inl 1022, .inr 1, .inr 2049, .inr 1025]).map fun r => (r.2, r.1.mem 1024)) = some ([1, 1025, 2049], -128) ∧
      ((run (init 16 64 3072 fun _ => 0) [.inl 1022, .inl 1022, .inl 1022, .inr 1, .inr 2049, .inr 1025, .inl 1022, .inl 100]).map Prod.snd) = none := by
  decide +kernel

/-- 127 slots and the largest request: the marker of the memory handed out says it is free, and
the next `malloc` walks out of the heap. -/
theorem C275_largest_counterexample :
    ((run (init 16 127 2048 fun _ => 0) [.inl 2032]).map fun r => (r.2, r.1.mem 0)) = some ([1], -128) ∧
      ((run (init 16 127 2048 fun _ => 0) [.inl 2032, .inl 1]).map Prod.snd) = none := by
  decide +kernel

/-- Memory that is freed is not available again: the same request fails after the memory was freed,
with nothing else held. -/
theorem C275_again_counterexample :
    ((run (init 16 64 2048 fun _ => 0) [.inl 1024, .inr 1, .inl 1024]).map Prod.snd) = some [1, 0] := by
  decide +kernel

/-- `Fits` cannot be widened: one slot more, and the heap of `C275_marker_counterexample` results. -/
example : ¬ 3072 / 16 ≤ 127 + 64 ∧ 3056 / 16 ≤ 127 + 64 := by decide

/-- A heap of 1024 bytes in blocks of 16, zero after the reset. -/
example : Fits 16 64 1024 (fun _ => 0) := ⟨by omega, by omega, by omega, by omega, by decide, by simp⟩


/-- Two pieces and a byte in the second one. -/
example : ∃ w, Reach 16 64 1024 (fun _ => 0) w ∧ w.live.map Alloc.ptr = [513, 1] ∧ w.heap.mem 515 = 42 := by
  refine ⟨_, .step _ _ (.write 513 2 42) (.step _ _ (.malloc 300) (.step _ _ (.malloc 500) .init trivial rfl) trivial rfl) ?_ rfl, ?_, ?_⟩
  · exact ⟨⟨⟨513, 300, fun _ => none⟩, List.Mem.head _, rfl, by decide⟩, by decide, by decide⟩
  · decide +kernel
  · decide +kernel

end Props.AvrHeap
