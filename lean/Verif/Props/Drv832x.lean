import Verif.Model.Drv832x

set_option autoImplicit false

namespace Props.Drv832x
open Model.Drv832x

/-- The registers that can be written. -/
def writable (r : Nat) : Prop := 2 ≤ r ∧ r ≤ 6

theorem frame_address (r : Nat) (h : r < 8) (v : BitVec 16) :
    ((frame r v).1.extractLsb' 3 4).toNat = r ∧ (frame r v).1.getLsbD 7 = false ∧ (frame r v).1.extractLsb' 0 3 ++ (frame r v).2 = v.setWidth 11 := by
  have t : ∀ r < 8, ∀ k < 8, ((0#8 ||| (BitVec.ofNat 8 r <<< 3) ||| BitVec.ofNat 8 k).extractLsb' 3 4).toNat = r ∧
      (0#8 ||| (BitVec.ofNat 8 r <<< 3) ||| BitVec.ofNat 8 k).getLsbD 7 = false ∧
      (0#8 ||| (BitVec.ofNat 8 r <<< 3) ||| BitVec.ofNat 8 k).extractLsb' 0 3 = BitVec.ofNat 3 k := by decide +kernel
  have kv : ((v >>> 8) &&& 0b111#16).setWidth 8 = BitVec.ofNat 8 (v.toNat / 256 % 8) := by
    apply BitVec.eq_of_toNat_eq
    rw [BitVec.toNat_setWidth, BitVec.toNat_and, BitVec.toNat_ushiftRight, BitVec.toNat_ofNat, Nat.shiftRight_eq_div_pow]
    have := Nat.and_two_pow_sub_one_eq_mod (v.toNat / 2 ^ 8) 3
    rw [show 7 % 2 ^ 16 = 2 ^ 3 - 1 from rfl, this, BitVec.toNat_ofNat]
  obtain ⟨a, b, c⟩ := t r h (v.toNat / 256 % 8) (by omega)
  unfold frame
  simp only
  rw [kv]
  refine ⟨a, b, ?_⟩
  rw [c]
  apply BitVec.eq_of_toNat_eq
  rw [BitVec.toNat_append, BitVec.toNat_ofNat, BitVec.toNat_setWidth, BitVec.toNat_setWidth, BitVec.toNat_and]
  have := Nat.and_two_pow_sub_one_eq_mod v.toNat 8
  rw [show (255#16).toNat = 2 ^ 8 - 1 from rfl, this, ← Nat.shiftLeft_add_eq_or_of_lt (Nat.mod_lt _ (by decide))]
  · rw [Nat.shiftLeft_eq]
    have e1 : v.toNat / 256 % 8 % 2 ^ 3 = v.toNat / 256 % 8 := Nat.mod_eq_of_lt (by omega)
    omega

/-- C350: for all registers, values and contents of the device: `writeData()` changes exactly the register with the address
to the eleven bits of the value, and `readData()` returns the eleven bits of the register and changes nothing. -/
theorem C350_transfers (s : St) (r : Nat) (h : r < 8) (v : BitVec 16) :
    (∀ q, (writeData s r v []).device q = if q = r then v.setWidth 11 else s.device q) ∧
    readData s r = (s.device r).setWidth 16 ∧ (transfer s.device (readFrame r)).1 = s.device := by
  obtain ⟨a, b, c⟩ := frame_address r h v
  have tr : ∀ r < 8, ((readFrame r).1.extractLsb' 3 4).toNat = r ∧ (readFrame r).1.getLsbD 7 = true := by decide +kernel
  obtain ⟨d, e⟩ := tr r h
  refine ⟨?_, ?_, ?_⟩
  · intro q
    simp only [writeData, List.foldl_nil, transfer, b, Bool.false_eq_true, if_false, a, c]
    by_cases eq : q = r
    · subst eq; simp
    · simp [eq]
  · simp only [readData, transfer, e, if_true, d]
    apply BitVec.eq_of_getLsbD_eq
    intro i hi
    by_cases l : i < 8
    · simp [l, hi]
    · have : ∀ k < 8, (0b111#8).getLsbD k = decide (k < 3) := by decide
      by_cases m : i < 16
      · have l8 : i - 8 < 8 := by omega
        have e8 : 8 + (i - 8) = i := by omega
        by_cases l3 : i - 8 < 3
        · have : i = 8 ∨ i = 9 ∨ i = 10 := by omega
          rcases this with rfl | rfl | rfl <;> simp
        · have : (s.device r).getLsbD i = false := BitVec.getLsbD_of_ge _ _ (by omega)
          simp [l, hi, l8, l3, this]
      · omega
  · simp only [transfer, e, if_true]

/-- Case. -/
example : frame 3 0x3ff = (0b00011011#8, 0xff#8) ∧ readFrame 5 = (0b10101000#8, 0#8) ∧
    readData ⟨fun _ => 0, 0, fun r => if r = 5 then 0x159 else 0⟩ 5 = 0x159 := by decide +kernel

/-- Changes of the registers that were not accessed since the last commit are in the device. -/
def Clean (s : St) : Prop := ∀ r, writable r → s.accessed.getLsbD r = false → s.device r = (s.shadow r).setWidth 11

theorem bit_table : ∀ r < 7, ∀ k < 8, (1#8 <<< r).getLsbD k = decide (k = r) := by decide

theorem bit_and (x : BitVec 8) (r : Nat) (h : r < 7) : (x &&& (1#8 <<< r) ≠ 0#8) ↔ x.getLsbD r = true := by
  constructor
  · intro ne
    cases e : x.getLsbD r with
    | true => rfl
    | false =>
      exfalso
      apply ne
      apply BitVec.eq_of_getLsbD_eq
      intro i hi
      rw [BitVec.getLsbD_and, bit_table r h i hi]
      by_cases q : i = r
      · subst q; simp [e]
      · simp [q]
  · intro e z
    have : (x &&& (1#8 <<< r)).getLsbD r = false := by rw [z]; simp
    rw [BitVec.getLsbD_and, bit_table r h r (by omega), e] at this
    simp at this

def quiet : Nat → List (Nat × BitVec 16) := fun _ => []

theorem commitOne_quiet (s : St) (r : Nat) (h : r < 7) :
    (commitOne quiet s r).shadow = s.shadow ∧ (commitOne quiet s r).accessed = s.accessed ∧
    ∀ q, (commitOne quiet s r).device q = if q = r ∧ s.accessed.getLsbD r = true then (s.shadow r).setWidth 11 else s.device q := by
  unfold commitOne
  split
  · rename_i c
    have b := (bit_and _ r h).mp c
    refine ⟨rfl, rfl, ?_⟩
    intro q
    have := (C350_transfers s r (by omega) (s.shadow r)).1 q
    rw [show quiet r = [] from rfl, this]
    simp [b]
  · rename_i c
    have b : ¬ s.accessed.getLsbD r = true := fun x => c ((bit_and _ r h).mpr x)
    refine ⟨rfl, rfl, ?_⟩
    intro q
    simp [b]

theorem fold_quiet (l : List Nat) : ∀ s, (∀ r ∈ l, r < 7) →
    (l.foldl (commitOne quiet) s).shadow = s.shadow ∧ (l.foldl (commitOne quiet) s).accessed = s.accessed ∧
    ∀ q, (l.foldl (commitOne quiet) s).device q = if q ∈ l ∧ s.accessed.getLsbD q = true then (s.shadow q).setWidth 11 else s.device q := by
  induction l with
  | nil => intro s _; simp
  | cons r l ih =>
    intro s h
    obtain ⟨a, b, c⟩ := commitOne_quiet s r (h r (by simp))
    obtain ⟨d, e, f⟩ := ih (commitOne quiet s r) fun x hx => h x (List.mem_cons_of_mem _ hx)
    refine ⟨by rw [List.foldl_cons, d, a], by rw [List.foldl_cons, e, b], ?_⟩
    intro q
    rw [List.foldl_cons, f, a, b, c]
    by_cases m : q ∈ l
    · by_cases g : s.accessed.getLsbD q = true
      · simp [m, g]
      · by_cases x : q = r
        · subst x; simp [g]
        · simp [g, x]
    · by_cases x : q = r
      · subst x; simp [m]
      · simp [m, x]

/-- C349: if no accessor is called meanwhile, `commit()` writes exactly the registers accessed since the last one; then all
registers of the device are the ones in memory, and this holds after any further accesses for the others. -/
theorem C349_commit_partial (s : St) (changes : List (Nat × BitVec 16)) (hc : Clean s) (hr : ∀ c ∈ changes, writable c.1) :
    let t := commit quiet (changes.foldl access s)
    (∀ r, writable r → t.device r = (t.shadow r).setWidth 11) ∧ Clean t ∧ t.shadow = (changes.foldl access s).shadow ∧
    (∀ r, (writable r → (changes.foldl access s).accessed.getLsbD r = false) → t.device r = s.device r) := by
  have keep : ∀ (cs : List (Nat × BitVec 16)) (s : St), Clean s → (∀ c ∈ cs, writable c.1) →
      Clean (cs.foldl access s) ∧ (cs.foldl access s).device = s.device := by
    intro cs
    induction cs with
    | nil => intro s h _; exact ⟨h, rfl⟩
    | cons c cs ih =>
      intro s h hw
      have w := hw c (by simp)
      have : Clean (access s c) := by
        intro r wr nz
        have nz' : (s.accessed ||| (1#8 <<< c.1)).getLsbD r = false := nz
        have r8 : r < 8 := by unfold writable at wr; omega
        rw [BitVec.getLsbD_or, bit_table c.1 (by unfold writable at w; omega) r r8] at nz'
        simp only [Bool.or_eq_false_iff, decide_eq_false_iff_not] at nz'
        show s.device r = (Function.update s.shadow c.1 c.2 r).setWidth 11
        rw [Function.update_of_ne nz'.2]
        exact h r wr nz'.1
      obtain ⟨a, b⟩ := ih (access s c) this fun x hx => hw x (List.mem_cons_of_mem _ hx)
      exact ⟨a, b⟩
  obtain ⟨cl, dv⟩ := keep changes s hc hr
  obtain ⟨a, b, c⟩ := fold_quiet [2, 3, 4, 5, 6] (changes.foldl access s) (by decide)
  have dev : ∀ r, writable r → (commit quiet (changes.foldl access s)).device r =
      ((commit quiet (changes.foldl access s)).shadow r).setWidth 11 := by
    intro r w
    have m : r ∈ [2, 3, 4, 5, 6] := by
      unfold writable at w
      have : r = 2 ∨ r = 3 ∨ r = 4 ∨ r = 5 ∨ r = 6 := by omega
      simpa using this
    show (List.foldl (commitOne quiet) (changes.foldl access s) [2, 3, 4, 5, 6]).device r =
      ((List.foldl (commitOne quiet) (changes.foldl access s) [2, 3, 4, 5, 6]).shadow r).setWidth 11
    rw [c, a]
    cases g : (changes.foldl access s).accessed.getLsbD r with
    | true => simp [m]
    | false => simp [cl r w g]
  refine ⟨dev, fun r w _ => dev r w, a, ?_⟩
  intro r h
  show (List.foldl (commitOne quiet) (changes.foldl access s) [2, 3, 4, 5, 6]).device r = s.device r
  rw [c, dv]
  by_cases w : writable r
  · simp [h w]
  · have m : ¬ r ∈ [2, 3, 4, 5, 6] := by
      intro x
      apply w
      simp only [List.mem_cons, List.not_mem_nil, or_false] at x
      unfold writable
      omega
    simp only [m, false_and, if_false]

/-- All registers zero. -/
def fresh : St := ⟨fun _ => 0, 0, fun _ => 0⟩

/-- Case: two changes. -/
example : (commit quiet (access (access fresh (2, 0x20)) (5, 0x159))).device 5 = 0x159 ∧
    (commit quiet (access (access fresh (2, 0x20)) (5, 0x159))).device 2 = 0x20 := by decide +kernel

/-- C349 (refuted): at its end `commit()` clears the bits of all registers.  The control register is changed by another thread
while `commit()` transfers register 5: the bit of the change is cleared, and neither this nor any further commit
writes the change to the device. -/
theorem C349_lost_counterexample :
    let s := commit (fun r => if r = 5 then [(2, 0x40)] else []) (access fresh (5, 0x159))
    s.shadow 2 = 0x40 ∧ s.device 2 = 0 ∧ (commit quiet s).device 2 = 0 := by decide +kernel

end Props.Drv832x
