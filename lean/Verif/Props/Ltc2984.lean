import Verif.Model.Ltc2984
/-!
C368, C369, C370: the temperature measurement system LTC2984.
-/

set_option autoImplicit false

namespace Props.Ltc2984
open Model.Ltc2984

/-! ### Temperatures -/

/-- Specification: the low 24 bits as a signed number. -/
def signed24 (n : Nat) : Int := if n % 2 ^ 24 < 2 ^ 23 then (n % 2 ^ 24 : Nat) else ((n % 2 ^ 24 : Nat) : Int) - 2 ^ 24

theorem and24 (x : BitVec 32) : (x &&& 0xffffff#32).toNat = x.toNat % 2 ^ 24 := by
  rw [BitVec.toNat_and]
  exact Nat.and_two_pow_sub_one_eq_mod x.toNat 24

theorem and23 (x : BitVec 32) : (x &&& 0x800000#32 ≠ 0#32) ↔ 2 ^ 23 ≤ x.toNat % 2 ^ 24 := by
  have hb : x.getLsbD 23 = decide (x.toNat / 2 ^ 23 % 2 = 1) := by
    rw [BitVec.getLsbD, Nat.testBit_eq_decide_div_mod_eq]
  have hm : ∀ i : Fin 32, i.val ≠ 23 → (0x800000#32).getLsbD i.val = false := by decide
  constructor
  · intro hne
    by_cases c : x.toNat / 2 ^ 23 % 2 = 1
    · omega
    · exfalso; apply hne
      apply BitVec.eq_of_getLsbD_eq
      intro i hi
      rw [BitVec.getLsbD_and]
      by_cases e : i = 23
      · subst e; rw [hb]; simp [c]
      · rw [hm ⟨i, hi⟩ e]; simp
  · intro hge he
    have c : x.toNat / 2 ^ 23 % 2 = 1 := by omega
    have := congrArg (fun y => y.getLsbD 23) he
    simp only [BitVec.getLsbD_and, hb, c] at this
    exact absurd this (by decide)

theorem fixed_eq (data : BitVec 32) : (getTemperatureFixed data).toInt = signed24 data.toNat := by
  have h1 := and24 data
  unfold getTemperatureFixed signed24
  simp only
  by_cases c : data &&& 0x800000#32 ≠ 0#32
  · have hc := (and23 data).mp c
    rw [if_pos c, if_neg (by omega), BitVec.toInt_eq_toNat_cond, BitVec.toNat_neg, and24, BitVec.toNat_add, BitVec.toNat_not, h1]
    have : (1#32).toNat = 1 := rfl
    rw [this]
    omega
  · have hc : ¬ 2 ^ 23 ≤ data.toNat % 2 ^ 24 := fun h => c ((and23 data).mpr h)
    rw [if_neg c, if_pos (by omega), BitVec.toInt_eq_toNat_cond, h1]
    omega

/-- C368: for every word read from the chip: the temperature in 1/1024 degrees is the signed number in the low 24 bits, the whole
number of degrees is the nearest one (halves up), also for negative temperatures, and the result is valid if bit 24 is set. -/
theorem C368_temperature (data : BitVec 32) :
    (getTemperatureFixed data).toInt = signed24 data.toNat
    ∧ -512 ≤ signed24 data.toNat - 1024 * (getTemperatureInteger data).toInt
    ∧ signed24 data.toNat - 1024 * (getTemperatureInteger data).toInt < 512
    ∧ (isValid data = true ↔ data.toNat / 2 ^ 24 % 2 = 1) := by
  have hf := fixed_eq data
  have hr : -(2 ^ 23 : Int) ≤ signed24 data.toNat ∧ signed24 data.toNat < 2 ^ 23 := by
    unfold signed24
    have := Nat.mod_lt data.toNat (show 0 < 2 ^ 24 by decide)
    split <;> omega
  have hi : (getTemperatureInteger data).toInt = (signed24 data.toNat + 512) / 1024 := by
    rw [BitVec.toInt_eq_toNat_cond] at hf
    have hlt := (getTemperatureFixed data).isLt
    unfold getTemperatureInteger
    rw [BitVec.toInt_eq_toNat_cond, BitVec.toNat_setWidth, BitVec.toNat_udiv, BitVec.toNat_add]
    have e1 : (512#32).toNat = 512 := rfl
    have e2 : (1024#32).toNat = 1024 := rfl
    rw [e1, e2]
    generalize signed24 data.toNat = f at *
    generalize (getTemperatureFixed data).toNat = n at *
    omega
  refine ⟨hf, ?_, ?_, ?_⟩
  · rw [hi]; omega
  · rw [hi]; omega
  · unfold isValid
    rw [decide_eq_true_iff]
    have h : (((data >>> 24).setWidth 8 : Byte) &&& 0x01#8).toNat = data.toNat / 2 ^ 24 % 2 := by
      rw [BitVec.toNat_and, BitVec.toNat_setWidth, BitVec.toNat_ushiftRight, Nat.shiftRight_eq_div_pow]
      have : (0x01#8).toNat = 1 := rfl
      rw [this, Nat.and_one_is_mod]
      omega
    constructor
    · intro hne
      by_cases c : data.toNat / 2 ^ 24 % 2 = 1
      · exact c
      · exfalso; apply hne; apply BitVec.eq_of_toNat_eq; rw [h]; simp; omega
    · intro hc he
      rw [he] at h
      simp at h
      omega

example : (getTemperatureFixed 0x01FFFC00#32).toInt = -1024 ∧ (getTemperatureInteger 0x01FFFC00#32).toInt = -1
    ∧ (getTemperatureInteger 0x01FFFE00#32).toInt = 0 ∧ (getTemperatureInteger 0x01800000#32).toInt = -8192
    ∧ isValid 0x01FFFC00#32 = true := by decide

/-! ### Registers -/

/-- Specification: a word in the memory of the chip, high byte first. -/
def storeWord (m : Mem) (a : Nat) (w : BitVec 32) : Mem := fun k =>
  if k = a then BitVec.ofNat 8 (w.toNat / 2 ^ 24) else if k = a + 1 then BitVec.ofNat 8 (w.toNat / 2 ^ 16)
  else if k = a + 2 then BitVec.ofNat 8 (w.toNat / 2 ^ 8) else if k = a + 3 then BitVec.ofNat 8 w.toNat else m k

def loadWord (m : Mem) (a : Nat) : BitVec 32 :=
  BitVec.ofNat 32 (2 ^ 24 * (m a).toNat + 2 ^ 16 * (m (a + 1)).toNat + 2 ^ 8 * (m (a + 2)).toNat + (m (a + 3)).toNat)

/-- What the user and the chip know: the memory of the chip and the channels to be measured. -/
structure Spec where
  mem : Mem
  chosen : Nat → Bool

/-- The word of the channels chosen. -/
def mask (f : Nat → Bool) : BitVec 32 := BitVec.ofNat 32 ((List.range 20).foldl (fun n i => n + if f i then 2 ^ i else 0) 0)

def specStep (p : Spec) : Op → Spec × BitVec 32
  | .ping => (p, 1#32)
  | .configureChannel ch c => ({ p with mem := storeWord p.mem (0x200 + 4 * ch.val) c }, 0#32)
  | .single ch => ({ p with mem := fun k => if k = 0 then BitVec.ofNat 8 (129 + ch.val) else p.mem k }, 0#32)
  | .all => ({ p with mem := fun k => if k = 0 then 0x80#8 else p.mem k }, 0#32)
  | .sleep => ({ p with mem := fun k => if k = 0 then 0x97#8 else p.mem k }, 0#32)
  | .enable ch => ({ p with chosen := fun i => if i = ch.val then true else p.chosen i }, 0#32)
  | .disable ch => ({ p with chosen := fun i => if i = ch.val then false else p.chosen i }, 0#32)
  | .setChannels => ({ p with mem := storeWord p.mem 0x0f4 (mask p.chosen) }, 0#32)
  | .read ch => (p, loadWord p.mem (0x010 + 4 * ch.val))
  | .busy => (p, if (p.mem 0).toNat / 64 = 2 then 1#32 else 0#32)
  | .chip a v => ({ p with mem := fun k => if k = a then v else p.mem k }, 0#32)

def specRun : Spec → List Op → Spec × List (BitVec 32)
  | p, [] => (p, [])
  | p, op :: ops => ((specRun (specStep p op).1 ops).1, (specStep p op).2 :: (specRun (specStep p op).1 ops).2)

theorem split16 (a : BitVec 16) : ((a >>> 8).setWidth 8 ++ (a.setWidth 8 : Byte) : BitVec 16) = a := by
  apply BitVec.eq_of_getLsbD_eq
  intro i hi
  rw [BitVec.getLsbD_append]
  by_cases h : i < 8
  · simp [h]
  · have h2 : i - 8 < 8 := by omega
    have h3 : 8 + (i - 8) = i := by omega
    simp [h, h2, h3]

theorem write1 (s : State) (hp : s.present = true) (a : BitVec 16) (p : Ptr) :
    (writeData s a p 1).mem = Function.update s.mem a.toNat (deref (head s.buffer 2#8 a) p 0)
    ∧ (writeData s a p 1).present = true ∧ (writeData s a p 1).enabled = s.enabled
    ∧ (∀ i, 4 ≤ i → (writeData s a p 1).buffer i = s.buffer i) := by
  have hm : (writeData s a p 1).mem = chipWrite s.present s.mem [2#8, (a >>> 8).setWidth 8, a.setWidth 8, deref (head s.buffer 2#8 a) p 0] := rfl
  have hb : (writeData s a p 1).buffer = Function.update (head s.buffer 2#8 a) 3 (deref (head s.buffer 2#8 a) p 0) := rfl
  refine ⟨?_, hp, rfl, ?_⟩
  · rw [hm, chipWrite, if_pos ⟨hp, rfl⟩, split16]
    funext k
    unfold store
    by_cases h : k = a.toNat
    · subst h; simp
    · rw [Function.update_of_ne h]
      by_cases h2 : a.toNat ≤ k
      · rw [if_pos h2, List.getElem?_eq_none (by simp; omega)]; rfl
      · rw [if_neg h2]
  · intro i hi
    rw [hb, Function.update_of_ne (by omega), head, Function.update_of_ne (by omega), Function.update_of_ne (by omega), Function.update_of_ne (by omega)]

theorem byte3 (w : BitVec 32) : wordBytes w 3 = BitVec.ofNat 8 (w.toNat / 2 ^ 24) := by
  apply BitVec.eq_of_toNat_eq; simp [wordBytes, Nat.shiftRight_eq_div_pow]
theorem byte2 (w : BitVec 32) : wordBytes w 2 = BitVec.ofNat 8 (w.toNat / 2 ^ 16) := by
  apply BitVec.eq_of_toNat_eq; simp [wordBytes, Nat.shiftRight_eq_div_pow]
theorem byte1 (w : BitVec 32) : wordBytes w 1 = BitVec.ofNat 8 (w.toNat / 2 ^ 8) := by
  apply BitVec.eq_of_toNat_eq; simp [wordBytes, Nat.shiftRight_eq_div_pow]
theorem byte0 (w : BitVec 32) : wordBytes w 0 = BitVec.ofNat 8 w.toNat := by
  apply BitVec.eq_of_toNat_eq; simp [wordBytes]

theorem write4 (s : State) (hp : s.present = true) (a : BitVec 16) (w : BitVec 32) :
    (writeData s a (.bytes (wordBytes w)) 4).mem = storeWord s.mem a.toNat w
    ∧ (writeData s a (.bytes (wordBytes w)) 4).present = true ∧ (writeData s a (.bytes (wordBytes w)) 4).enabled = s.enabled := by
  have hm : (writeData s a (.bytes (wordBytes w)) 4).mem = chipWrite s.present s.mem
      [2#8, (a >>> 8).setWidth 8, a.setWidth 8, wordBytes w 3, wordBytes w 2, wordBytes w 1, wordBytes w 0] := rfl
  refine ⟨?_, hp, rfl⟩
  rw [hm, chipWrite, if_pos ⟨hp, rfl⟩, split16, byte0, byte1, byte2, byte3]
  funext k
  unfold store storeWord
  by_cases h0 : k = a.toNat
  · subst h0; simp
  by_cases h1 : k = a.toNat + 1
  · subst h1; simp
  by_cases h2 : k = a.toNat + 2
  · subst h2; simp
  by_cases h3 : k = a.toNat + 3
  · subst h3; simp
  rw [if_neg h0, if_neg h1, if_neg h2, if_neg h3]
  by_cases h : a.toNat ≤ k
  · rw [if_pos h, List.getElem?_eq_none (by simp; omega)]; rfl
  · rw [if_neg h]

theorem readByte_spec (s : State) (hp : s.present = true) (a : BitVec 16) (d : Nat) :
    (readByte s a d).mem = s.mem ∧ (readByte s a d).present = true ∧ (readByte s a d).enabled = s.enabled
    ∧ (readByte s a d).buffer d = s.mem a.toNat ∧ (∀ i, 3 ≤ i → i ≠ d → (readByte s a d).buffer i = s.buffer i) := by
  have hb : (readByte s a d).buffer = Function.update (head s.buffer 3#8 a) d
      (chipRead s.present s.mem [3#8, (a >>> 8).setWidth 8, a.setWidth 8] 0) := rfl
  refine ⟨rfl, hp, rfl, ?_, ?_⟩
  · rw [hb, Function.update_self, chipRead, if_pos ⟨hp, rfl⟩, split16]; rfl
  · intro i hi hd
    rw [hb, Function.update_of_ne hd, head, Function.update_of_ne (by omega), Function.update_of_ne (by omega), Function.update_of_ne (by omega)]

theorem readFour_spec (s : State) (hp : s.present = true) (a : BitVec 16) :
    (readFourBytes s a).1.mem = s.mem ∧ (readFourBytes s a).1.present = true ∧ (readFourBytes s a).1.enabled = s.enabled
    ∧ (readFourBytes s a).2 = loadWord s.mem a.toNat := by
  have hr : (readFourBytes s a).2 = (let r := chipRead s.present s.mem [3#8, (a >>> 8).setWidth 8, a.setWidth 8]
      BitVec.ofNat 32 ((r 3).toNat + 2 ^ 8 * (r 2).toNat + 2 ^ 16 * (r 1).toNat + 2 ^ 24 * (r 0).toNat)) := rfl
  refine ⟨rfl, hp, rfl, ?_⟩
  rw [hr]
  simp only
  rw [chipRead, if_pos ⟨hp, rfl⟩, split16]
  unfold loadWord
  congr 1
  simp only [Nat.add_zero]
  omega

theorem ping_spec (s : State) (hp : s.present = true) :
    (ping s).1.mem = s.mem ∧ (ping s).1.present = true ∧ (ping s).1.enabled = s.enabled ∧ (ping s).2 = true := by
  let s1 := readByte s 0x250#16 4
  obtain ⟨m1, p1, e1, b1, k1⟩ := readByte_spec s hp 0x250#16 4
  let s2 : State := { s1 with buffer := Function.update s1.buffer 5 0x42#8 }
  let s3 := writeData s2 0x250#16 (.buffer 5) 1
  obtain ⟨m3, p3, e3, k3⟩ := write1 s2 p1 0x250#16 (.buffer 5)
  let s4 := readByte s3 0x250#16 6
  obtain ⟨m4, p4, e4, b4, k4⟩ := readByte_spec s3 p3 0x250#16 6
  let s5 := writeData s4 0x250#16 (.buffer 4) 1
  obtain ⟨m5, p5, e5, k5⟩ := write1 s4 p4 0x250#16 (.buffer 4)
  have hd3 : deref (head s2.buffer 2#8 0x250#16) (.buffer 5) 0 = 0x42#8 := rfl
  have hd5 : deref (head s4.buffer 2#8 0x250#16) (.buffer 4) 0 = s.mem 0x250 := by
    have : deref (head s4.buffer 2#8 0x250#16) (.buffer 4) 0 = s4.buffer 4 := rfl
    rw [this, k4 4 (by omega) (by omega), k3 4 (by omega)]
    have : s2.buffer 4 = s1.buffer 4 := rfl
    rw [this]; exact b1
  have h5 : s5.buffer 5 = 0x42#8 := by
    rw [k5 5 (by omega), k4 5 (by omega) (by omega), k3 5 (by omega)]
    rfl
  have h6 : s5.buffer 6 = 0x42#8 := by
    rw [k5 6 (by omega), b4, m3, hd3]
    exact Function.update_self _ _ _
  have hq : ping s = (s5, decide (s5.buffer 5 = s5.buffer 6)) := rfl
  rw [hq]
  refine ⟨?_, p5, ?_, ?_⟩
  · show s5.mem = s.mem
    rw [m5, hd5, m4, m3]
    funext k
    by_cases h : k = 0x250
    · subst h; simp
    · have h' : k ≠ (0x250#16).toNat := h
      rw [Function.update_of_ne h', Function.update_of_ne h']
      exact congrFun m1 k
  · show s5.enabled = s.enabled
    rw [e5, e4, e3]; exact e1
  · show decide (s5.buffer 5 = s5.buffer 6) = true
    rw [h5, h6]; rfl

theorem mask_eq (e : BitVec 32) (f : Nat → Bool) (h : ∀ i, i < 32 → e.getLsbD i = (decide (i < 20) && f i)) : mask f = e := by
  have key : ∀ n, (List.range n).foldl (fun n i => n + if f i then 2 ^ i else 0) 0 < 2 ^ n
      ∧ ∀ i, ((List.range n).foldl (fun n i => n + if f i then 2 ^ i else 0) 0).testBit i = (decide (i < n) && f i) := by
    intro n
    induction n with
    | zero => simp
    | succ n ih =>
      obtain ⟨h1, h2⟩ := ih
      rw [List.range_succ, List.foldl_append]
      simp only [List.foldl_cons, List.foldl_nil]
      generalize (List.range n).foldl (fun n i => n + if f i then 2 ^ i else 0) 0 = x at *
      have hp : 2 ^ (n + 1) = 2 ^ n + 2 ^ n := by rw [Nat.pow_succ]; omega
      constructor
      · split <;> omega
      · intro i
        cases hf : f n
        · simp only [Bool.false_eq_true, if_false, Nat.add_zero, h2]
          by_cases hi : i = n
          · subst hi; simp [hf]
          · congr 1; simp; omega
        · simp only [if_true]
          rw [Nat.add_comm]
          by_cases hi : i = n
          · subst hi
            rw [Nat.testBit_two_pow_add_eq, h2]; simp [hf]
          · by_cases hl : i < n
            · have l1 : i < n + 1 := by omega
              rw [Nat.testBit_two_pow_add_gt hl, h2]; simp [hl, l1]
            · have l1 : ¬ i < n + 1 := by omega
              have l2 : 2 ^ (n + 1) ≤ 2 ^ i := Nat.pow_le_pow_right (by omega) (by omega)
              rw [Nat.testBit_lt_two_pow (by omega)]; simp [l1]
  apply BitVec.eq_of_getLsbD_eq
  intro i hi
  unfold mask
  rw [BitVec.getLsbD_ofNat, (key 20).2, h i hi]
  simp [hi]

/-- The driver and the chip are as specified. -/
structure Rep (s : State) (p : Spec) : Prop where
  present : s.present = true
  mem : s.mem = p.mem
  enabled : ∀ i, i < 32 → s.enabled.getLsbD i = (decide (i < 20) && p.chosen i)

theorem upd_eq (m : Mem) (a : Nat) (v : Byte) : Function.update m a v = fun k => if k = a then v else m k := by
  funext k
  by_cases h : k = a
  · subst h; simp
  · rw [Function.update_of_ne h, if_neg h]

theorem addr_eq (base : Nat) (ch : Fin 20) (hb : base ≤ 0x1000) :
    (BitVec.ofNat 16 base + BitVec.ofNat 16 ch.val * 4#16).toNat = base + 4 * ch.val := by
  have := ch.isLt
  rw [BitVec.toNat_add, BitVec.toNat_mul, BitVec.toNat_ofNat, BitVec.toNat_ofNat]
  have : (4#16).toNat = 4 := rfl
  rw [this]
  omega

theorem command_rep {s : State} {p : Spec} (h : Rep s p) (c : Byte) :
    Rep (command s c) { p with mem := fun k => if k = 0 then c else p.mem k } := by
  obtain ⟨m, q, e, _⟩ := write1 s h.present 0x000#16 (.bytes fun _ => c)
  refine ⟨q, ?_, ?_⟩
  · show (writeData s 0x000#16 (.bytes fun _ => c) 1).mem = _
    rw [m, upd_eq, h.mem]; rfl
  · intro i hi
    show (writeData s 0x000#16 (.bytes fun _ => c) 1).enabled.getLsbD i = _
    rw [e]; exact h.enabled i hi

theorem step_rep (op : Op) {s : State} {p : Spec} (h : Rep s p) :
    Rep (step s op).1 (specStep p op).1 ∧ (step s op).2 = (specStep p op).2 := by
  cases op with
  | ping =>
    obtain ⟨m, q, e, r⟩ := ping_spec s h.present
    refine ⟨⟨q, m.trans h.mem, ?_⟩, ?_⟩
    · intro i hi; show (ping s).1.enabled.getLsbD i = _; rw [e]; exact h.enabled i hi
    · show (if (ping s).2 then 1#32 else 0#32) = 1#32
      rw [r]; rfl
  | configureChannel ch c =>
    obtain ⟨m, q, e⟩ := write4 s h.present (0x200#16 + BitVec.ofNat 16 ch.val * 4#16) c
    refine ⟨⟨q, ?_, ?_⟩, rfl⟩
    · show (writeData s (0x200#16 + BitVec.ofNat 16 ch.val * 4#16) (.bytes (wordBytes c)) 4).mem = _
      rw [m, addr_eq 0x200 ch (by omega), h.mem]; rfl
    · intro i hi
      show (writeData s (0x200#16 + BitVec.ofNat 16 ch.val * 4#16) (.bytes (wordBytes c)) 4).enabled.getLsbD i = _
      rw [e]; exact h.enabled i hi
  | single ch =>
    have key : ∀ ch : Fin 20, (0x80#8 ||| (BitVec.ofNat 8 ch.val + 1#8)) = BitVec.ofNat 8 (129 + ch.val) := by decide
    refine ⟨?_, rfl⟩
    have := command_rep h (0x80#8 ||| (BitVec.ofNat 8 ch.val + 1#8))
    rw [key] at this
    show Rep (command s (0x80#8 ||| (BitVec.ofNat 8 ch.val + 1#8))) _
    rw [key]; exact this
  | all => exact ⟨command_rep h _, rfl⟩
  | sleep => exact ⟨command_rep h _, rfl⟩
  | enable ch =>
    refine ⟨⟨h.present, h.mem, ?_⟩, rfl⟩
    intro i hi
    have hc := ch.isLt
    show (s.enabled ||| (1#32 <<< ch.val)).getLsbD i = (decide (i < 20) && (if i = ch.val then true else p.chosen i))
    rw [BitVec.getLsbD_or, h.enabled i hi, BitVec.getLsbD_shiftLeft]
    by_cases e : i = ch.val
    · subst e; simp [hi, hc]
    · rw [if_neg e]
      by_cases l : i < ch.val
      · simp [l]
      · have : ¬ i - ch.val = 0 := by omega
        simp [this]
  | disable ch =>
    refine ⟨⟨h.present, h.mem, ?_⟩, rfl⟩
    intro i hi
    have hc := ch.isLt
    show (s.enabled &&& ~~~(1#32 <<< ch.val)).getLsbD i = (decide (i < 20) && (if i = ch.val then false else p.chosen i))
    rw [BitVec.getLsbD_and, h.enabled i hi, BitVec.getLsbD_not, BitVec.getLsbD_shiftLeft]
    by_cases e : i = ch.val
    · subst e; simp [hi]
    · rw [if_neg e]
      by_cases l : i < ch.val
      · simp [l, hi]
      · have : ¬ i - ch.val = 0 := by omega
        simp [this, hi]
  | setChannels =>
    obtain ⟨m, q, e⟩ := write4 s h.present 0x0f4#16 s.enabled
    refine ⟨⟨q, ?_, ?_⟩, rfl⟩
    · show (writeData s 0x0f4#16 (.bytes (wordBytes s.enabled)) 4).mem = _
      rw [m, h.mem, ← mask_eq s.enabled p.chosen h.enabled]; rfl
    · intro i hi
      show (writeData s 0x0f4#16 (.bytes (wordBytes s.enabled)) 4).enabled.getLsbD i = _
      rw [e]; exact h.enabled i hi
  | read ch =>
    obtain ⟨m, q, e, r⟩ := readFour_spec s h.present (0x010#16 + BitVec.ofNat 16 ch.val * 4#16)
    refine ⟨⟨q, m.trans h.mem, ?_⟩, ?_⟩
    · intro i hi; exact h.enabled i hi
    · show (readFourBytes s (0x010#16 + BitVec.ofNat 16 ch.val * 4#16)).2 = loadWord p.mem (0x010 + 4 * ch.val)
      rw [r, addr_eq 0x010 ch (by omega), h.mem]
  | busy =>
    obtain ⟨m, q, e, b, _⟩ := readByte_spec s h.present 0x000#16 0
    refine ⟨⟨q, m.trans h.mem, ?_⟩, ?_⟩
    · intro i hi; exact h.enabled i hi
    · have key : ∀ n : Fin 256, decide (BitVec.ofFin (w := 8) n &&& 0xC0#8 = 0x80#8) = decide ((BitVec.ofFin (w := 8) n).toNat / 64 = 2) := by
        decide +kernel
      show (if decide ((readByte s 0x000#16 0).buffer 0 &&& 0xC0#8 = 0x80#8) then 1#32 else 0#32) = if (p.mem 0).toNat / 64 = 2 then 1#32 else 0#32
      have b' : (readByte s 0x000#16 0).buffer 0 = p.mem 0 := by rw [b, h.mem]; rfl
      have := key (p.mem 0).toFin
      rw [b', this]
      simp
  | chip a v =>
    refine ⟨⟨h.present, ?_, h.enabled⟩, rfl⟩
    show Function.update s.mem a v = fun k => if k = a then v else p.mem k
    rw [upd_eq, h.mem]

/-- C369: after any calls other than `configure()`, with the chip changing its memory at any time, the memory of the chip is as
asked for: configurations of channels, the channels chosen and commands are at their addresses with the high byte first and
nothing else is changed, also by `ping()`; results of `readChannel()` and `isBusy()` are what the chip has, and `ping()` is true. -/
theorem C369_registers (mem : Mem) (buffer : Nat → Byte) (ops : List Op) :
    (run (init mem buffer) ops).1.mem = (specRun ⟨mem, fun _ => false⟩ ops).1.mem
    ∧ (run (init mem buffer) ops).2 = (specRun ⟨mem, fun _ => false⟩ ops).2 := by
  have gen : ∀ (ops : List Op) (s : State) (p : Spec), Rep s p →
      (run s ops).1.mem = (specRun p ops).1.mem ∧ (run s ops).2 = (specRun p ops).2 := by
    intro ops
    induction ops with
    | nil => intro s p h; exact ⟨h.mem, rfl⟩
    | cons op ops ih =>
      intro s p h
      obtain ⟨h1, h2⟩ := step_rep op h
      obtain ⟨h3, h4⟩ := ih _ _ h1
      exact ⟨h3, by rw [run, specRun, h2, h4]⟩
  exact gen ops _ _ ⟨rfl, rfl, by intro i hi; simp [init]⟩

example : (run (init (fun _ => 0#8) (fun _ => 0#8)) [.enable 19, .enable 2, .disable 19, .setChannels, .configureChannel 1 0xE8123456#32,
    .single 4, .busy, .chip 0 0x40#8, .chip 0x20 0x01#8, .chip 0x22 0x64#8, .busy, .ping, .read 4]).2
    = [0#32, 0#32, 0#32, 0#32, 0#32, 0#32, 1#32, 0#32, 0#32, 0#32, 0#32, 1#32, 0x01006400#32] := by decide +kernel

/-- C369: without a chip `ping()` is false. -/
theorem C369_absent (s : State) (h : s.present = false) : (ping s).2 = false := by
  have h6 : (ping s).1.buffer 6 = 0xff#8 := by
    have e : (ping s).1.buffer 6 = chipRead s.present (writeData (State.mk s.present s.mem (Function.update (readByte s 0x250#16 4).buffer 5 0x42#8) s.enabled)
        0x250#16 (.buffer 5) 1).mem [3#8, 2#8, 0x50#8] 0 := rfl
    rw [e, h]; rfl
  have h5 : (ping s).1.buffer 5 = 0x42#8 := rfl
  have e : (ping s).2 = decide ((ping s).1.buffer 5 = (ping s).1.buffer 6) := rfl
  rw [e, h5, h6]; rfl

example : (ping ⟨false, fun _ => 0#8, fun _ => 0#8, 0#32⟩).2 = false := by decide +kernel

/-! ### The global configuration -/

/-- C370 (partial): with a rejection of 50 Hz and degrees Celsius the register has the configuration given.  Missing: others. -/
theorem C370_configure_partial (s : State) (hp : s.present = true) : (configure s 0b10#8 0#8).mem 0x0f0 = 0b10#8 ||| 0#8 := by
  obtain ⟨m, _, _, _⟩ := write1 { s with buffer := Function.update s.buffer 0 (0b10#8 ||| 0#8) } hp 0x0f0#16 (.buffer 0)
  show (writeData _ 0x0f0#16 (.buffer 0) 1).mem 0x0f0 = _
  rw [m]; rfl

example : (init (fun _ => 0#8) (fun _ => 0#8)).present = true := rfl

/-- C370 (false in general): `writeData()` stores the instruction where `configure()` has put the configuration, and so sends
the instruction as the configuration, whatever is given. -/
theorem C370_configure_counterexample (s : State) (hp : s.present = true) :
    (∀ r u, (configure s r u).mem 0x0f0 = 2#8) ∧ (configure s 0b00#8 0b100#8).mem 0x0f0 ≠ 0b00#8 ||| 0b100#8 := by
  have h : ∀ r u, (configure s r u).mem 0x0f0 = 2#8 := by
    intro r u
    obtain ⟨m, _, _, _⟩ := write1 { s with buffer := Function.update s.buffer 0 (r ||| u) } hp 0x0f0#16 (.buffer 0)
    show (writeData _ 0x0f0#16 (.buffer 0) 1).mem 0x0f0 = _
    rw [m]; rfl
  refine ⟨h, ?_⟩
  rw [h]; decide

end Props.Ltc2984
