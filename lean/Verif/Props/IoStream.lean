import Mathlib.Tactic.Ring
import Mathlib.Tactic.Linarith
import Mathlib.Data.Nat.Digits.Lemmas
import Verif.Model.IoStream
import Verif.Spec.IoStream

set_option autoImplicit false

namespace Props.IoStream
open Modm.IoStream Spec.IoStream

/-! ## Numbers -/

private theorem number_append (b : ℕ) : ∀ (l m : List (BitVec 8)) (acc : ℕ), number b acc (l ++ m) = (number b acc l).bind fun a => number b a m
  | [], m, acc => rfl
  | c :: l, m, acc => by
    simp only [List.cons_append, number]
    cases digit c with
    | none => rfl
    | some d =>
      dsimp only
      split
      · exact number_append b l m _
      · rfl

private theorem number_acc (b : ℕ) : ∀ (l : List (BitVec 8)) (acc : ℕ), number b acc l = (number b 0 l).map fun v => acc * b ^ l.length + v
  | [], acc => by simp [number]
  | c :: l, acc => by
    simp only [number]
    cases digit c with
    | none => rfl
    | some d =>
      dsimp only
      split
      · rw [number_acc b l (acc * b + d), number_acc b l (0 * b + d)]
        cases number b 0 l with
        | none => rfl
        | some v => simp only [Option.map_some, List.length_cons]; congr 1; ring
      · rfl

private theorem hex_byte : ∀ v : Byte, number 16 0 (writeHex v) = some v.toNat := by decide +kernel

private theorem bin_byte : ∀ v : Byte, number 2 0 (writeBin v) = some v.toNat := by decide +kernel

private theorem bin_length : ∀ v : Byte, (writeBin v).length = 8 := fun _ => rfl

private theorem bytewise_number {b per : ℕ} {f : Byte → List Byte} (hb : b ^ per = 256) (hl : ∀ v, (f v).length = per) (hf : ∀ v, number b 0 (f v) = some v.toNat) :
    ∀ (l : List Byte) (acc : ℕ), number b acc (l.flatMap f) = some (l.foldl (fun a v => a * 256 + v.toNat) acc) ∧ (l.flatMap f).length = l.length * per
  | [], acc => by simp [number]
  | v :: l, acc => by
    obtain ⟨h1, h2⟩ := bytewise_number hb hl hf l (acc * 256 + v.toNat)
    refine ⟨?_, ?_⟩
    · rw [List.flatMap_cons, number_append, number_acc, hf, hl, hb]
      simpa using h1
    · rw [List.flatMap_cons, List.length_append, h2, hl]; simp; ring

private theorem shifts16 : shifts 16 300 (BitVec.ofNat 8 (16 - 8)) = some [8, 0] := by decide +kernel
private theorem shifts32 : shifts 32 300 (BitVec.ofNat 8 (32 - 8)) = some [24, 16, 8, 0] := by decide +kernel
private theorem shifts64 : shifts 64 300 (BitVec.ofNat 8 (64 - 8)) = some [56, 48, 40, 32, 24, 16, 8, 0] := by decide +kernel

private theorem byte_val {n : ℕ} (v : BitVec n) (k : ℕ) : ((v >>> k).setWidth 8 : BitVec 8).toNat = v.toNat / 2 ^ k % 256 := by
  rw [BitVec.toNat_setWidth, BitVec.toNat_ushiftRight, Nat.shiftRight_eq_div_pow]

private theorem bytewise_spec {b per : ℕ} {f : Byte → List Byte} (hb : b ^ per = 256) (hl : ∀ v, (f v).length = per) (hf : ∀ v, number b 0 (f v) = some v.toNat) {n : ℕ} (hn : n = 16 ∨ n = 32 ∨ n = 64)
    (v : BitVec n) : ∃ cs, bytewise f v = some cs ∧ Shows b per n v.toNat cs := by
  have key : ∀ l : List ℕ, shifts n 300 (BitVec.ofNat 8 (n - 8)) = some l → l.length = n / 8 → (l.foldl (fun a k => a * 256 + v.toNat / 2 ^ k % 256) 0 = v.toNat) →
      ∃ cs, bytewise f v = some cs ∧ Shows b per n v.toNat cs := by
    intro l h1 h2 h3
    obtain ⟨a, c⟩ := bytewise_number hb hl hf (l.map fun k => (v >>> k).setWidth 8) 0
    refine ⟨(l.map fun k => (v >>> k).setWidth 8).flatMap f, ?_, ?_, ?_⟩
    · unfold bytewise; rw [h1]; simp [List.flatMap_map]
    · rw [c, List.length_map, h2]
    · rw [a, List.foldl_map]
      simp only [byte_val]
      rw [h3]
  rcases hn with rfl | rfl | rfl
  · refine key _ shifts16 rfl ?_
    have := v.isLt
    simp only [List.foldl_cons, List.foldl_nil]; omega
  · refine key _ shifts32 rfl ?_
    have := v.isLt
    simp only [List.foldl_cons, List.foldl_nil]; omega
  · refine key _ shifts64 rfl ?_
    have := v.isLt
    simp only [List.foldl_cons, List.foldl_nil]; omega

/-! ## C170: hexadecimal and binary -/

/-- C170: after `hex` every integer of 16, 32 or 64 bits is written with all its hexadecimal digits, and these show it (a signed one as its two's complement); the loops end. -/
theorem C170_hex {n : ℕ} (hn : n = 16 ∨ n = 32 ∨ n = 64) (ib : ℕ) (s : Stream) (hs : s.mode = .hex) (v : BitVec n) :
    ∃ cs, unsigned s v = some (s.put cs) ∧ signed ib s v = some (s.put cs) ∧ Shows 16 2 n v.toNat cs := by
  obtain ⟨cs, h1, h2⟩ := bytewise_spec (b := 16) (per := 2) (by norm_num) (fun _ => rfl) hex_byte hn v
  exact ⟨cs, by simp [unsigned, hs, h1], by simp [signed, hs, h1], h2⟩

/-- C170: after `bin` likewise with binary digits. -/
theorem C170_bin {n : ℕ} (hn : n = 16 ∨ n = 32 ∨ n = 64) (ib : ℕ) (s : Stream) (hs : s.mode = .bin) (v : BitVec n) :
    ∃ cs, unsigned s v = some (s.put cs) ∧ signed ib s v = some (s.put cs) ∧ Shows 2 8 n v.toNat cs := by
  obtain ⟨cs, h1, h2⟩ := bytewise_spec (b := 2) (per := 8) (by norm_num) bin_length bin_byte hn v
  exact ⟨cs, by simp [unsigned, hs, h1], by simp [signed, hs, h1], h2⟩

/-- C170: characters and bytes too, with two or eight digits. -/
theorem C170_byte (ib : ℕ) (s : Stream) (v : Byte) :
    (s.mode = .hex → ∃ cs, step ib s (.char v) = some (s.put cs) ∧ step ib s (.u8 v) = some (s.put cs) ∧ Shows 16 2 8 v.toNat cs) ∧
    (s.mode = .bin → ∃ cs, step ib s (.char v) = some (s.put cs) ∧ step ib s (.u8 v) = some (s.put cs) ∧ Shows 2 8 8 v.toNat cs) := by
  refine ⟨fun h => ⟨writeHex v, by simp [step, h], by simp [step, h], rfl, hex_byte v⟩, fun h => ⟨writeBin v, by simp [step, h], by simp [step, h], rfl, bin_byte v⟩⟩

/-- C170: a pointer is written as `0x` and its eight digits in every mode. -/
theorem C170_pointer (ib : ℕ) (s : Stream) (v : BitVec 32) : ∃ cs, step ib s (.pointer v) = some (s.put ([0x30#8, 0x78#8] ++ cs)) ∧ Shows 16 2 32 v.toNat cs := by
  obtain ⟨cs, h1, h2⟩ := bytewise_spec (b := 16) (per := 2) (by norm_num) (fun _ => rfl) hex_byte (.inr (.inl rfl)) v
  exact ⟨cs, by simp [step, pointer, h1], h2⟩

private def exampleItems : List Item := [.hex, .i16 0xfffe#16, .u8 10#8, .bin, .char 0x41#8, .endl, .bool true, .u8 65#8]

-- `fffe`, `0A`, ... and back to decimal after `endl`
example : (run 32 .init exampleItems).map (·.out) = some ("FFFE0A01000001\ntrue65".toUTF8.toList.map (·.toBitVec)) := by decide +kernel

/-- C170: a function pointer is written as the address of the parameter, not of the function. -/
theorem C170_function_counterexample (ib : ℕ) (s : Stream) (a f : BitVec 32) (h : a ≠ f) :
    ∃ cs, step ib s (.function a f) = some (s.put ([0x30#8, 0x78#8] ++ cs)) ∧ number 16 0 cs = some a.toNat ∧ number 16 0 cs ≠ some f.toNat := by
  obtain ⟨cs, h1, h2⟩ := bytewise_spec (b := 16) (per := 2) (by norm_num) (fun _ => rfl) hex_byte (.inr (.inl rfl)) a
  refine ⟨cs, by simp [step, pointer, h1], h2.2, ?_⟩
  rw [h2.2]
  intro he
  exact h (BitVec.eq_of_toNat_eq (Option.some.inj he))

/-- the mode an item sets -/
private def sets : Item → Option Mode
  | .hex => some .hex
  | .bin => some .bin
  | .ascii => some .ascii
  | .endl => some .ascii
  | .flush => some .ascii
  | _ => none

private theorem fold_mode : ∀ (l : List Byte) (s : Stream), (l.foldl putGadget s).mode = s.mode
  | [], _ => rfl
  | c :: l, s => by
    rw [List.foldl_cons, fold_mode l]
    unfold putGadget Stream.put
    dsimp only
    split
    · rfl
    · split <;> rfl

private theorem unsigned_mode {n : ℕ} {s s' : Stream} {v : BitVec n} (h : unsigned s v = some s') : s'.mode = s.mode := by
  unfold unsigned at h
  split at h
  · injection h with h; rw [← h, fold_mode]
  · rw [Option.map_eq_some_iff] at h; obtain ⟨_, _, rfl⟩ := h; rfl
  · rw [Option.map_eq_some_iff] at h; obtain ⟨_, _, rfl⟩ := h; rfl

private theorem signed_mode {n ib : ℕ} {s s' : Stream} {v : BitVec n} (h : signed ib s v = some s') : s'.mode = s.mode := by
  unfold signed at h
  split at h
  all_goals rw [Option.map_eq_some_iff] at h; obtain ⟨m, _, rfl⟩ := h
  · rw [fold_mode]
  · rfl
  · rfl

private theorem pointer_mode {s s' : Stream} {v : BitVec 32} (h : pointer s v = some s') : s'.mode = s.mode := by
  unfold pointer at h
  rw [Option.map_eq_some_iff] at h; obtain ⟨m, _, rfl⟩ := h; rfl

private theorem step_mode {ib : ℕ} {s s' : Stream} {i : Item} (h : step ib s i = some s') : s'.mode = (sets i).getD s.mode := by
  cases i with
  | u16 v => exact unsigned_mode h
  | u32 v => exact unsigned_mode h
  | u64 v => exact unsigned_mode h
  | i16 v => exact signed_mode h
  | i32 v => exact signed_mode h
  | i64 v => exact signed_mode h
  | pointer v => exact pointer_mode h
  | function a v => exact pointer_mode h
  | bool v => injection h with h; rw [← h]; split <;> rfl
  | char v => injection h with h; rw [← h]; split <;> rfl
  | u8 v =>
    injection h with h; rw [← h]
    split
    · rw [fold_mode]; rfl
    · rfl
    · rfl
  | _ => injection h with h; rw [← h]; rfl

/-- C170: the mode is the one set last, by `hex`, `bin`, `ascii`, `endl` or `flush`. -/
theorem C170_mode {ib : ℕ} : ∀ (items : List Item) {s s' : Stream}, run ib s items = some s' →
    s'.mode = ((items.filterMap fun | .hex => some .hex | .bin => some .bin | .ascii => some .ascii | .endl => some .ascii | .flush => some .ascii | _ => none).getLast?).getD s.mode := by
  have key : ∀ (items : List Item) {s s' : Stream}, run ib s items = some s' → s'.mode = ((items.filterMap sets).getLast?).getD s.mode := by
    intro items
    induction items with
    | nil => intro s s' h; simp [run] at h; subst h; rfl
    | cons i rest ih =>
      intro s s' h
      simp only [run, Option.bind_eq_some_iff] at h
      obtain ⟨t, h1, h2⟩ := h
      rw [ih h2, step_mode h1]
      cases hm : sets i with
      | none => simp [hm]
      | some m =>
        rw [List.filterMap_cons_some hm, List.getLast?_cons]
        cases (rest.filterMap sets).getLast? <;> rfl
  intro items s s' h
  have e : sets = fun i => (match i with | .hex => some Mode.hex | .bin => some .bin | .ascii => some .ascii | .endl => some .ascii | .flush => some .ascii | _ => none) := by
    funext i; cases i <;> rfl
  have := key items h
  rw [e] at this
  exact this

/-! ## C171: decimal -/

private theorem digit_dec : ∀ d : ℕ, d < 10 → digit (BitVec.ofNat 8 (0x30 + d)) = some d := by decide

private theorem number_digits : ∀ ds : List ℕ, (∀ d ∈ ds, d < 10) → number 10 0 (ds.reverse.map fun d => BitVec.ofNat 8 (0x30 + d)) = some (Nat.ofDigits 10 ds)
  | [], _ => rfl
  | d :: ds, h => by
    have hd := h d (by simp)
    rw [List.reverse_cons, List.map_append, number_append, number_digits ds (fun x hx => h x (by simp [hx]))]
    simp only [Option.bind_some, List.map_cons, List.map_nil, number, digit_dec d hd, hd, if_true, Nat.ofDigits_cons]
    congr 1; ring

private theorem number_decimal (n : ℕ) : number 10 0 (decimal n) = some n := by
  unfold decimal
  split
  · rename_i h; subst h; decide
  · rw [number_digits _ (fun d hd => Nat.digits_lt_base (by norm_num) hd), Nat.ofDigits_digits]

private theorem decimal_ne (n : ℕ) : decimal n ≠ [] := by
  unfold decimal
  split
  · simp
  · rename_i h
    simp [Nat.digits_eq_nil_iff_eq_zero, h]

private theorem decimal_chars (n : ℕ) : ∀ c ∈ decimal n, c ≠ 0#8 ∧ c ≠ 0x2d#8 := by
  have hd : ∀ d : ℕ, d < 10 → (BitVec.ofNat 8 (0x30 + d)) ≠ 0#8 ∧ (BitVec.ofNat 8 (0x30 + d)) ≠ 0x2d#8 := by decide
  intro c hc
  unfold decimal at hc
  split at hc
  · simp at hc; subst hc; decide
  · simp only [List.mem_map, List.mem_reverse] at hc
    obtain ⟨d, h1, rfl⟩ := hc
    exact hd d (Nat.digits_lt_base (by norm_num) h1)

private theorem integer_decimal (n : ℕ) : integer (decimal n) = some (n : ℤ) := by
  have h1 := number_decimal n
  have h2 := decimal_chars n
  cases hd : decimal n with
  | nil => exact absurd hd (decimal_ne n)
  | cons c rest =>
    rw [hd] at h1 h2
    simp only [integer]
    rw [if_neg (h2 c (by simp)).2, h1]; rfl

private theorem integer_neg (n : ℕ) : integer (0x2d#8 :: decimal n) = some (-(n : ℤ)) := by
  simp only [integer]
  rw [if_pos trivial, if_neg (decimal_ne n), number_decimal]; rfl

private theorem decimal_length {n k : ℕ} (hk : 0 < k) (h : n < 10 ^ k) : (decimal n).length ≤ k := by
  unfold decimal
  split
  · simp; omega
  · rw [List.length_map, List.length_reverse]
    exact (Nat.digits_length_le_iff (by norm_num) n).2 h

private theorem fold_put : ∀ (l : List Byte) (s : Stream), (∀ c ∈ l, c ≠ 0#8) → s.pos.toNat + l.length ≤ 0x7fffffff →
    l.foldl putGadget s = { s.put l with pos := s.pos + BitVec.ofNat 32 l.length }
  | [], s, _, _ => by simp [Stream.put]
  | c :: l, s, h, hp => by
    have hc := h c (by simp)
    rw [List.length_cons] at hp
    have h1 : putGadget s c = { s.put [c] with pos := s.pos + 1#32 } := by
      unfold putGadget
      dsimp only
      rw [if_neg (by omega), if_neg hc]
      rfl
    have hpos : (s.pos + 1#32).toNat = s.pos.toNat + 1 := by
      rw [BitVec.toNat_add]; simp; omega
    rw [List.foldl_cons, h1, fold_put l _ (fun x hx => h x (by simp [hx])) (by simp only; omega)]
    unfold Stream.put
    simp only [List.append_assoc, List.cons_append, List.nil_append, Stream.mk.injEq, true_and]
    · simp only [List.length_cons]
      apply BitVec.eq_of_toNat_eq
      simp only [BitVec.toNat_add, BitVec.toNat_ofNat]; omega

/-- C171: every unsigned integer of up to 64 bits is written as a decimal number that shows it, if the stream has not written 2^31 - 21 digits before. -/
theorem C171_unsigned_partial {n : ℕ} (hn : n ≤ 64) (s : Stream) (hs : s.mode = .ascii) (hp : s.pos.toNat + 20 ≤ 0x7fffffff) (v : BitVec n) :
    ∃ s' cs, unsigned s v = some s' ∧ s'.out = s.out ++ cs ∧ integer cs = some (v.toNat : ℤ) := by
  have hv : v.toNat < 10 ^ 20 := lt_of_lt_of_le v.isLt (le_trans (Nat.pow_le_pow_right (by norm_num) hn) (by norm_num))
  have hl := decimal_length (by norm_num) hv
  have hf := fold_put (decimal v.toNat) s (fun c hc => (decimal_chars _ c hc).1) (by omega)
  refine ⟨_, decimal v.toNat, by simp only [unsigned, hs, printInteger]; rfl, ?_, integer_decimal _⟩
  simp only [Bool.false_eq_true, if_false, List.nil_append]
  rw [hf]; rfl

/-- C171: every signed integer too, except the least, if its type is not narrower than `int`. -/
theorem C171_signed_partial {n ib : ℕ} (hn0 : 0 < n) (hn : n ≤ 64) (s : Stream) (hs : s.mode = .ascii) (hp : s.pos.toNat + 20 ≤ 0x7fffffff) (v : BitVec n) (hv : v.toInt ≠ -2 ^ (n - 1) ∨ n < ib) :
    ∃ s' cs, signed ib s v = some s' ∧ s'.out = s.out ++ cs ∧ integer cs = some v.toInt := by
  have h2n : 2 ^ n = 2 * 2 ^ (n - 1) := by rw [← pow_succ', Nat.sub_add_cancel hn0]
  have hmax : (2 : ℕ) ^ (n - 1) ≤ 2 ^ 63 := Nat.pow_le_pow_right (by norm_num) (by omega)
  by_cases hneg : v.toInt < 0
  · have hge : -2 ^ (n - 1) ≤ v.toInt := BitVec.le_toInt v
    have hge' : -((2 ^ (n - 1) : ℕ) : ℤ) ≤ v.toInt := by exact_mod_cast hge
    have hfit : -v.toInt < 2 ^ (max n ib - 1) := by
      rcases hv with h | h
      · have h' : v.toInt ≠ -((2 ^ (n - 1) : ℕ) : ℤ) := by exact_mod_cast h
        have : (2 : ℕ) ^ (n - 1) ≤ 2 ^ (max n ib - 1) := Nat.pow_le_pow_right (by norm_num) (by omega)
        have h3 : ((2 ^ (n - 1) : ℕ) : ℤ) ≤ ((2 ^ (max n ib - 1) : ℕ) : ℤ) := by exact_mod_cast this
        have : -v.toInt < ((2 ^ (max n ib - 1) : ℕ) : ℤ) := by omega
        exact_mod_cast this
      · have : (2 : ℕ) ^ (n - 1) < 2 ^ (max n ib - 1) := Nat.pow_lt_pow_right (by norm_num) (by omega)
        have h3 : ((2 ^ (n - 1) : ℕ) : ℤ) < ((2 ^ (max n ib - 1) : ℕ) : ℤ) := by exact_mod_cast this
        have : -v.toInt < ((2 ^ (max n ib - 1) : ℕ) : ℤ) := by omega
        exact_mod_cast this
    have habs : (BitVec.ofInt n (-v.toInt)).toNat = (-v.toInt).toNat := by
      rw [BitVec.toNat_ofInt]
      congr 1
      apply Int.emod_eq_of_lt (by omega)
      have : -v.toInt < ((2 ^ n : ℕ) : ℤ) := by rw [h2n]; push_cast at hge' ⊢; linarith [pow_pos (by norm_num : (0:ℤ) < 2) (n-1)]
      exact_mod_cast this
    have hle : (-v.toInt).toNat ≤ 2 ^ 63 := by
      have : -v.toInt ≤ ((2 ^ (n - 1) : ℕ) : ℤ) := by linarith
      omega
    have hl := decimal_length (n := (-v.toInt).toNat) (k := 19) (by norm_num) (by omega)
    have hz : ∀ c ∈ (0x2d#8 :: decimal (-v.toInt).toNat), c ≠ 0#8 := by
      intro c hc
      rcases List.mem_cons.1 hc with rfl | hc
      · decide
      · exact (decimal_chars _ c hc).1
    have hf := fold_put (0x2d#8 :: decimal (-v.toInt).toNat) s hz (by rw [List.length_cons]; omega)
    have hm : magnitude ib v = some ((-v.toInt).toNat, true) := by unfold magnitude; rw [if_pos hneg, if_pos hfit, habs]
    refine ⟨_, 0x2d#8 :: decimal (-v.toInt).toNat, by simp only [signed, hs, hm, printInteger]; rfl, ?_, ?_⟩
    · simp only [if_true, List.cons_append, List.nil_append]
      rw [hf]; rfl
    · rw [integer_neg, Int.toNat_of_nonneg (by omega)]; simp
  · have hm : magnitude ib v = some (v.toNat, false) := by unfold magnitude; rw [if_neg hneg]
    have hv64 : v.toNat < 10 ^ 20 := lt_of_lt_of_le v.isLt (le_trans (Nat.pow_le_pow_right (by norm_num) hn) (by norm_num))
    have hl := decimal_length (by norm_num) hv64
    have hf := fold_put (decimal v.toNat) s (fun c hc => (decimal_chars _ c hc).1) (by omega)
    have hi : v.toInt = v.toNat := by
      rw [BitVec.toInt_eq_toNat_cond] at hneg ⊢
      split
      · rfl
      · rename_i h
        rw [if_neg h] at hneg
        have := v.isLt
        omega
    refine ⟨_, decimal v.toNat, by simp only [signed, hs, hm, printInteger]; rfl, ?_, ?_⟩
    · simp only [Bool.false_eq_true, if_false, List.nil_append]
      rw [hf]; rfl
    · rw [integer_decimal, hi]

-- -32768 where `int` has 32 bits
example : (signed 32 .init (0x8000#16)).map (·.out) = some ("-32768".toUTF8.toList.map (·.toBitVec)) := by decide +kernel

/-- C171: the least number of a type that is not narrower than `int` is negated in it, which is undefined. -/
theorem C171_least_counterexample (s : Stream) (hs : s.mode = .ascii) : signed 32 s (0x80000000#32) = none ∧ signed 32 s (0x8000000000000000#64) = none ∧ signed 16 s (0x8000#16) = none := by
  refine ⟨?_, ?_, ?_⟩ <;> simp only [signed, hs] <;> rfl

private theorem zeros (ib : ℕ) : ∀ k ≤ 0x7fffffff, run ib .init (List.replicate k (.u8 0#8)) = some ⟨List.replicate k 0x30#8, .ascii, BitVec.ofNat 32 k⟩ := by
  have hstep : ∀ k, k < 0x7fffffff → ∀ o, step ib ⟨o, .ascii, BitVec.ofNat 32 k⟩ (.u8 0#8) = some ⟨o ++ [0x30#8], .ascii, BitVec.ofNat 32 (k + 1)⟩ := by
    intro k hk o
    have e : printInteger ((0#8 : Byte).toNat, false) = [0x30#8] := by decide
    simp only [step, e, List.foldl_cons, List.foldl_nil, putGadget]
    rw [if_neg (by simp only [BitVec.toNat_ofNat]; omega), if_neg (by decide)]
    simp only [Stream.put, Option.some.injEq, Stream.mk.injEq, true_and]
    apply BitVec.eq_of_toNat_eq; simp
  have key : ∀ k j, j + k ≤ 0x7fffffff → run ib ⟨List.replicate j 0x30#8, .ascii, BitVec.ofNat 32 j⟩ (List.replicate k (.u8 0#8)) = some ⟨List.replicate (j + k) 0x30#8, .ascii, BitVec.ofNat 32 (j + k)⟩ := by
    intro k
    induction k with
    | zero => intro j _; rfl
    | succ k ih =>
      intro j hj
      rw [List.replicate_succ, run, hstep j (by omega), Option.bind_some]
      have := ih (j + 1) (by omega)
      rw [show List.replicate j 0x30#8 ++ [0x30#8] = List.replicate (j + 1) 0x30#8 from (List.replicate_succ' ..).symm, this]
      congr 2
      · congr 1; omega
      · congr 1; omega
  intro k hk
  have := key k 0 (by omega)
  simpa [Stream.init] using this

private theorem silent : ∀ (l : List Byte) (s : Stream), 0x7fffffff ≤ s.pos.toNat → s.pos.toNat + l.length ≤ 2 ^ 32 → (l.foldl putGadget s).out = s.out
  | [], _, _, _ => rfl
  | c :: l, s, h1, h2 => by
    rw [List.length_cons] at h2
    have h : putGadget s c = { s with pos := s.pos + 1#32 } := by
      unfold putGadget; dsimp only; rw [if_pos h1]
    rw [List.foldl_cons, h]
    rcases Nat.lt_or_ge (s.pos.toNat + 1) (2 ^ 32) with hlt | hge
    · have hpos : (s.pos + 1#32).toNat = s.pos.toNat + 1 := by rw [BitVec.toNat_add]; simp; omega
      exact silent l _ (by simp only; omega) (by simp only; omega)
    · have : l = [] := List.length_eq_zero_iff.1 (by omega)
      subst this; rfl

/-- C171: after 2^31 - 1 digits a stream writes no decimal number any more (as the library counts, until it has kept silent about as many). -/
theorem C171_silent_counterexample (ib : ℕ) : ∃ s, run ib .init (List.replicate 0x7fffffff (.u8 0#8)) = some s ∧ ∀ v : BitVec 32, ∃ s', step ib s (.u32 v) = some s' ∧ s'.out = s.out := by
  refine ⟨_, zeros ib 0x7fffffff le_rfl, fun v => ⟨_, rfl, ?_⟩⟩
  have hl := decimal_length (n := v.toNat) (k := 10) (by norm_num) (lt_of_lt_of_le v.isLt (by norm_num))
  apply silent
  · simp
  · simp only [printInteger, Bool.false_eq_true, if_false, List.nil_append]
    simp; omega

/-- C171: on AVRs without the library the buffers hold every number with its end. -/
theorem C171_buffers {n ib : ℕ} (hn : n = 16 ∨ n = 32) (v : BitVec n) : (printInteger (v.toNat, false)).length + 1 ≤ avrBuffer n false ∧
    ∀ m, magnitude ib v = some m → (printInteger m).length + 1 ≤ avrBuffer n true := by
  have hd : ∀ m : ℕ, (n = 16 → m < 2 ^ 16) → (n = 32 → m < 2 ^ 32) → (n = 16 → (decimal m).length ≤ 5) ∧ (n = 32 → (decimal m).length ≤ 10) := by
    intro m h1 h2
    exact ⟨fun h => decimal_length (by norm_num) (lt_of_lt_of_le (h1 h) (by norm_num)), fun h => decimal_length (by norm_num) (lt_of_lt_of_le (h2 h) (by norm_num))⟩
  have hv := v.isLt
  constructor
  · obtain ⟨h1, h2⟩ := hd v.toNat (fun h => by subst h; exact hv) (fun h => by subst h; exact hv)
    simp only [printInteger, Bool.false_eq_true, if_false, List.nil_append, avrBuffer]
    rcases hn with h | h
    · have := h1 h; simp [h]; omega
    · have := h2 h; simp [h]; omega
  · intro m hm
    have hb : m.1 < 2 ^ n := by
      unfold magnitude at hm
      split at hm
      · split at hm
        · injection hm with hm; rw [← hm]; exact (BitVec.ofInt n (-v.toInt)).isLt
        · simp at hm
      · injection hm with hm; rw [← hm]; exact hv
    obtain ⟨h1, h2⟩ := hd m.1 (fun h => by subst h; exact hb) (fun h => by subst h; exact hb)
    have hs : (if m.2 then [0x2d#8] else ([] : List Byte)).length ≤ 1 := by split <;> simp
    simp only [printInteger, List.length_append, avrBuffer, if_true]
    rcases hn with h | h
    · have := h1 h; simp only [h, if_true]; omega
    · have := h2 h; simp only [h]; norm_num; omega

/-! ## C172: devices -/

private theorem block_one (c : Byte) : ∀ a : List Bool, true ∈ a → ∃ r, wrapWrite true c a = some (r, [c]) ∧ r.count true + 1 = a.count true
  | [], h => by simp at h
  | true :: a, _ => ⟨a, rfl, by simp⟩
  | false :: a, h => by
    obtain ⟨r, h1, h2⟩ := block_one c a (by simpa using h)
    exact ⟨r, by simp [wrapWrite, h1], by simpa using h2⟩

/-- C172: with `BlockIfFull` the device gets all characters in order, if only it takes a character often enough, whenever that is. -/
theorem C172_block : ∀ (cs : List Byte) (a : List Bool), cs.length ≤ a.count true → ∃ r, wrapAll true cs a = some (r, cs) ∧ r.count true + cs.length = a.count true
  | [], a, _ => ⟨a, rfl, rfl⟩
  | c :: cs, a, h => by
    rw [List.length_cons] at h
    obtain ⟨r, h1, h2⟩ := block_one c a (by rw [← List.count_pos_iff]; omega)
    obtain ⟨q, h3, h4⟩ := C172_block cs r (by omega)
    exact ⟨q, by simp [wrapAll, h1, h3], by rw [List.length_cons]; omega⟩

/-- C172: and it never gets anything else: if the calls return, it has got exactly the characters. -/
theorem C172_block_only : ∀ (cs : List Byte) (a : List Bool) (r : List Bool × List Byte), wrapAll true cs a = some r → r.2 = cs := by
  have one : ∀ (c : Byte) (a : List Bool) (r : List Bool × List Byte), wrapWrite true c a = some r → r.2 = [c] := by
    intro c a
    induction a with
    | nil => intro r h; simp [wrapWrite] at h
    | cons b a ih =>
      intro r h
      cases b with
      | true => simp [wrapWrite] at h; rw [← h]
      | false => exact ih r (by simpa [wrapWrite] using h)
  intro cs
  induction cs with
  | nil => intro a r h; simp [wrapAll] at h; rw [← h]
  | cons c cs ih =>
    intro a r h
    simp only [wrapAll, Option.bind_eq_some_iff, Option.map_eq_some_iff] at h
    obtain ⟨x, h1, y, h2, rfl⟩ := h
    simp [one c a x h1, ih _ _ h2]

/-- C172: with `DiscardIfFull` every character is offered once, nothing waits, and the device has got those it took, in order. -/
theorem C172_discard : ∀ (cs : List Byte) (a : List Bool), cs.length ≤ a.length →
    wrapAll false cs a = some (a.drop cs.length, ((cs.zip a).filter (·.2)).map (·.1))
  | [], a, _ => rfl
  | c :: cs, [], h => by simp at h
  | c :: cs, b :: a, h => by
    have ih := C172_discard cs a (by simpa using h)
    cases b <;> simp [wrapAll, wrapWrite, ih]

/-- C172: so what it has got is a part of the characters, in order. -/
theorem C172_discard_sublist (cs : List Byte) (a : List Bool) (h : cs.length ≤ a.length) : ∃ r, wrapAll false cs a = some r ∧ r.2.Sublist cs := by
  refine ⟨_, C172_discard cs a h, ?_⟩
  have h1 : (((cs.zip a).filter (·.2)).map (·.1)).Sublist ((cs.zip a).map (·.1)) := List.Sublist.map _ List.filter_sublist
  have h2 : (cs.zip a).map (·.1) = cs := by
    rw [← List.unzip_fst, List.unzip_zip_left h]
  rwa [h2] at h1

example : wrapAll true [1#8, 2#8] [false, true, false, false, true, true] = some ([true], [1#8, 2#8]) ∧ wrapAll false [1#8, 2#8, 3#8] [true, false, true] = some ([], [1#8, 3#8]) := by decide

/-! ## C173: input -/

private theorem getLoop_spec : ∀ (n : ℕ) (input : List Byte), getLoop n input = (input.take n, input.drop n)
  | 0, _ => by simp [getLoop]
  | n + 1, [] => by simp [getLoop]
  | n + 1, c :: rest => by simp [getLoop, getLoop_spec n rest]

/-- C173: `get` of an array writes what is ready, at most one less than the array holds, ends it, and takes no more from the device. -/
theorem C173_get {n : ℕ} (hn : 0 < n) (input : List Byte) : ∃ s rest, get n input = (some (s ++ [0#8]), rest) ∧ s ++ rest = input ∧ (s ++ [0#8]).length ≤ n ∧ (s.length + 1 = n ∨ rest = []) := by
  refine ⟨input.take (n - 1), input.drop (n - 1), ?_, List.take_append_drop _ _, ?_, ?_⟩
  · unfold Modm.IoStream.get; rw [if_neg (by omega), getLoop_spec]
  · simp; omega
  · rw [List.length_take]
    rcases Nat.lt_or_ge input.length (n - 1) with h | h
    · right; exact List.drop_eq_nil_of_le h.le
    · left; omega

/-- C173: `get` of a character gives the next one. -/
theorem C173_char (c : Byte) (rest : List Byte) : getChar (c :: rest) = (c, rest) ∧ getChar [] = (0xff#8, []) := ⟨rfl, rfl⟩

/-- C173: but with the byte 0xff ready it gives the same as with none. -/
theorem C173_eof_counterexample (rest : List Byte) : (getChar (0xff#8 :: rest)).1 = (getChar []).1 := rfl

example : get 4 [1#8, 2#8, 3#8, 4#8] = (some [1#8, 2#8, 3#8, 0#8], [4#8]) := by decide

end Props.IoStream
