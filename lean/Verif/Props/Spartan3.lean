import Verif.Model.Spartan3

set_option autoImplicit false

namespace Props.Spartan3
open Model.Spartan3

/-! ### Specification -/

/-- Bit `i` of the configuration in the memory, the highest bit of each byte first. -/
def bitAt (mem : Nat → BitVec 8) (i : Nat) : Bool := (mem (i / 8)).getLsbD (7 - i % 8)

def stream (mem : Nat → BitVec 8) (k : Nat) : List Bool := (List.range k).map (bitAt mem)

/-- An FPGA that is done after `bits` bits, and has an error after `bad` bits. -/
def device (bits bad : Nat) : Fpga := ⟨fun l => decide (bits ≤ l.length), fun l => decide (bad ≤ l.length)⟩

/-- The size of the configuration in bits, from the table in fpga_type.hpp (Xilinx UG332). -/
def size : FpgaType → Nat
  | .Spartan3XC3S50 => 439264
  | .Spartan3XC3S200 => 1047616
  | .Spartan3XC3S400 => 1699136

theorem stream_succ (mem : Nat → BitVec 8) (k : Nat) : stream mem (k + 1) = stream mem k ++ [bitAt mem k] := by
  simp [stream, List.range_succ]

theorem stream_length (mem : Nat → BitVec 8) (k : Nat) : (stream mem k).length = k := by simp [stream]

theorem top_bit (b : BitVec 8) (j : Nat) (h : j < 8) : decide ((b <<< j) &&& 0x80#8 ≠ 0#8) = b.getLsbD (7 - j) := by
  have t : ∀ n < 256, ∀ j < 8, decide (((BitVec.ofNat 8 n) <<< j) &&& 0x80#8 ≠ 0#8) = (BitVec.ofNat 8 n).getLsbD (7 - j) := by
    decide +kernel
  have := t b.toNat b.isLt j h
  rwa [BitVec.ofNat_toNat, BitVec.setWidth_eq] at this

theorem sendByte_eq (mem : Nat → BitVec 8) (L E p : Nat) (n : Nat) : ∀ j, n = 8 - j → j ≤ 8 → 8 * p + j < L → 8 * p + j < E →
    sendByte (device L E) n (mem p <<< j) (stream mem (8 * p + j)) =
      if L ≤ E ∧ L ≤ 8 * p + 8 then (stream mem L, false)
      else if E < L ∧ E ≤ 8 * p + 8 then (stream mem E, true)
      else (stream mem (8 * p + 8), false) := by
  induction n with
  | zero =>
    intro j hn hj hL hE
    have j8 : j = 8 := by omega
    subst j8
    have a : ¬ (L ≤ E ∧ L ≤ 8 * p + 8) := by omega
    have b : ¬ (E < L ∧ E ≤ 8 * p + 8) := by omega
    rw [if_neg a, if_neg b]
    rfl
  | succ n ih =>
    intro j hn hj hL hE
    have j8 : j < 8 := by omega
    have bit : bitAt mem (8 * p + j) = decide ((mem p <<< j) &&& 0x80#8 ≠ 0#8) := by
      rw [top_bit (mem p) j j8]
      unfold bitAt
      rw [show (8 * p + j) / 8 = p by omega, show (8 * p + j) % 8 = j by omega]
    have st : stream mem (8 * p + j) ++ [decide ((mem p <<< j) &&& 0x80#8 ≠ 0#8)] = stream mem (8 * p + (j + 1)) := by
      rw [← bit, ← Nat.add_assoc, stream_succ]
    unfold sendByte
    simp only [st]
    have dn : (device L E).done (stream mem (8 * p + (j + 1))) = decide (L ≤ 8 * p + (j + 1)) := by
      simp [device, stream_length]
    have er : (device L E).error (stream mem (8 * p + (j + 1))) = decide (E ≤ 8 * p + (j + 1)) := by
      simp [device, stream_length]
    rw [dn, er]
    by_cases dl : L ≤ 8 * p + (j + 1)
    · have Le : L = 8 * p + (j + 1) := by omega
      have a : L ≤ E ∧ L ≤ 8 * p + 8 := by omega
      rw [if_pos (by simpa using dl), if_pos a, ← Le]
    · rw [if_neg (by simpa using dl)]
      by_cases el : E ≤ 8 * p + (j + 1)
      · have Ee : E = 8 * p + (j + 1) := by omega
        have a : ¬ (L ≤ E ∧ L ≤ 8 * p + 8) := by omega
        have b : E < L ∧ E ≤ 8 * p + 8 := by omega
        rw [if_pos (by simpa using el), if_neg a, if_pos b, ← Ee]
      · rw [if_neg (by simpa using el)]
        have sh : (mem p <<< j) <<< 1 = mem p <<< (j + 1) := by rw [BitVec.shiftLeft_add]
        rw [sh]
        exact ih (j + 1) (by omega) (by omega) (by omega) (by omega)

/-- A round of the loop, when the FPGA is neither done nor in error before. -/
theorem loop_step (mem : Nat → BitVec 8) (L E type n p : Nat) (buffer : Nat → BitVec 8) (hb : ∀ i, i < 256 → buffer i = mem (p - p % 256 + i))
    (hL : 8 * p < L) (hE : 8 * p < E) :
    ∃ offset' buffer', (∀ i, i < 256 → buffer' i = mem ((p + 1) - (p + 1) % 256 + i)) ∧ offset' = (p + 1) % 256 ∧
    loop mem (device L E) type (n + 1) p (p % 256) buffer (stream mem (8 * p)) =
      if E < L ∧ E ≤ 8 * p + 8 then some (false, stream mem E)
      else if p + 1 > type + 100 then some (false, stream mem (if L ≤ 8 * p + 8 then L else 8 * p + 8))
      else if L ≤ 8 * p + 8 then some (true, stream mem L)
      else loop mem (device L E) type n (p + 1) offset' buffer' (stream mem (8 * (p + 1))) := by
  refine ⟨if p % 256 + 1 = 256 then 0 else p % 256 + 1, if p % 256 + 1 = 256 then page mem (p + 1) else buffer, ?_, ?_, ?_⟩
  · intro i hi
    by_cases w : p % 256 + 1 = 256
    · rw [if_pos w]; unfold page
      congr 1; omega
    · rw [if_neg w, hb i hi]
      congr 1; omega
  · by_cases w : p % 256 + 1 = 256
    · rw [if_pos w]; omega
    · rw [if_neg w]; omega
  · have byte : buffer (p % 256) = mem p <<< 0 := by
      rw [hb _ (Nat.mod_lt _ (by omega))]
      have : p - p % 256 + p % 256 = p := by have := Nat.mod_le p 256; omega
      rw [this]; simp
    have sb := sendByte_eq mem L E p 8 0 rfl (by omega) (by omega) (by omega)
    rw [Nat.add_zero] at sb
    have dn : ∀ k, (device L E).done (stream mem k) = decide (L ≤ k) := by intro k; simp [device, stream_length]
    rw [loop.eq_2, byte, sb]
    by_cases c1 : L ≤ E ∧ L ≤ 8 * p + 8
    · have c2 : ¬ (E < L ∧ E ≤ 8 * p + 8) := by omega
      rw [if_pos c1, if_neg c2]
      simp only
      by_cases w : p % 256 + 1 = 256 <;> by_cases t : p + 1 > type + 100 <;> simp [w, t, dn, c1.2]
    · rw [if_neg c1]
      by_cases c2 : E < L ∧ E ≤ 8 * p + 8
      · rw [if_pos c2, if_pos c2]
      · have c3 : ¬ L ≤ 8 * p + 8 := by omega
        have e8 : 8 * p + 8 = 8 * (p + 1) := by omega
        rw [if_neg c2, if_neg c2]
        simp only
        rw [if_neg c3, if_neg c3]
        have nd : (device L E).done (stream mem (8 * (p + 1))) = false := by
          rw [dn, ← e8]; simpa using Nat.lt_of_not_le c3
        rw [e8]
        by_cases w : p % 256 + 1 = 256 <;> by_cases t : p + 1 > type + 100 <;> simp [w, t, nd]

theorem loop_result (mem : Nat → BitVec 8) (L E type : Nat) : ∀ m n p offset (buffer : Nat → BitVec 8), m = type + 100 - p → p ≤ type + 100 →
    type + 101 < n + p → offset = p % 256 → (∀ i, i < 256 → buffer i = mem (p - p % 256 + i)) → 8 * p < L → 8 * p < E →
    (L ≤ E → L ≤ 8 * (type + 100) → loop mem (device L E) type n p offset buffer (stream mem (8 * p)) = some (true, stream mem L)) ∧
    (E < L → E ≤ 8 * (type + 101) → loop mem (device L E) type n p offset buffer (stream mem (8 * p)) = some (false, stream mem E)) ∧
    (L ≤ E → 8 * (type + 101) ≤ L → loop mem (device L E) type n p offset buffer (stream mem (8 * p)) = some (false, stream mem (8 * (type + 101)))) := by
  intro m
  induction m with
  | zero =>
    intro n p offset buffer hm hp hn ho hb hL hE
    have pe : p = type + 100 := by omega
    obtain ⟨k, rfl⟩ : ∃ k, n = k + 1 := ⟨n - 1, by omega⟩
    obtain ⟨_, _, _, _, h⟩ := loop_step mem L E type k p buffer hb hL hE
    subst ho
    rw [h]
    refine ⟨?_, ?_, ?_⟩
    · intro a b; omega
    · intro a b; rw [if_pos (by omega)]
    · intro a b
      have c : ¬ (E < L ∧ E ≤ 8 * p + 8) := by omega
      rw [if_neg c, if_pos (by omega)]
      by_cases l : L ≤ 8 * p + 8
      · rw [if_pos l]; congr 3; omega
      · rw [if_neg l]; congr 3; omega
  | succ m ih =>
    intro n p offset buffer hm hp hn ho hb hL hE
    obtain ⟨k, rfl⟩ : ∃ k, n = k + 1 := ⟨n - 1, by omega⟩
    obtain ⟨o', b', hb', ho', h⟩ := loop_step mem L E type k p buffer hb hL hE
    subst ho
    rw [h]
    have nt : ¬ (p + 1 > type + 100) := by omega
    by_cases c : E < L ∧ E ≤ 8 * p + 8
    · rw [if_pos c]
      exact ⟨fun a => by omega, fun _ _ => rfl, fun a => by omega⟩
    · rw [if_neg c, if_neg nt]
      by_cases l : L ≤ 8 * p + 8
      · rw [if_pos l]
        exact ⟨fun _ _ => rfl, fun a b => by omega, fun a b => by omega⟩
      · rw [if_neg l]
        exact ih k (p + 1) o' b' (by omega) (by omega) (by omega) ho' hb' (by omega) (by omega)

theorem configure_result (mem : Nat → BitVec 8) (L E type : Nat) (hL : 0 < L) (hE : 0 < E) :
    (L ≤ E → L ≤ 8 * (type + 100) → configure mem (device L E) type = some (true, stream mem L)) ∧
    (E < L → E ≤ 8 * (type + 101) → configure mem (device L E) type = some (false, stream mem E)) ∧
    (L ≤ E → 8 * (type + 101) ≤ L → configure mem (device L E) type = some (false, stream mem (8 * (type + 101)))) := by
  have := loop_result mem L E type (type + 100) (type + 102) 0 0 (page mem 0) (by omega) (by omega) (by omega) rfl
    (by intro i _; simp [page]) (by omega) (by omega)
  exact this

/-- C353: for all contents of the memory, XC3S200 and XC3S400: an FPGA that is done after all bits of its configuration gets exactly
these bits in order, highest bit first, and the result is `true`; if it reports an error after any number of bits, no
more bits are sent and the result is `false`. -/
theorem C353_configure_partial (mem : Nat → BitVec 8) (t : FpgaType) (ht : t ≠ .Spartan3XC3S50) :
    (∀ bad, size t ≤ bad → configure mem (device (size t) bad) t.value = some (true, stream mem (size t))) ∧
    (∀ bad, 0 < bad → bad < size t → configure mem (device (size t) bad) t.value = some (false, stream mem bad)) := by
  have ok : size t ≤ 8 * (t.value + 100) ∧ 0 < size t := by
    cases t with
    | Spartan3XC3S50 => exact absurd rfl ht
    | Spartan3XC3S200 => decide
    | Spartan3XC3S400 => decide
  refine ⟨?_, ?_⟩
  · intro bad h
    exact (configure_result mem (size t) bad t.value ok.2 (by omega)).1 h ok.1
  · intro bad h0 h
    exact (configure_result mem (size t) bad t.value ok.2 h0).2.1 h (by omega)

/-- Case: a tiny device with three bytes. -/
example : configure (fun i => BitVec.ofNat 8 (i + 0x81)) (device 24 100) 3 =
    some (true, [true, false, false, false, false, false, false, true, true, false, false, false, false, false, true, false,
      true, false, false, false, false, false, true, true]) ∧ size .Spartan3XC3S200 = 8 * 130952 := by decide +kernel

/-- C353 (refuted): the number of bytes of XC3S50 is 54908, as in the comment above it, but the value is 53908.  With every
configuration of an XC3S50 without errors the driver gives up after 54009 bytes. -/
theorem C353_small_counterexample (mem : Nat → BitVec 8) (bad : Nat) (h : size .Spartan3XC3S50 ≤ bad) :
    configure mem (device (size .Spartan3XC3S50) bad) (FpgaType.value .Spartan3XC3S50) = some (false, stream mem (8 * 54009)) ∧
    8 * 54009 < size .Spartan3XC3S50 := by
  have s : 0 < size .Spartan3XC3S50 := by decide
  exact ⟨(configure_result mem (size .Spartan3XC3S50) bad (FpgaType.value .Spartan3XC3S50) s (by omega)).2.2 h (by decide), by decide⟩

end Props.Spartan3
