import Verif.Model.Can
import Verif.Spec.Lawicel
import Mathlib.Tactic.IntervalCases
import Mathlib.Data.List.Basic
set_option autoImplicit false
set_option linter.unusedSimpArgs false
/- Property C45 (Lawicel text format). -/
namespace Props.Lawicel
open Modm.Can Spec.Lawicel
open Modm.Sab (Byte)

/-! ### digits -/

def val (c : Byte) : Nat := (digit c).getD 0
def bad (c : Byte) : Bool := (digit c).isNone

theorem charToByte_eq : ∀ (c : Byte) (e : Bool), charToByte c e = (BitVec.ofNat 8 (val c), e || bad c) := by
  have : ∀ n < 256, ∀ e : Bool, charToByte (BitVec.ofNat 8 n) e = (BitVec.ofNat 8 (val (BitVec.ofNat 8 n)), e || bad (BitVec.ofNat 8 n)) := by
    decide +kernel
  intro c e
  have h := this c.toNat c.isLt e
  rwa [BitVec.ofNat_toNat, BitVec.setWidth_eq] at h

theorem digit_lt (c : Byte) (v : Nat) (h : digit c = some v) : v < 16 := by
  unfold digit at h
  split at h
  · injection h with h; omega
  split at h
  · injection h with h; omega
  split at h
  · injection h with h; omega
  · exact absurd h (by simp)

theorem val_lt (c : Byte) : val c < 16 := by
  unfold val
  cases h : digit c with
  | none => simp
  | some v => exact digit_lt c v h

theorem pair_eq (x y : Nat) (hx : x < 16) (hy : y < 16) : ((BitVec.ofNat 8 x) <<< 4) ||| BitVec.ofNat 8 y = BitVec.ofNat 8 (16 * x + y) := by
  have : ∀ x < 16, ∀ y < 16, ((BitVec.ofNat 8 x) <<< 4) ||| BitVec.ofNat 8 y = BitVec.ofNat 8 (16 * x + y) := by decide
  exact this x hx y hy

theorem hexToByte_eq (s : List Byte) (i : Nat) (a b : Byte) (ha : charAt s i = some a) (hb : charAt s (i + 1) = some b) (e : Bool) :
    hexToByte s i e = some (BitVec.ofNat 8 (16 * val a + val b), e || bad a || bad b) := by
  unfold hexToByte
  rw [ha, hb]
  simp only [Option.bind_some, Option.map_some, charToByte_eq, pair_eq _ _ (val_lt a) (val_lt b)]

theorem digit_some (c : Byte) (h : bad c = false) : digit c = some (val c) := by
  unfold bad at h; unfold val
  cases hd : digit c with
  | none => simp [hd] at h
  | some v => rfl

theorem digit_none (c : Byte) (h : bad c = true) : digit c = none := by
  unfold bad at h
  cases hd : digit c with
  | none => rfl
  | some v => simp [hd] at h

/-- value of the digits, bad ones counting zero -/
def value (v : Nat) (l : List Byte) : Nat := l.foldl (fun v c => 16 * v + val c) v

theorem number_eq (l : List Byte) : ∀ v, number v l = if l.any bad then none else some (value v l) := by
  induction l with
  | nil => intro v; rfl
  | cons c l ih =>
    intro v
    rw [number]
    cases hb : bad c with
    | true => rw [digit_none c hb]; simp [hb]
    | false => rw [digit_some c hb, Option.bind_some, ih]; simp [hb, value]

/-! ### reading -/

theorem charAt_append (p : List Byte) (x : Byte) (r : List Byte) : charAt (p ++ x :: r) p.length = some x := by
  unfold charAt
  rw [dif_pos (by simp)]
  simp

theorem readData_eq (s : List Byte) (len n : Nat) : ∀ (i pos : Nat) (pre ds data : List Byte) (e : Bool), s = pre ++ ds → pre.length = pos →
    ds.length = 2 * n → i + n ≤ data.length →
    ∃ data' e', readData s len n i pos data e = some (data', e') ∧ data'.length = data.length ∧
      (e' = false ↔ e = false ∧ (bytes ds).isSome) ∧ (∀ bs, bytes ds = some bs → data' = data.take i ++ bs ++ data.drop (i + n)) := by
  induction n with
  | zero =>
    intro i pos pre ds data e hs hp hd hi
    have : ds = [] := List.length_eq_zero_iff.mp (by omega)
    subst this
    refine ⟨data, e, rfl, rfl, by simp [bytes], ?_⟩
    intro bs h
    simp only [bytes, Option.some.injEq] at h
    subst h
    simp
  | succ n ih =>
    intro i pos pre ds data e hs hp hd hi
    obtain ⟨a, b, ds, rfl⟩ : ∃ a b t, ds = a :: b :: t := by
      match ds, hd with
      | a :: b :: t, _ => exact ⟨a, b, t, rfl⟩
      | [_], h => simp at h; omega
      | [], h => simp at h
    subst hp
    have ha : charAt s pre.length = some a := by rw [hs]; exact charAt_append pre a _
    have hb : charAt s (pre.length + 1) = some b := by
      have := charAt_append (pre ++ [a]) b ds
      rw [hs]
      simpa using this
    rw [readData, hexToByte_eq s pre.length a b ha hb, Option.bind_some, if_pos (by omega)]
    obtain ⟨data', e', g1, g2, g3, g4⟩ := ih (i + 1) (pre.length + 2) (pre ++ [a, b]) ds (data.set i (BitVec.ofNat 8 (16 * val a + val b)))
      (e || bad a || bad b) (by rw [hs]; simp) (by simp) (by simp at hd; omega) (by simp; omega)
    refine ⟨data', e', g1, by rw [g2]; simp, ?_, ?_⟩
    · rw [g3, bytes, number_eq]
      cases hba : bad a <;> cases hbb : bad b <;> cases hds : bytes ds <;> simp [hba, hbb, hds]
    · intro bs h
      rw [bytes, number_eq] at h
      cases hba : bad a <;> cases hbb : bad b <;> cases hds : bytes ds <;> simp [hba, hbb, hds] at h
      case false.false.some r =>
        subst h
        rw [g4 r hds]
        have e1 : (data.set i (BitVec.ofNat 8 (16 * val a + val b))).take (i + 1) = data.take i ++ [BitVec.ofNat 8 (16 * val a + val b)] := by
          rw [List.take_succ_eq_append_getElem (by simp; omega), List.take_set_of_le (Nat.le_refl _)]
          simp
        have e2 : (data.set i (BitVec.ofNat 8 (16 * val a + val b))).drop (i + 1 + n) = data.drop (i + (n + 1)) := by
          rw [List.drop_set_of_lt (by omega)]
          congr 1; omega
        rw [e1, e2]
        simp [value]

theorem or_bytes (a b : Nat) (ha : a < 256) (hb : b < 256) :
    ((BitVec.ofNat 8 a).setWidth 16 <<< 8 ||| (BitVec.ofNat 8 b).setWidth 16 : BitVec 16) = BitVec.ofNat 16 (256 * a + b) := by
  apply BitVec.eq_of_toNat_eq
  simp only [BitVec.toNat_or, BitVec.toNat_shiftLeft, BitVec.toNat_setWidth, BitVec.toNat_ofNat]
  have : (a % 2 ^ 8 % 2 ^ 16) <<< 8 % 2 ^ 16 = a <<< 8 := by
    rw [Nat.shiftLeft_eq, Nat.shiftLeft_eq]; omega
  rw [this, show b % 2 ^ 8 % 2 ^ 16 = b by omega, ← Nat.shiftLeft_add_eq_or_of_lt (by omega), Nat.shiftLeft_eq]
  omega

theorem or_words (a b : Nat) (ha : a < 65536) (hb : b < 65536) :
    ((BitVec.ofNat 16 a).setWidth 32 <<< 16 ||| (BitVec.ofNat 16 b).setWidth 32 : BitVec 32) = BitVec.ofNat 32 (65536 * a + b) := by
  apply BitVec.eq_of_toNat_eq
  simp only [BitVec.toNat_or, BitVec.toNat_shiftLeft, BitVec.toNat_setWidth, BitVec.toNat_ofNat]
  have : (a % 2 ^ 16 % 2 ^ 32) <<< 16 % 2 ^ 32 = a <<< 16 := by
    rw [Nat.shiftLeft_eq, Nat.shiftLeft_eq]; omega
  rw [this, show b % 2 ^ 16 % 2 ^ 32 = b by omega, ← Nat.shiftLeft_add_eq_or_of_lt (by omega), Nat.shiftLeft_eq]
  omega

theorem readExtended_eq (c a1 a2 a3 a4 a5 a6 a7 a8 : Byte) (r : List Byte) :
    readExtended (c :: a1 :: a2 :: a3 :: a4 :: a5 :: a6 :: a7 :: a8 :: r) false =
      some (BitVec.ofNat 32 (value 0 [a1, a2, a3, a4, a5, a6, a7, a8]), [a1, a2, a3, a4, a5, a6, a7, a8].any bad) := by
  have v1 := val_lt a1
  have v2 := val_lt a2
  have v3 := val_lt a3
  have v4 := val_lt a4
  have v5 := val_lt a5
  have v6 := val_lt a6
  have v7 := val_lt a7
  have v8 := val_lt a8
  unfold readExtended
  rw [hexToByte_eq _ 1 a1 a2 (by rfl) (by rfl), Option.bind_some, hexToByte_eq _ 3 a3 a4 (by rfl) (by rfl), Option.bind_some,
    hexToByte_eq _ 5 a5 a6 (by rfl) (by rfl), Option.bind_some, hexToByte_eq _ 7 a7 a8 (by rfl) (by rfl), Option.map_some]
  rw [or_bytes _ _ (by omega) (by omega), or_bytes _ _ (by omega) (by omega), or_words _ _ (by omega) (by omega)]
  congr 2
  · congr 1
    simp only [value, List.foldl_cons, List.foldl_nil]
    omega
  · simp [Bool.or_assoc]

theorem readStandard_eq (c a1 a2 a3 : Byte) (r : List Byte) :
    readStandard (c :: a1 :: a2 :: a3 :: r) false =
      some (BitVec.ofNat 32 (value 0 [a1, a2, a3]), [a1, a2, a3].any bad) := by
  have v1 := val_lt a1
  have v2 := val_lt a2
  have v3 := val_lt a3
  unfold readStandard
  rw [show charAt (c :: a1 :: a2 :: a3 :: r) 1 = some a1 by rfl, Option.bind_some, charToByte_eq]
  rw [hexToByte_eq _ 2 a2 a3 (by rfl) (by rfl), Option.map_some]
  simp only []
  rw [or_bytes _ _ (by omega) (by omega)]
  congr 2
  · apply BitVec.eq_of_toNat_eq
    simp only [value, List.foldl_cons, List.foldl_nil, BitVec.toNat_setWidth, BitVec.toNat_ofNat]
    omega
  · simp [Bool.or_assoc]

/-- how the parser reads the first character: `R`, `T` extended, `r`, `R` remote, everything else a standard data frame -/
def extOf (c : Byte) : Bool := c = 0x52#8 ∨ c = 0x54#8
def rtrOf (c : Byte) : Bool := c = 0x72#8 ∨ c = 0x52#8

/-- the result of the parser for a frame -/
def result (out : Message) (f : Frame) : Message :=
  { out with extended := f.extended, rtr := f.rtr, identifier := BitVec.ofNat 32 f.identifier, length := f.length, dlc := f.length,
             data := f.data ++ out.data.drop f.data.length }

theorem value_lt (l : List Byte) : ∀ v, value v l < 16 ^ l.length * (v + 1) := by
  induction l with
  | nil => intro v; simp [value]
  | cons c l ih =>
    intro v
    have h1 := ih (16 * v + val c)
    have h2 := val_lt c
    have h3 : 16 ^ l.length * (16 * v + val c + 1) ≤ 16 ^ l.length * (16 * (v + 1)) := Nat.mul_le_mul_left _ (by omega)
    have e : 16 ^ (c :: l).length * (v + 1) = 16 ^ l.length * (16 * (v + 1)) := by
      rw [List.length_cons, Nat.pow_succ, Nat.mul_assoc]
    rw [e]
    exact Nat.lt_of_lt_of_le h1 h3

theorem readIdentifier_eq (c : Byte) (ids : List Byte) (r : List Byte) (p : Nat) (m : Message) (hi : ids.length = if m.extended then 8 else 3) :
    readIdentifier (c :: (ids ++ r)) p m =
      if value 0 ids < (if m.extended then 2 ^ 29 else 2 ^ 11) then
        finish (c :: (ids ++ r)) p { m with identifier := BitVec.ofNat 32 (value 0 ids) } (ids.any bad)
      else some ({ m with identifier := BitVec.ofNat 32 (value 0 ids) }, false) := by
  have hv := value_lt ids 0
  have ht : (BitVec.ofNat 32 (value 0 ids)).toNat = value 0 ids := by
    rw [BitVec.toNat_ofNat]
    apply Nat.mod_eq_of_lt
    rw [hi] at hv
    cases he : m.extended <;> simp [he] at hv <;> omega
  unfold readIdentifier
  cases he : m.extended with
  | true =>
    rw [he] at hi
    simp only [if_true] at hi ⊢
    obtain ⟨a1, a2, a3, a4, a5, a6, a7, a8, rfl⟩ : ∃ a1 a2 a3 a4 a5 a6 a7 a8, ids = [a1, a2, a3, a4, a5, a6, a7, a8] := by
      match ids, hi with
      | [a1, a2, a3, a4, a5, a6, a7, a8], _ => exact ⟨a1, a2, a3, a4, a5, a6, a7, a8, rfl⟩
    simp only [List.cons_append, List.nil_append, readExtended_eq, Option.bind_some, ht]
    by_cases h : value 0 [a1, a2, a3, a4, a5, a6, a7, a8] < 2 ^ 29
    · rw [if_neg (by omega), if_pos h]
    · rw [if_pos (by omega), if_neg h]
  | false =>
    rw [he] at hi
    simp only [Bool.false_eq_true, if_false] at hi ⊢
    obtain ⟨a1, a2, a3, rfl⟩ : ∃ a1 a2 a3, ids = [a1, a2, a3] := by
      match ids, hi with
      | [a1, a2, a3], _ => exact ⟨a1, a2, a3, rfl⟩
    simp only [List.cons_append, List.nil_append, readStandard_eq, Option.bind_some, ht]
    by_cases h : value 0 [a1, a2, a3] < 2 ^ 11
    · rw [if_neg (by omega), if_pos h]
    · rw [if_pos (by omega), if_neg h]

theorem bytes_length (ds : List Byte) : ∀ bs, bytes ds = some bs → ds.length = 2 * bs.length := by
  induction ds using bytes.induct with
  | case1 => intro bs h; simp [bytes] at h; subst h; rfl
  | case2 a => intro bs h; simp [bytes] at h
  | case3 a b cs ih =>
    intro bs h
    rw [bytes, Option.bind_eq_some_iff] at h
    obtain ⟨v, -, h⟩ := h
    rw [Option.map_eq_some_iff] at h
    obtain ⟨r, h1, rfl⟩ := h
    simp only [List.length_cons, ih r h1]
    omega

/-- the parser never reads past the terminator and accepts exactly the texts of frames, apart from the first letter -/
theorem parse (s : List Byte) (out : Message) (hd : 8 ≤ out.data.length) :
    ∃ m b, convertToCanMessage s out = some (m, b) ∧ m.data.length = out.data.length ∧
      (b = true ↔ ∃ c t f, s = c :: t ∧ f.extended = extOf c ∧ f.rtr = rtrOf c ∧ Tail t f) ∧
      (∀ c t f, s = c :: t → f.extended = extOf c → f.rtr = rtrOf c → Tail t f → m = result out f) := by
  cases s with
  | nil =>
    have : convertToCanMessage [] out = some ({ out with extended := false }, false) := by
      unfold convertToCanMessage
      rw [show charAt [] 0 = some 0#8 from rfl, Option.bind_some, if_neg (by decide)]
      rfl
    refine ⟨_, _, this, rfl, by simp, ?_⟩
    intro c t f h
    exact absurd h (by simp)
  | cons c t =>
    have h0 : convertToCanMessage (c :: t) out = readLength (c :: t) c (if extOf c then 9 else 4) { out with extended := extOf c } := by
      unfold convertToCanMessage
      rw [show charAt (c :: t) 0 = some c from rfl, Option.bind_some]
      by_cases h : c = 0x52#8 ∨ c = 0x54#8
      · rw [if_pos h, show extOf c = true from decide_eq_true h]; rfl
      · rw [if_neg h, show extOf c = false from decide_eq_false h]; rfl
    obtain ⟨k, hk⟩ : ∃ k, k = (if extOf c then 8 else 3) := ⟨_, rfl⟩
    have hk1 : (if extOf c then 9 else 4) = k + 1 := by rw [hk]; split <;> rfl
    rw [hk1] at h0
    by_cases hlen : (c :: t).length < k + 1 + 1
    · refine ⟨{ out with extended := extOf c }, false, by rw [h0, readLength, if_pos hlen], rfl, ?_, ?_⟩
      · simp only [Bool.false_eq_true, false_iff]
        rintro ⟨c', t', f, h1, h2, h3, h4, ids, l, ds, h5, h6, h7⟩
        injection h1 with h1 h1'
        subst h1 h1'
        rw [h2, ← hk] at h6
        rw [h5] at hlen
        simp at hlen
        omega
      · rintro c' t' f h1 h2 h3 ⟨h4, ids, l, ds, h5, h6, h7⟩
        injection h1 with h1 h1'
        subst h1 h1'
        rw [h2, ← hk] at h6
        rw [h5] at hlen
        simp at hlen
        omega
    · obtain ⟨ids, l, ds, rfl, hids⟩ : ∃ ids l ds, t = ids ++ [l] ++ ds ∧ ids.length = k := by
        have hl : k < t.length := by simp at hlen; omega
        refine ⟨t.take k, t[k], t.drop (k + 1), ?_, by simp; omega⟩
        rw [List.append_assoc]
        simp
      have hl : charAt (c :: (ids ++ [l] ++ ds)) (k + 1) = some l := by
        have := charAt_append (c :: ids) l ds
        rw [List.length_cons, hids] at this
        simpa using this
      have hu : ∀ f : Frame, f.extended = extOf c → f.rtr = rtrOf c → (Tail (ids ++ [l] ++ ds) f ↔
          f.Valid ∧ number 0 ids = some f.identifier ∧ l.toNat = 48 + f.length ∧ bytes ds = some f.data) := by
        intro f h2 h3
        constructor
        · rintro ⟨h4, ids', l', ds', h5, h6, h7, h8, h9⟩
          rw [h2, ← hk] at h6
          rw [List.append_assoc, List.append_assoc] at h5
          obtain ⟨e1, e2⟩ := List.append_inj h5 (by omega)
          injection e2 with e2 e3
          have e3 : ds = ds' := e3
          subst e1 e2 e3
          exact ⟨h4, h7, h8, h9⟩
        · rintro ⟨h4, h7, h8, h9⟩
          exact ⟨h4, ids, l, ds, rfl, by rw [h2, ← hk]; exact hids, h7, h8, h9⟩
      have hred : ((∃ c' t' f, c :: (ids ++ [l] ++ ds) = c' :: t' ∧ f.extended = extOf c' ∧ f.rtr = rtrOf c' ∧ Tail t' f) ↔
          ∃ f : Frame, f.extended = extOf c ∧ f.rtr = rtrOf c ∧ f.Valid ∧ number 0 ids = some f.identifier ∧ l.toNat = 48 + f.length ∧ bytes ds = some f.data) := by
        constructor
        · rintro ⟨c', t', f, h1, h2, h3, h4⟩
          injection h1 with h1 h1'
          subst h1 h1'
          exact ⟨f, h2, h3, (hu f h2 h3).mp h4⟩
        · rintro ⟨f, h2, h3, h4⟩
          exact ⟨c, _, f, rfl, h2, h3, (hu f h2 h3).mpr h4⟩
      suffices hs : ∃ m b, convertToCanMessage (c :: (ids ++ [l] ++ ds)) out = some (m, b) ∧ m.data.length = out.data.length ∧
          (b = true ↔ ∃ f : Frame, f.extended = extOf c ∧ f.rtr = rtrOf c ∧ f.Valid ∧ number 0 ids = some f.identifier ∧ l.toNat = 48 + f.length ∧ bytes ds = some f.data) ∧
          (∀ f : Frame, f.extended = extOf c → f.rtr = rtrOf c → f.Valid → number 0 ids = some f.identifier → l.toNat = 48 + f.length → bytes ds = some f.data → m = result out f) by
        obtain ⟨m, b, g1, g2, g3, g4⟩ := hs
        refine ⟨m, b, g1, g2, by rw [g3, hred], ?_⟩
        intro c' t' f h1 h2 h3 h4
        injection h1 with h1 h1'
        subst h1 h1'
        obtain ⟨k1, k2, k3, k4⟩ := (hu f h2 h3).mp h4
        exact g4 f h2 h3 k1 k2 k3 k4
      rw [h0, readLength, if_neg hlen, hl, Option.bind_some]
      obtain ⟨n, hn⟩ : ∃ n, n = (l - 0x30#8).toNat := ⟨_, rfl⟩
      have hln : ∀ j, j ≤ 8 → (l.toNat = 48 + j ↔ n = j) := by
        intro j hj
        have := l.isLt
        rw [hn, BitVec.toNat_sub]
        simp
        omega
      rw [← hn]
      by_cases hn8 : n > 8
      · rw [if_pos hn8]
        refine ⟨_, false, rfl, rfl, ?_, ?_⟩
        · simp only [Bool.false_eq_true, false_iff]
          rintro ⟨f, -, -, hv, -, h, -⟩
          rw [hln _ hv.2.1] at h
          have := hv.2.1
          omega
        · intro f _ _ hv _ h _
          rw [hln _ hv.2.1] at h
          have := hv.2.1
          omega
      rw [if_neg hn8]
      -- the length of the string
      have hkind : readKind (c :: (ids ++ [l] ++ ds)) c (k + 1) { out with extended := extOf c, length := n, dlc := n } =
          if ds.length = (if rtrOf c then 0 else 2 * n) then
            readIdentifier (c :: (ids ++ [l] ++ ds)) (k + 1) { out with extended := extOf c, length := n, dlc := n, rtr := rtrOf c }
          else some ({ out with extended := extOf c, length := n, dlc := n, rtr := rtrOf c }, false) := by
        have hsl : (c :: (ids ++ [l] ++ ds)).length = k + 2 + ds.length := by simp; omega
        unfold readKind
        by_cases h : c = 0x72#8 ∨ c = 0x52#8
        · rw [if_pos h, show rtrOf c = true from decide_eq_true h, hsl]
          by_cases h2 : ds.length = 0
          · rw [if_neg (by omega)]; simp [h2]
          · rw [if_pos (by omega)]; simp [h2]
        · rw [if_neg h, show rtrOf c = false from decide_eq_false h, hsl]
          by_cases h2 : ds.length = 2 * n
          · rw [if_neg (by simp only; omega)]; simp [h2]
          · rw [if_pos (by simp only; omega)]; simp [h2]
      rw [hkind]
      by_cases hdl : ds.length = (if rtrOf c then 0 else 2 * n)
      swap
      · rw [if_neg hdl]
        have hno : ∀ f : Frame, f.rtr = rtrOf c → f.Valid → l.toNat = 48 + f.length → bytes ds = some f.data → False := by
          intro f h3 hv h5 h6
          rw [hln _ hv.2.1] at h5
          apply hdl
          rw [bytes_length ds _ h6, hv.2.2, h3, ← h5]
          split <;> rfl
        refine ⟨_, false, rfl, rfl, ?_, ?_⟩
        · simp only [Bool.false_eq_true, false_iff]
          rintro ⟨f, h2, h3, hv, h4, h5, h6⟩
          exact hno f h3 hv h5 h6
        · intro f h2 h3 hv h4 h5 h6
          exact absurd (hno f h3 hv h5 h6) id
      rw [if_pos hdl, List.append_assoc, readIdentifier_eq c ids ([l] ++ ds) (k + 1) _ (by simp only; rw [hids, hk])]
      simp only []
      by_cases hid : value 0 ids < (if extOf c then 2 ^ 29 else 2 ^ 11)
      swap
      · rw [if_neg hid]
        have hno : ∀ f : Frame, f.extended = extOf c → f.Valid → number 0 ids = some f.identifier → False := by
          intro f h2 hv h4
          rw [number_eq] at h4
          split at h4
          · exact absurd h4 (by simp)
          · injection h4 with h4
            have := hv.1
            rw [← h4, h2] at this
            exact hid this
        refine ⟨_, false, rfl, rfl, ?_, ?_⟩
        · simp only [Bool.false_eq_true, false_iff]
          rintro ⟨f, h2, h3, hv, h4, h5, h6⟩
          exact hno f h2 hv h4
        · intro f h2 h3 hv h4 h5 h6
          exact absurd (hno f h2 hv h4) id
      rw [if_pos hid]
      have hnum : ∀ i, number 0 ids = some i ↔ ids.any bad = false ∧ value 0 ids = i := by
        intro i
        rw [number_eq]
        cases ids.any bad <;> simp
      unfold finish
      cases hr : rtrOf c with
      | true =>
        simp only [hr, if_true]
        rw [hr] at hdl
        have hds : ds = [] := List.length_eq_zero_iff.mp hdl
        subst hds
        refine ⟨_, _, rfl, rfl, ?_, ?_⟩
        · constructor
          · intro hb
            refine ⟨⟨extOf c, true, value 0 ids, n, []⟩, rfl, rfl, ⟨hid, by simp only; omega, rfl⟩, ?_, ?_, rfl⟩
            · rw [hnum]; simpa using hb
            · exact (hln n (by omega)).mpr rfl
          · rintro ⟨f, h2, h3, hv, h4, h5, h6⟩
            rw [hnum] at h4
            simpa using h4.1
        · intro f h2 h3 hv h4 h5 h6
          rw [hnum] at h4
          rw [hln _ hv.2.1] at h5
          simp only [bytes, Option.some.injEq] at h6
          unfold result
          rw [h2, h3, ← h4.2, ← h5, ← h6]
          simp
      | false =>
        rw [hr] at hdl
        simp only [hr, Bool.false_eq_true, if_false] at hdl ⊢
        obtain ⟨data', e', g1, g2, g3, g4⟩ := readData_eq (c :: (ids ++ ([l] ++ ds))) n n 0 (k + 1 + 1) (c :: (ids ++ [l])) ds out.data (ids.any bad)
          (by simp) (by simp; omega) hdl (by omega)
        rw [g1]
        refine ⟨_, _, rfl, g2, ?_, ?_⟩
        · constructor
          · intro hb
            have hb' : e' = false := by simpa using hb
            rw [g3, Option.isSome_iff_exists] at hb'
            obtain ⟨h1, bs, h2⟩ := hb'
            have hbl := bytes_length ds bs h2
            refine ⟨⟨extOf c, false, value 0 ids, n, bs⟩, rfl, rfl, ⟨hid, by simp only; omega, by simp only [Bool.false_eq_true, if_false]; omega⟩, ?_, ?_, h2⟩
            · rw [hnum]; exact ⟨h1, rfl⟩
            · exact (hln n (by omega)).mpr rfl
          · rintro ⟨f, h2, h3, hv, h4, h5, h6⟩
            rw [hnum] at h4
            have : e' = false := g3.mpr ⟨h4.1, by rw [h6]; rfl⟩
            rw [this]; rfl
        · intro f h2 h3 hv h4 h5 h6
          rw [hnum] at h4
          rw [hln _ hv.2.1] at h5
          have hbl := bytes_length ds _ h6
          unfold result
          rw [h2, h3, ← h4.2, ← h5, g4 f.data h6]
          have : f.data.length = n := by omega
          simp [this]


/-! ### writing -/

theorem byteToHex_digit (b : Byte) : digit (byteToHex b) = some (b.toNat % 16) ∧ byteToHex b ≠ 0#8 := by
  have : ∀ n < 256, digit (byteToHex (BitVec.ofNat 8 n)) = some ((BitVec.ofNat 8 n).toNat % 16) ∧ byteToHex (BitVec.ofNat 8 n) ≠ 0#8 := by
    decide +kernel
  have h := this b.toNat b.isLt
  rwa [BitVec.ofNat_toNat, BitVec.setWidth_eq] at h

/-- the two digits of a byte -/
def pairOf (b : Byte) : List Byte := [byteToHex (b >>> 4), byteToHex b]

theorem number_pair (b : Byte) (v : Nat) (r : List Byte) : number v (pairOf b ++ r) = number (256 * v + b.toNat) r := by
  unfold pairOf
  rw [List.cons_append, List.cons_append, List.nil_append, number, (byteToHex_digit _).1, Option.bind_some, number, (byteToHex_digit _).1, Option.bind_some]
  congr 1
  have := b.isLt
  rw [BitVec.toNat_ushiftRight, Nat.shiftRight_eq_div_pow]
  omega

theorem bytes_pairs (bs : List Byte) : bytes (bs.flatMap pairOf) = some bs := by
  induction bs with
  | nil => rfl
  | cons b bs ih =>
    rw [List.flatMap_cons]
    have h := number_pair b 0 []
    rw [List.append_nil] at h
    show bytes (byteToHex (b >>> 4) :: byteToHex b :: bs.flatMap pairOf) = _
    rw [bytes, ih]
    have h' : number 0 [byteToHex (b >>> 4), byteToHex b] = some b.toNat := by
      have e : [byteToHex (b >>> 4), byteToHex b] = pairOf b := rfl
      rw [e, h]; simp [number]
    rw [h']
    simp

theorem put_append (p : List Byte) (x : Byte) (r : List Byte) (v : Byte) : put (p ++ x :: r) p.length v = some (p ++ v :: r) := by
  unfold put
  rw [if_pos (by simp), List.set_append_right _ _ (Nat.le_refl _)]
  simp

theorem putBytes (m : Message) (db k : Nat) : ∀ (i : Nat) (pre r : List Byte), pre.length = db + 2 * i → 2 * k ≤ r.length → i + k ≤ m.data.length →
    (List.range' i k).foldlM (putByte m db) (pre ++ r) = some (pre ++ ((m.data.drop i).take k).flatMap pairOf ++ r.drop (2 * k)) := by
  induction k with
  | zero => intro i pre r _ _ _; simp
  | succ k ih =>
    intro i pre r hp hr hi
    obtain ⟨x, y, r, rfl⟩ : ∃ x y t, r = x :: y :: t := by
      match r, hr with
      | x :: y :: t, _ => exact ⟨x, y, t, rfl⟩
      | [_], h => simp at h; omega
      | [], h => simp at h
    have hb : putByte m db (pre ++ x :: y :: r) i = some (pre ++ pairOf m.data[i] ++ r) := by
      unfold putByte
      rw [dif_pos (by omega), ← hp, put_append, Option.bind_some]
      have := put_append (pre ++ [byteToHex (m.data[i] >>> 4)]) y r (byteToHex m.data[i])
      rw [List.length_append, List.length_singleton, List.append_assoc, List.append_assoc] at this
      rw [List.append_assoc]
      exact this
    rw [List.range'_succ, List.foldlM_cons, hb]
    have := ih (i + 1) (pre ++ pairOf m.data[i]) r (by rw [List.length_append, hp]; show _ + 2 = _; omega) (by simp at hr; omega) (by omega)
    show List.foldlM (putByte m db) (pre ++ pairOf m.data[i] ++ r) (List.range' (i + 1) k) = _
    have e1 : (m.data.drop i).take (k + 1) = m.data[i] :: (m.data.drop (i + 1)).take k := by
      rw [List.drop_eq_getElem_cons (show i < m.data.length by omega), List.take_succ_cons]
    have e2 : (x :: y :: r).drop (2 * (k + 1)) = r.drop (2 * k) := rfl
    rw [this, e1, e2, List.flatMap_cons]
    simp only [List.append_assoc]

/-- the text of a message -/
def text (m : Message) : List Byte :=
  kindChar m :: (if m.extended then pairOf (idByte m 3) ++ pairOf (idByte m 2) ++ pairOf (idByte m 1) ++ pairOf (idByte m 0)
    else byteToHex (idByte m 1) :: pairOf (idByte m 0)) ++ [byteToHex (BitVec.ofNat 8 m.length)] ++
    (if m.rtr then [] else (m.data.take m.length).flatMap pairOf)

theorem putData_eq (m : Message) (pre r : List Byte) (hr : 2 * (if m.rtr then 0 else m.length) ≤ r.length) (hl : m.length ≤ m.data.length) (x : Byte)
    (hx : m.rtr = true → x = 0#8) :
    ∃ r', putData m pre.length (pre ++ x :: r) = some (pre ++ (if m.rtr then [] else (m.data.take m.length).flatMap pairOf) ++ 0#8 :: r') := by
  unfold putData
  cases h : m.rtr with
  | true => exact ⟨r, by simp [hx h]⟩
  | false =>
    rw [h] at hr
    simp only [Bool.false_eq_true, if_false] at hr ⊢
    rw [List.range_eq_range', putBytes m pre.length m.length 0 pre (x :: r) (by omega) (by simp; omega) (by omega), Option.bind_some]
    obtain ⟨y, t, ht⟩ : ∃ y t, (x :: r).drop (2 * m.length) = y :: t := by
      cases hdr : (x :: r).drop (2 * m.length) with
      | nil => rw [List.drop_eq_nil_iff] at hdr; simp at hdr; omega
      | cons y t => exact ⟨y, t, rfl⟩
    rw [ht, List.drop_zero]
    have hlen : (pre ++ (m.data.take m.length).flatMap pairOf).length = pre.length + 2 * m.length := by
      rw [List.length_append, List.length_flatMap]
      have : (List.map (fun a => (pairOf a).length) (List.take m.length m.data)) = List.replicate m.length 2 := by
        apply List.eq_replicate_iff.mpr
        refine ⟨by simp; omega, ?_⟩
        intro b hb
        simp only [List.mem_map] at hb
        obtain ⟨a, -, rfl⟩ := hb
        rfl
      rw [this]; simp; omega
    have := put_append (pre ++ (m.data.take m.length).flatMap pairOf) y t 0#8
    rw [hlen] at this
    exact ⟨t, this⟩

theorem writes (m : Message) (out : List Byte) (hl : m.length ≤ m.data.length)
    (ho : 2 + (if m.extended then 9 else 4) + 2 * (if m.rtr then 0 else m.length) ≤ out.length) :
    ∃ r, convertToString m out = some (text m ++ 0#8 :: r) := by
  unfold convertToString text
  cases he : m.extended with
  | true =>
    rw [he] at ho
    simp only [if_true] at ho ⊢
    obtain ⟨x0, x1, x2, x3, x4, x5, x6, x7, x8, x9, x10, r, rfl⟩ : ∃ x0 x1 x2 x3 x4 x5 x6 x7 x8 x9 x10 r,
        out = x0 :: x1 :: x2 :: x3 :: x4 :: x5 :: x6 :: x7 :: x8 :: x9 :: x10 :: r := by
      have h11 : 11 ≤ out.length := by omega
      match out, h11 with
      | x0 :: x1 :: x2 :: x3 :: x4 :: x5 :: x6 :: x7 :: x8 :: x9 :: x10 :: r, _ => exact ⟨x0, x1, x2, x3, x4, x5, x6, x7, x8, x9, x10, r, rfl⟩
    have hp : ∀ (l : List Byte) (i : Nat) (v : Byte), i < l.length → put l i v = some (l.set i v) := by
      intro l i v h; unfold put; rw [if_pos h]
    obtain ⟨r', g⟩ := putData_eq m (kindChar m :: (pairOf (idByte m 3) ++ pairOf (idByte m 2) ++ pairOf (idByte m 1) ++ pairOf (idByte m 0)) ++ [byteToHex (BitVec.ofNat 8 m.length)])
      r (by simp only [List.length_cons] at ho; omega) hl 0#8 (fun _ => rfl)
    refine ⟨r', ?_⟩
    rw [← g]
    simp [hp, putId, pairOf, List.range_succ]
  | false =>
    rw [he] at ho
    simp only [Bool.false_eq_true, if_false] at ho ⊢
    obtain ⟨x0, x1, x2, x3, x4, x5, r, rfl⟩ : ∃ x0 x1 x2 x3 x4 x5 r, out = x0 :: x1 :: x2 :: x3 :: x4 :: x5 :: r := by
      have h6 : 6 ≤ out.length := by omega
      match out, h6 with
      | x0 :: x1 :: x2 :: x3 :: x4 :: x5 :: r, _ => exact ⟨x0, x1, x2, x3, x4, x5, r, rfl⟩
    have hp : ∀ (l : List Byte) (i : Nat) (v : Byte), i < l.length → put l i v = some (l.set i v) := by
      intro l i v h; unfold put; rw [if_pos h]
    obtain ⟨r', g⟩ := putData_eq m (kindChar m :: (byteToHex (idByte m 1) :: pairOf (idByte m 0)) ++ [byteToHex (BitVec.ofNat 8 m.length)])
      r (by simp only [List.length_cons] at ho; omega) hl 0#8 (fun _ => rfl)
    refine ⟨r', ?_⟩
    rw [← g]
    simp [hp, pairOf]

/-- the frame a message stands for -/
def frameOf (m : Message) : Frame :=
  ⟨m.extended, m.rtr, m.identifier.toNat, m.length, if m.rtr then [] else m.data.take m.length⟩

/-- messages the format can express: identifier of 29 or 11 bits, at most 8 data bytes -/
def Valid (m : Message) : Prop := m.identifier.toNat < (if m.extended then 2 ^ 29 else 2 ^ 11) ∧ m.length ≤ 8 ∧ m.length ≤ m.data.length

theorem idByte_toNat (m : Message) (i : Nat) : (idByte m i).toNat = m.identifier.toNat / 256 ^ i % 256 := by
  unfold idByte
  rw [BitVec.toNat_setWidth, BitVec.toNat_ushiftRight, Nat.shiftRight_eq_div_pow]
  congr 2
  rw [Nat.pow_mul]

theorem text_denotes (m : Message) (hv : Valid m) : Denotes (text m) (frameOf m) := by
  refine ⟨(if m.extended then pairOf (idByte m 3) ++ pairOf (idByte m 2) ++ pairOf (idByte m 1) ++ pairOf (idByte m 0)
    else byteToHex (idByte m 1) :: pairOf (idByte m 0)) ++ [byteToHex (BitVec.ofNat 8 m.length)] ++
    (if m.rtr then [] else (m.data.take m.length).flatMap pairOf), ?_, ?_⟩
  · unfold text frameOf kindChar letter
    cases m.extended <;> cases m.rtr <;> rfl
  · refine ⟨⟨hv.1, hv.2.1, ?_⟩, _, _, _, rfl, ?_, ?_, ?_, ?_⟩
    · unfold frameOf
      cases m.rtr <;> simp
      exact hv.2.2
    · unfold frameOf
      cases m.extended <;> rfl
    · have h1 := hv.1
      have h0 := m.identifier.isLt
      unfold frameOf
      cases he : m.extended with
      | true =>
        rw [he] at h1
        simp only [if_true] at h1 ⊢
        rw [List.append_assoc, List.append_assoc, number_pair, number_pair, number_pair]
        have := number_pair (idByte m 0) (256 * (256 * (256 * 0 + (idByte m 3).toNat) + (idByte m 2).toNat) + (idByte m 1).toNat) []
        rw [List.append_nil] at this
        rw [this, number]
        simp only [idByte_toNat]
        congr 1
        omega
      | false =>
        rw [he] at h1
        simp only [Bool.false_eq_true, if_false] at h1 ⊢
        rw [number, (byteToHex_digit _).1, Option.bind_some]
        have := number_pair (idByte m 0) (16 * 0 + (idByte m 1).toNat % 16) []
        rw [List.append_nil] at this
        rw [this, number]
        simp only [idByte_toNat]
        congr 1
        omega
    · have h2 := hv.2.1
      have : ∀ n ≤ 8, (byteToHex (BitVec.ofNat 8 n)).toNat = 48 + n := by decide
      exact this _ h2
    · unfold frameOf
      cases m.rtr with
      | true => rfl
      | false => exact bytes_pairs _

theorem text_no_zero (m : Message) : ∀ b ∈ text m, b ≠ 0#8 := by
  have hp : ∀ x b : Byte, b ∈ pairOf x → b ≠ 0#8 := by
    intro x b h
    simp only [pairOf, List.mem_cons, List.not_mem_nil, or_false] at h
    rcases h with rfl | rfl <;> exact (byteToHex_digit _).2
  intro b hb
  unfold text at hb
  simp only [List.mem_append, List.mem_cons, List.not_mem_nil, or_false] at hb
  rcases hb with ((rfl | hb) | rfl) | hb
  · unfold kindChar; cases m.extended <;> cases m.rtr <;> decide
  · cases he : m.extended <;> simp only [he, Bool.false_eq_true, if_true, if_false, List.mem_append, List.mem_cons] at hb
    · rcases hb with rfl | hb
      · exact (byteToHex_digit _).2
      · exact hp _ _ hb
    · rcases hb with ((hb | hb) | hb) | hb <;> exact hp _ _ hb
  · exact (byteToHex_digit _).2
  · cases hr : m.rtr <;> simp only [hr, Bool.false_eq_true, if_true, if_false, List.not_mem_nil, List.mem_flatMap] at hb
    obtain ⟨x, -, hb⟩ := hb
    exact hp _ _ hb

/-! ### C45 -/

/-- **C45** `convertToString` writes the zero-terminated text of every valid message, inside a buffer of the exact size -/
theorem C45_writes (m : Message) (hv : Valid m) (out : List Byte)
    (ho : 2 + (if m.extended then 9 else 4) + 2 * (if m.rtr then 0 else m.length) ≤ out.length) :
    ∃ s r, convertToString m out = some (s ++ 0#8 :: r) ∧ (∀ b ∈ s, b ≠ 0#8) ∧ Denotes s (frameOf m) := by
  obtain ⟨r, h⟩ := writes m out hv.2.2 ho
  exact ⟨text m, r, h, text_no_zero m, text_denotes m hv⟩

/-- **C45** whatever zero-terminated string it is given, `convertToCanMessage` does not read past the terminator nor write past
the data array (all capacities of at least 8) -/
theorem C45_parser_safe (s : List Byte) (out : Message) (hd : 8 ≤ out.data.length) :
    ∃ m b, convertToCanMessage s out = some (m, b) ∧ m.data.length = out.data.length := by
  obtain ⟨m, b, h1, h2, -⟩ := parse s out hd
  exact ⟨m, b, h1, h2⟩

theorem letters (c : Byte) (e r : Bool) (h : c = BitVec.ofNat 8 (letter e r).toNat) : extOf c = e ∧ rtrOf c = r := by
  subst h
  cases e <;> cases r <;> decide

/-- **C45** the text of a frame is accepted and read as that frame; the FD flags and the data behind it are left alone -/
theorem C45_parses (s : List Byte) (f : Frame) (h : Denotes s f) (out : Message) (hd : 8 ≤ out.data.length) :
    convertToCanMessage s out = some (result out f, true) := by
  obtain ⟨t, h1, h2⟩ := h
  obtain ⟨e1, e2⟩ := letters _ _ _ rfl
  obtain ⟨m, b, g1, g2, g3, g4⟩ := parse s out hd
  rw [g1, g3.mpr ⟨_, t, f, h1, e1.symm, e2.symm, h2⟩, g4 _ t f h1 e1.symm e2.symm h2]

/-- **C45** round trip: identifier, frame type, length and data of every valid message survive -/
theorem C45_round_trip (m : Message) (hv : Valid m) (buf : List Byte)
    (hb : 2 + (if m.extended then 9 else 4) + 2 * (if m.rtr then 0 else m.length) ≤ buf.length) (out : Message) (hd : 8 ≤ out.data.length) :
    ∃ s r m', convertToString m buf = some (s ++ 0#8 :: r) ∧ (∀ b ∈ s, b ≠ 0#8) ∧ convertToCanMessage s out = some (m', true) ∧
      m'.identifier = m.identifier ∧ m'.extended = m.extended ∧ m'.rtr = m.rtr ∧ m'.length = m.length ∧ m'.dlc = m.length ∧
      (m.rtr = false → m'.data.take m'.length = m.data.take m.length) := by
  obtain ⟨s, r, h1, h2, h3⟩ := C45_writes m hv buf hb
  refine ⟨s, r, _, h1, h2, C45_parses s _ h3 out hd, ?_, rfl, rfl, rfl, rfl, ?_⟩
  · show BitVec.ofNat 32 m.identifier.toNat = _
    simp
  · intro hr
    unfold result frameOf
    simp only [hr, Bool.false_eq_true, if_false]
    rw [List.take_append_of_le_length (by simp; exact hv.2.2), List.take_take, Nat.min_self]

/-- **C45 (partial)** among strings that start with one of the four letters exactly the texts of frames are accepted
(full claim: every other string is rejected; refuted below) -/
theorem C45_rejects_partial (s : List Byte) (out : Message) (hd : 8 ≤ out.data.length)
    (hs : ∀ c t, s = c :: t → ∃ e r, c = BitVec.ofNat 8 (letter e r).toNat) :
    (∃ m, convertToCanMessage s out = some (m, true)) ↔ ∃ f, Denotes s f := by
  obtain ⟨m, b, g1, g2, g3, -⟩ := parse s out hd
  constructor
  · rintro ⟨m', h⟩
    rw [g1] at h
    injection h with h
    have hb : b = true := congrArg Prod.snd h
    obtain ⟨c, t, f, h1, h2, h3, h4⟩ := g3.mp hb
    obtain ⟨e, r, hc⟩ := hs c t h1
    obtain ⟨e1, e2⟩ := letters c e r hc
    exact ⟨f, t, by rw [h1, hc, h2, h3, e1, e2], h4⟩
  · rintro ⟨f, h⟩
    exact ⟨_, C45_parses s f h out hd⟩

/-- **C45 is false**: a string starting with any other character is read as a standard data frame -/
theorem C45_any_letter_counterexample (c : Byte) (t : List Byte) (hc : ∀ e r, c ≠ BitVec.ofNat 8 (letter e r).toNat) (out : Message)
    (hd : 8 ≤ out.data.length) (f : Frame) (h1 : f.extended = false) (h2 : f.rtr = false) (h : Tail t f) :
    convertToCanMessage (c :: t) out = some (result out f, true) ∧ ¬ ∃ g, Denotes (c :: t) g := by
  have e1 : extOf c = false := by
    have h1 := hc true true
    have h2 := hc true false
    unfold extOf
    rw [decide_eq_false_iff_not, not_or]
    exact ⟨h1, h2⟩
  have e2 : rtrOf c = false := by
    have h1 := hc false true
    have h2 := hc true true
    unfold rtrOf
    rw [decide_eq_false_iff_not, not_or]
    exact ⟨h1, h2⟩
  obtain ⟨m, b, g1, g2, g3, g4⟩ := parse (c :: t) out hd
  constructor
  · rw [g1, g3.mpr ⟨c, t, f, rfl, by rw [h1, e1], by rw [h2, e2], h⟩, g4 c t f rfl (by rw [h1, e1]) (by rw [h2, e2]) h]
  · rintro ⟨g, t', h3, -⟩
    injection h3 with h3 _
    exact hc _ _ h3

/-- the string "?1230" -/
example : (convertToCanMessage [0x3f, 0x31, 0x32, 0x33, 0x30] (Message.blank 8 0)).map (fun x => (x.1.identifier, x.2)) =
    some (0x123, true) := by decide


theorem pairs_length (l : List Byte) : (l.flatMap pairOf).length = 2 * l.length := by
  induction l with
  | nil => rfl
  | cons b l ih => rw [List.flatMap_cons, List.length_append, ih]; show 2 + _ = _; rw [List.length_cons]; omega

/-- CAN FD messages of more than 8 bytes do not round-trip: their text is written but always rejected -/
theorem C45_long_message_rejected (m : Message) (hl : 8 < m.length) (hd : m.length ≤ m.data.length) (hr : m.rtr = false) (buf : List Byte)
    (hb : 2 + (if m.extended then 9 else 4) + 2 * m.length ≤ buf.length) (out : Message) (ho : 8 ≤ out.data.length) :
    ∃ s r m', convertToString m buf = some (s ++ 0#8 :: r) ∧ convertToCanMessage s out = some (m', false) := by
  obtain ⟨r, h1⟩ := writes m buf hd (by rw [hr]; exact hb)
  obtain ⟨m', b, g1, g2, g3, -⟩ := parse (text m) out ho
  refine ⟨text m, r, m', h1, ?_⟩
  rw [g1]
  cases b with
  | false => rfl
  | true =>
    obtain ⟨c, t, f, h2, h3, h4, hv, ids, l, ds, h5, h6, h7, h8, h9⟩ := g3.mp rfl
    have hc : c = kindChar m := by unfold text at h2; injection h2 with h2 _; exact h2.symm
    have he : extOf c = m.extended := by rw [hc]; unfold kindChar; cases m.extended <;> cases m.rtr <;> rfl
    have hlen := congrArg List.length h2
    unfold text at hlen
    rw [h5, hr] at hlen
    simp only [Bool.false_eq_true, if_false, List.length_append, List.length_cons, List.length_nil, pairs_length, List.length_take] at hlen
    have hids : (if m.extended then pairOf (idByte m 3) ++ pairOf (idByte m 2) ++ pairOf (idByte m 1) ++ pairOf (idByte m 0)
        else byteToHex (idByte m 1) :: pairOf (idByte m 0)).length = ids.length := by
      rw [h6, h3, he]; cases m.extended <;> rfl
    rw [hids] at hlen
    have hb2 := bytes_length ds _ h9
    have v2 := hv.2.1
    have v3 := hv.2.2
    have : f.data.length ≤ f.length := by rw [v3]; split <;> omega
    omega

example : ((Message.make 16 0x123 12).bind fun m => (convertToString m (List.replicate 40 0)).bind fun s =>
    convertToCanMessage (s.takeWhile (· ≠ 0)) (Message.blank 8 0)).map (·.2) = some false := by decide +kernel

end Props.Lawicel
