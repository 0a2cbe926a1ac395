import Verif.Model.Flash
import Mathlib.Tactic.IntervalCases
import Mathlib.Tactic.Ring
set_option autoImplicit false

/-! # Properties of the flash memory driver of STM32 -/

namespace Props.Flash
open Model.Flash Spec.Flash

attribute [-simp] BitVec.getLsbD_eq_getElem

/-! ## Addresses -/

theorem and_C000 (o : Nat) : (o &&& 0xC000) >>> 14 = o / 16384 % 4 := by
  rw [Nat.shiftRight_and_distrib, show (0xC000 : Nat) >>> 14 = 2 ^ 2 - 1 from rfl,
    Nat.and_two_pow_sub_one_eq_mod, Nat.shiftRight_eq_div_pow]

theorem and_10000 (o : Nat) : (o &&& 0x10000 ≠ 0) ↔ o / 65536 % 2 = 1 := by
  have h1 : (o &&& 0x10000) / 65536 = o / 65536 % 2 := by
    have := Nat.shiftRight_and_distrib (a := o) (b := 0x10000) (i := 16)
    rw [show (0x10000 : Nat) >>> 16 = 2 ^ 1 - 1 from rfl, Nat.and_two_pow_sub_one_eq_mod,
      Nat.shiftRight_eq_div_pow, Nat.shiftRight_eq_div_pow] at this
    simpa using this
  have h2 : (o &&& 0x10000) % 65536 = 0 := by
    have := Nat.and_mod_two_pow (a := o) (b := 0x10000) (n := 16)
    simpa using this
  omega

/-- What `getPage` computes on devices with sectors. -/
theorem getPage_f4 (d : Dev) (hd : d.fam = .f4) (hs : d.shift = 17) (o : Nat) (ho : o < 0x200000) :
    getPage d o =
      if o < 0x20000 then (if o / 65536 % 2 = 1 then 4 else o / 16384 % 4)
      else if 0x100000 ≤ o ∧ o < 0x120000 then (if o / 65536 % 2 = 1 then 16 else 12 + o / 16384 % 4)
      else o / 131072 + 4 := by
  have e1 : d.sectors = true := by simp [Dev.sectors, hd]
  have e2 : (o >>> 17) % 256 = o / 131072 := by
    rw [Nat.shiftRight_eq_div_pow]; omega
  unfold getPage
  simp only [e1, hs, e2, if_true, and_10000, and_C000]
  have hq : o / 131072 < 16 := by omega
  split_ifs <;> omega

theorem sectors_table : ∀ n, n < 24 →
    secStart n = ([0, 16, 32, 48, 64, 128, 256, 384, 512, 640, 768, 896, 1024, 1040, 1056, 1072, 1088,
      1152, 1280, 1408, 1536, 1664, 1792, 1920] : List Nat).getD n 0 * 1024
    ∧ secLen n = ([16, 16, 16, 16, 64, 128, 128, 128, 128, 128, 128, 128, 16, 16, 16, 16, 64, 128, 128,
      128, 128, 128, 128, 128] : List Nat).getD n 0 * 1024 := by
  decide +kernel

/-- **C231** `getPage` names the sector an offset lies in, for every offset of
the first bank (and of the first 128 KiB of the second). -/
theorem C231_getPage_partial (d : Dev) (hd : d.fam = .f4) (hs : d.shift = 17) (o : Nat)
    (ho : o < 0x120000) : InSector (getPage d o) o ∧ getPage d o < 17 := by
  rw [getPage_f4 d hd hs o (by omega)]
  have key : ∀ n, n < 17 → (secStart n ≤ o ∧ o < secStart n + secLen n) → InSector n o ∧ n < 17 :=
    fun n hn h => ⟨h, hn⟩
  split_ifs with h1 h2 h3 h4
  · apply key 4 (by omega)
    obtain ⟨a, b⟩ := sectors_table 4 (by omega)
    rw [a, b]; simp; omega
  · have h : o / 16384 % 4 = o / 16384 := by omega
    rw [h]
    have hlt : o / 16384 < 4 := by omega
    apply key _ (by omega)
    obtain ⟨a, b⟩ := sectors_table (o / 16384) (by omega)
    rw [a, b]
    generalize hq : o / 16384 = q at *
    interval_cases q <;> simp <;> omega
  · apply key 16 (by omega)
    obtain ⟨a, b⟩ := sectors_table 16 (by omega)
    rw [a, b]; simp; omega
  · generalize hq : o / 16384 % 4 = q at *
    have hlt : q < 4 := by omega
    apply key _ (by omega)
    obtain ⟨a, b⟩ := sectors_table (12 + q) (by omega)
    rw [a, b]
    interval_cases q <;> simp <;> omega
  · generalize hq : o / 131072 = q at *
    have hlt : q < 8 := by omega
    have hge : 1 ≤ q := by omega
    apply key _ (by omega)
    obtain ⟨a, b⟩ := sectors_table (q + 4) (by omega)
    rw [a, b]
    interval_cases q <;> simp <;> omega

example : getPage f405 0x1C000 = 4 ∧ getPage f405 0xC123 = 3 ∧ getPage f405 0xFFFFF = 11
    ∧ getPage f429 0x11C000 = 16 := by decide

/-- **C231** In the second bank `getPage` is wrong from 128 KiB on: the sector
it names never contains the offset. -/
theorem C231_getPage_counterexample (d : Dev) (hd : d.fam = .f4) (hs : d.shift = 17) (o : Nat)
    (h : 0x120000 ≤ o) (ho : o < 0x200000) : ¬ InSector (getPage d o) o := by
  rw [getPage_f4 d hd hs o ho]
  rw [if_neg (by omega), if_neg (by omega)]
  generalize hq : o / 131072 = q at *
  have hlt : q < 16 := by omega
  have hge : 9 ≤ q := by omega
  obtain ⟨a, b⟩ := sectors_table (q + 4) (by omega)
  rintro ⟨c1, c2⟩
  rw [a] at c1
  rw [a, b] at c2
  clear a b
  interval_cases q <;> simp at c1 c2 <;> omega

example : getPage f429 0x120000 = 13 ∧ secStart 13 = 0x104000 ∧ InSector 17 0x120000 := by decide +kernel

/-- **C231** `getOffset` is the begin of the sector for sectors 4 to 12. -/
theorem C231_getOffset_partial (d : Dev) (hd : d.fam = .f4) (hs : d.shift = 17) (i : Nat)
    (h : 4 ≤ i) (hi : i ≤ 12) : getOffset d i = secStart i := by
  have e1 : d.sectors = true := by simp [Dev.sectors, hd]
  rw [(sectors_table i (by omega)).1]
  unfold getOffset
  simp only [e1, hs]
  interval_cases i <;> rfl

/-- **C231** For every other sector it is not: sectors 0 to 3 get the begin of
the next one, those of the second bank from 13 on are too far. -/
theorem C231_getOffset_counterexample (d : Dev) (hd : d.fam = .f4) (hs : d.shift = 17) (i : Nat)
    (hi : i < 24) (h : i < 4 ∨ 12 < i) :
    getOffset d i ≠ secStart i ∧ (i < 4 → getOffset d i = secStart (i + 1)) := by
  have e1 : d.sectors = true := by simp [Dev.sectors, hd]
  rw [(sectors_table i hi).1]
  constructor
  · unfold getOffset
    simp only [e1, hs]
    interval_cases i <;> first | (exfalso; omega) | decide
  · intro h4
    rw [(sectors_table (i + 1) (by omega)).1]
    unfold getOffset
    simp only [e1, hs]
    interval_cases i <;> rfl

example : getOffset f405 0 = 0x4000 ∧ getOffset f405 3 = getOffset f405 4 ∧ getOffset f429 13 = 0x120000 := by
  decide

/-- **C231** `getSize` is right for the sectors of 16 KiB of the first bank and
all sectors of 128 KiB but the first. -/
theorem C231_getSize_partial (d : Dev) (hd : d.fam = .f4) (hs : d.shift = 17) (i : Nat) (hi : i < 24)
    (h : i < 4 ∨ (6 ≤ i ∧ i < 12) ∨ 17 ≤ i) : getSize d i = secLen i := by
  have e1 : d.sectors = true := by simp [Dev.sectors, hd]
  rw [(sectors_table i hi).2]
  unfold getSize
  simp only [e1, hs]
  interval_cases i <;> first | (exfalso; omega) | rfl

/-- **C231** The size of sector 4 (64 KiB) is given as 128 KiB and that of
sector 5 (128 KiB) as 64 KiB; those of the second bank are wrong up to 16. -/
theorem C231_getSize_counterexample (d : Dev) (hd : d.fam = .f4) (hs : d.shift = 17) (i : Nat)
    (h : i = 4 ∨ i = 5 ∨ (12 ≤ i ∧ i ≤ 16)) : getSize d i ≠ secLen i := by
  have e1 : d.sectors = true := by simp [Dev.sectors, hd]
  rw [(sectors_table i (by omega)).2]
  unfold getSize
  simp only [e1, hs]
  have hi : i ≤ 16 := by omega
  interval_cases i <;> first | (exfalso; omega) | decide

example : getSize f405 4 = 0x20000 ∧ secLen 4 = 0x10000 ∧ getSize f405 5 = 0x10000 ∧ secLen 5 = 0x20000 := by
  decide

/-- **C232** Devices with pages: offset and page belong together as long as
there are at most 256 pages. -/
theorem C232_pages_partial (d : Dev) (hd : d.fam ≠ .f4) (o : Nat) (ho : o < 256 * 2 ^ d.shift) :
    InPage d.shift (getPage d o) o
    ∧ (∀ n, InPage d.shift n o → n = getPage d o)
    ∧ getOffset d (getPage d o) ≤ o ∧ o < getOffset d (getPage d o) + getSize d (getPage d o) := by
  have e1 : d.sectors = false := by simp [Dev.sectors, hd]
  have hp : 0 < 2 ^ d.shift := Nat.two_pow_pos _
  have e2 : getPage d o = o / 2 ^ d.shift := by
    unfold getPage
    simp only [e1, Nat.shiftRight_eq_div_pow]
    exact Nat.mod_eq_of_lt ((Nat.div_lt_iff_lt_mul hp).2 ho)
  have h1 : o / 2 ^ d.shift * 2 ^ d.shift ≤ o := Nat.div_mul_le_self _ _
  have h2 : o < (o / 2 ^ d.shift + 1) * 2 ^ d.shift := by
    rw [← Nat.div_lt_iff_lt_mul hp]; omega
  have e3 : ∀ i, getOffset d i = i * 2 ^ d.shift := by
    intro i
    unfold getOffset
    simp only [e1, Nat.shiftLeft_eq, Nat.one_mul, Nat.mul_comm]
    simp
  have e4 : ∀ i, getSize d i = 2 ^ d.shift := by
    intro i
    unfold getSize
    simp [e1, Nat.shiftLeft_eq]
  rw [e2, e3, e4]
  refine ⟨⟨h1, h2⟩, ?_, h1, ?_⟩
  · rintro n ⟨a, b⟩
    symm
    rw [Nat.div_eq_iff hp]
    have : (n + 1) * 2 ^ d.shift = n * 2 ^ d.shift + 2 ^ d.shift := by ring
    omega
  · have : (o / 2 ^ d.shift + 1) * 2 ^ d.shift = o / 2 ^ d.shift * 2 ^ d.shift + 2 ^ d.shift := by ring
    omega

example : getPage g474 0x7FFFF = 255 ∧ getOffset g474 255 = 0x7F800 ∧ getSize g474 255 = 0x800 := by decide

/-- **C232** STM32F103xG has 512 pages; the upper half of its memory is taken
for the lower half: offset 512 KiB is said to be in page 0. -/
theorem C232_pages_counterexample :
    0x80000 < f103g.size ∧ getPage f103g 0x80000 = 0 ∧ ¬ InPage f103g.shift 0 0x80000
    ∧ InPage f103g.shift 256 0x80000 := by decide

/-! ## Waiting -/

theorem waitN_pend (d : Dev) (f : BitVec 32) (m : Nat → BitVec 8) :
    ∀ (n : Nat) (s : St), s.pend = some (f, m) → (s.sr ||| f).getLsbD (bsyBit d) = false → s.left + 2 ≤ n →
      waitN d n s = { s with pend := none, mem := m, sr := s.sr ||| f, cr := s.cr &&& ~~~bit (strtBit d), left := 0 } := by
  intro n
  induction n with
  | zero => intro s _ _ h; omega
  | succ n ih =>
    intro s hp hb hl
    have hbb : (s.sr ||| bit (bsyBit d)).getLsbD (bsyBit d) = true := by
      have hb' : bsyBit d = 0 ∨ bsyBit d = 16 := by unfold bsyBit; split <;> simp
      rcases hb' with e | e <;> rw [e] <;> simp [bit]
    unfold waitN
    simp only [readSr, hp, Option.isSome_some, if_true, hbb]
    by_cases h0 : s.left = 0
    · obtain ⟨k, rfl⟩ : ∃ k, n = k + 1 := ⟨n - 1, by omega⟩
      unfold tick
      simp only [hp, h0, if_true]
      unfold waitN
      simp only [readSr, Option.isSome_none, tick]
      simp [hb]
    · unfold tick
      simp only [hp, h0, if_false]
      rw [ih]
      · rfl
      · exact hb
      · show s.left - 1 + 2 ≤ n
        omega

theorem wait_pend (d : Dev) (f : BitVec 32) (m : Nat → BitVec 8) (s : St) (hp : s.pend = some (f, m))
    (hb : (s.sr ||| f).getLsbD (bsyBit d) = false) :
    wait d s = { s with pend := none, mem := m, sr := s.sr ||| f, cr := s.cr &&& ~~~bit (strtBit d), left := 0 } :=
  waitN_pend d f m _ s hp hb (Nat.le_refl _)

theorem wait_idle (d : Dev) (s : St) (hp : s.pend = none) (hb : s.sr.getLsbD (bsyBit d) = false) :
    wait d s = s := by
  unfold wait waitN
  simp [readSr, hp, hb, tick]

/-- The controller is idle, not locked, `SR` does not show `BSY` and `CR` not
`STRT`. -/
structure Ready (d : Dev) (s : St) : Prop where
  idle : s.pend = none
  unlocked : s.cr.getLsbD (lockBit d) = false
  notBusy : s.sr.getLsbD (bsyBit d) = false
  notStarted : s.cr.getLsbD (strtBit d) = false

/-- The flags of an operation do not include `BSY`. -/
def Env.Ok (d : Dev) (e : Env) : Prop := e.flags.getLsbD (bsyBit d) = false

/-- The sector or page `i` of a device. -/
def InUnit (d : Dev) (i o : Nat) : Prop := if d.fam = .f4 then InSector i o else InPage d.shift i o

instance (d : Dev) (i o : Nat) : Decidable (InUnit d i o) := by unfold InUnit; infer_instance

/-- Sectors and pages `erase` reaches: those of the first bank. -/
def Reach (d : Dev) (i : Nat) : Prop :=
  match d.fam with
  | .f1 => True
  | .f4 => i < 12
  | _ => i < 2 ^ d.pnb

/-- The error an operation reports: the flags the driver looks at. -/
def Fails (d : Dev) (e : Env) : Prop := e.flags &&& errMask d ≠ 0

/-! ## Erasing -/

theorem snb_table : ∀ i, i < 12 → ∀ k : WordSize, ∀ m : Bool,
    (((bit 16 ||| 2 ||| k.bits ||| ((BitVec.ofNat 32 i <<< 3) &&& (if m then 0xF8 else 0x78))) >>> 3) &&& 0x1f).toNat = i
    ∧ (bit 16 ||| 2 ||| k.bits ||| ((BitVec.ofNat 32 i <<< 3) &&& (if m then 0xF8 else 0x78))).getLsbD 31 = false := by
  intro i hi k m
  revert i
  cases k <;> cases m <;> decide +kernel

theorem pnb_table : ∀ p, p < 11 → ∀ i, i < 256 → i < 2 ^ p →
    ((bit 16 ||| 2 ||| ((BitVec.ofNat 32 i <<< 3) &&& BitVec.ofNat 32 ((2 ^ p - 1) * 8))) >>> 3).toNat % 2 ^ p = i
    ∧ (bit 16 ||| 2 ||| ((BitVec.ofNat 32 i <<< 3) &&& BitVec.ofNat 32 ((2 ^ p - 1) * 8))).getLsbD 31 = false := by
  decide +kernel

theorem snbMask_eq (d : Dev) : snbMask d = if decide (d.size > 0x100000) then 0xF8 else 0x78 := by
  unfold snbMask; simp

/-- The part common to F4, G0 and G4: starting with a word that sets `STRT`. -/
theorem erase_core (d : Dev) (e : Env) (s : St) (v : BitVec 32) (hf : d.fam ≠ .f1) (hs : Ready d s)
    (he : Env.Ok d e) (h16 : v.getLsbD 16 = true) (h1 : v.getLsbD 1 = true) (h31 : v.getLsbD 31 = false) :
    ∃ s', s' = writeCr d e 0 (wait d (writeCr d e v (writeSr 0xfffe s)))
      ∧ Ready d s'
      ∧ s'.mem = (if e.flags &&& errMask d = 0 then fill (eraseRange d { s with cr := v }) s.mem else s.mem)
      ∧ (readSr d s').1 &&& 0xfffe = e.flags &&& 0xfffe ∧ (readSr d s').2 = s' := by
  obtain ⟨hp, hl, hb, _⟩ := hs
  have el : lockBit d = 31 := by simp [lockBit, hf]
  have est : strtBit d = 16 := by simp [strtBit, hf]
  have ebs : bsyBit d = 16 := by simp [bsyBit, hf]
  rw [el] at hl
  rw [ebs] at hb
  have he' : e.flags.getLsbD 16 = false := by simpa [Env.Ok, ebs] using he
  refine ⟨_, rfl, ?_⟩
  have e1 : writeCr d e v (writeSr 0xfffe s)
      = startErase d e { s with sr := s.sr &&& ~~~((0xfffe : BitVec 32) &&& 0xffff), cr := v } := by
    unfold writeCr writeSr
    simp [hp, hl, el, est, h16, h1]
  rw [e1]
  have er : eraseRange d { s with sr := s.sr &&& ~~~((0xfffe : BitVec 32) &&& 0xffff), cr := v }
      = eraseRange d { s with cr := v } := rfl
  unfold startErase
  rw [er]
  rw [wait_pend d e.flags _ _ rfl (by rw [ebs]; simp [hb, he'])]
  have e2 : ∀ t : St, t.pend = none → t.cr.getLsbD 31 = false → writeCr d e 0 t = { t with cr := 0 } := by
    intro t a b
    unfold writeCr
    simp [a, b, el]
  rw [e2 _ rfl (by simp [h31])]
  refine ⟨⟨rfl, by simp, by rw [ebs]; simp [hb, he'], by simp⟩, rfl, ?_, rfl⟩
  show ((s.sr &&& ~~~((0xfffe : BitVec 32) &&& 0xffff)) ||| e.flags) &&& 0xfffe = e.flags &&& 0xfffe
  ext k hk
  interval_cases k <;> simp

theorem fill_some (b l : Nat) (m : Nat → BitVec 8) (a : Nat) :
    fill (some (b, l)) m a = if b ≤ a ∧ a < b + l then 0xFF else m a := rfl

/-- The part of F1. -/
theorem erase_f1 (d : Dev) (e : Env) (i : Nat) (k : WordSize) (s : St) (hf : d.fam = .f1) (hs : Ready d s)
    (he : Env.Ok d e) :
    Ready d (erase d e i k s).2
    ∧ (erase d e i k s).2.mem = (if e.flags &&& errMask d = 0 then
        fill (some (getOffset d i / 2 ^ d.shift * 2 ^ d.shift, 2 ^ d.shift)) s.mem else s.mem)
    ∧ (erase d e i k s).2.sr = s.sr ||| e.flags
    ∧ (erase d e i k s).1 = (s.sr ||| e.flags) &&& 0x04 := by
  obtain ⟨hp, hl, hb, _⟩ := hs
  have el : lockBit d = 7 := by simp [lockBit, hf]
  have est : strtBit d = 6 := by simp [strtBit, hf]
  have ebs : bsyBit d = 0 := by simp [bsyBit, hf]
  rw [el] at hl
  rw [ebs] at hb
  have he' : e.flags.getLsbD 0 = false := by simpa [Env.Ok, ebs] using he
  have w : ∀ (t : St) (v : BitVec 32), t.pend = none → t.cr.getLsbD 7 = false → v.getLsbD 6 = false →
      writeCr d e v t = { t with cr := v } := by
    intro t v a b c
    unfold writeCr
    simp [a, b, c, el, est]
  have w' : ∀ (t : St) (v : BitVec 32), t.pend = none → t.cr.getLsbD 7 = false → v.getLsbD 6 = true → v.getLsbD 1 = true →
      writeCr d e v t = startErase d e { t with cr := v } := by
    intro t v a b c c'
    unfold writeCr
    simp [a, b, c, c', el, est]
  unfold erase
  simp only [hf]
  obtain ⟨s1, hs1⟩ : ∃ s1, s1 = { s with cr := s.cr &&& ~~~bit 6 } := ⟨_, rfl⟩
  rw [w s (s.cr &&& ~~~bit 6) hp hl (by simp [bit]), ← hs1]
  have p1 : s1.pend = none := by rw [hs1]; exact hp
  have l1 : s1.cr.getLsbD 7 = false := by rw [hs1]; simp [hl]
  have t1 : s1.cr.getLsbD 6 = false := by rw [hs1]; simp [bit]
  rw [w s1 (s1.cr ||| 2) p1 l1 (by simp [t1])]
  obtain ⟨s3, hs3⟩ : ∃ s3, s3 = { s1 with cr := s1.cr ||| 2, ar := getOffset d i } := ⟨_, rfl⟩
  have h3 : ({ cr := s1.cr ||| 2, sr := s1.sr, ar := getOffset d i, key := s1.key, mem := s1.mem, pend := s1.pend, left := s1.left } : St) = s3 := hs3.symm
  simp only [h3]
  have c3 : s1.cr ||| 2 = s3.cr := by rw [hs3]
  rw [c3]
  have p3 : s3.pend = none := by rw [hs3]; exact p1
  have l3 : s3.cr.getLsbD 7 = false := by rw [hs3]; simp [l1]
  have o3 : s3.cr.getLsbD 1 = true := by rw [hs3]; simp
  have m3 : s3.mem = s.mem := by rw [hs3, hs1]
  have r3 : s3.sr = s.sr := by rw [hs3, hs1]
  have a3 : s3.ar = getOffset d i := by rw [hs3]
  clear hs3 hs1 h3 c3
  rw [w' s3 (s3.cr ||| bit 6) p3 l3 (by simp [bit]) (by simp [o3])]
  unfold startErase
  rw [wait_pend d e.flags _ _ rfl (by rw [ebs]; simp [r3, hb, he'])]
  rw [w _ _ rfl (by simp [l3, bit]) (by simp [bit, est])]
  refine ⟨⟨rfl, ?_, ?_, ?_⟩, ?_, ?_, ?_⟩
  · rw [el]
    simp [readSr, tick, l3, bit]
  · rw [ebs]
    simp [readSr, tick, r3, hb, he']
  · rw [est]
    simp [readSr, tick, bit]
  · simp only [readSr, tick, eraseRange, hf, m3, a3]
  · simp only [readSr, tick, r3]
  · simp only [readSr, r3]
    simp

/-- **C233** `erase` of a sector or page that it reaches erases exactly this one
and nothing else, and leaves the controller ready; if the controller reports an
error nothing changes.  The result are the error flags; on F1 only `PGERR`,
together with the one left over from earlier operations. -/
theorem C233_erase_partial (d : Dev) (e : Env) (i : Nat) (k : WordSize) (s : St) (hs : Ready d s)
    (he : Env.Ok d e) (hi : i < 256) (hpnb : d.pnb ≤ 10) (hr : Reach d i) :
    Ready d (erase d e i k s).2
    ∧ (¬ Fails d e → ∀ a, (erase d e i k s).2.mem a = if InUnit d i a then 0xFF else s.mem a)
    ∧ (Fails d e → (erase d e i k s).2.mem = s.mem)
    ∧ (d.fam ≠ .f1 → (erase d e i k s).1 = e.flags &&& errMask d)
    ∧ (d.fam = .f1 → (erase d e i k s).1 = (s.sr ||| e.flags) &&& 0x04) := by
  have page : ∀ a, (i * 2 ^ d.shift ≤ a ∧ a < i * 2 ^ d.shift + 2 ^ d.shift) ↔ InPage d.shift i a := by
    intro a
    have : (i + 1) * 2 ^ d.shift = i * 2 ^ d.shift + 2 ^ d.shift := by ring
    unfold InPage
    rw [this]
  by_cases hf1 : d.fam = .f1
  · obtain ⟨a1, a2, a3, a4⟩ := erase_f1 d e i k s hf1 hs he
    have eo : getOffset d i / 2 ^ d.shift * 2 ^ d.shift = i * 2 ^ d.shift := by
      have : getOffset d i = i * 2 ^ d.shift := by
        unfold getOffset
        simp [Dev.sectors, hf1, Nat.shiftLeft_eq, Nat.mul_comm]
      rw [this, Nat.mul_div_cancel _ (Nat.two_pow_pos _)]
    refine ⟨a1, ?_, ?_, fun h => absurd hf1 h, fun _ => a4⟩
    · intro hn a
      have hn' : e.flags &&& errMask d = 0 := by simpa [Fails] using hn
      rw [a2, if_pos hn', eo, fill_some]
      simp only [page, InUnit, hf1]
      simp
    · intro hn
      rw [a2, if_neg hn]
  · by_cases hf4 : d.fam = .f4
    · have hr' : i < 12 := by simpa [Reach, hf4] using hr
      obtain ⟨t1, t2⟩ := snb_table i hr' k (decide (d.size > 0x100000))
      rw [← snbMask_eq] at t1 t2
      obtain ⟨s', e', b1, b2, b3, b4⟩ := erase_core d e s
        (bit 16 ||| 2 ||| k.bits ||| ((BitVec.ofNat 32 i <<< 3) &&& snbMask d)) hf1 hs he
        (by simp [bit]) (by simp [bit]) t2
      have ee : erase d e i k s = ((readSr d s').1 &&& 0xfffe, s') := by
        unfold erase
        simp only [hf4]
        rw [← e', b4]
      have em : errMask d = 0xfffe := by simp [errMask, hf4]
      rw [ee]
      refine ⟨b1, ?_, ?_, fun _ => by rw [b3, em], fun h => absurd h hf1⟩
      · intro hn a
        have hn' : e.flags &&& errMask d = 0 := by simpa [Fails] using hn
        simp only [b2, if_pos hn']
        unfold eraseRange
        simp only [hf4, t1, snbSector, if_pos hr', Option.map_some, fill_some, InUnit, InSector]
        simp
      · intro hn
        simp only [b2]
        rw [if_neg hn]
    · have hr' : i < 2 ^ d.pnb := by
        revert hr; unfold Reach
        cases h : d.fam <;> simp_all
      obtain ⟨t1, t2⟩ := pnb_table d.pnb (by omega) i hi hr'
      obtain ⟨s', e', b1, b2, b3, b4⟩ := erase_core d e s
        (bit 16 ||| 2 ||| ((BitVec.ofNat 32 i <<< 3) &&& pnbMask d)) hf1 hs he
        (by simp [bit]) (by simp [bit]) t2
      have ee : erase d e i k s = ((readSr d s').1 &&& 0xfffe, s') := by
        unfold erase
        cases h : d.fam
        · exact absurd h hf1
        · exact absurd h hf4
        all_goals
          simp only []
          rw [← e', b4]
      have em : errMask d = 0xfffe := by simp [errMask, hf1]
      have er : eraseRange d { s with cr := bit 16 ||| 2 ||| ((BitVec.ofNat 32 i <<< 3) &&& pnbMask d) }
          = some (i * 2 ^ d.shift, 2 ^ d.shift) := by
        unfold eraseRange
        cases h : d.fam
        · exact absurd h hf1
        · exact absurd h hf4
        all_goals
          simp only [pnbMask, t1]
      rw [ee]
      refine ⟨b1, ?_, ?_, fun _ => by rw [b3, em], fun h => absurd h hf1⟩
      · intro hn a
        have hn' : e.flags &&& errMask d = 0 := by simpa [Fails] using hn
        simp only [b2, if_pos hn', er, fill_some, page, InUnit, if_neg hf4]
      · intro hn
        simp only [b2]
        rw [if_neg hn]

/-- **C233** `erase(getPage(o))` erases the byte at `o`: everywhere in the first
bank of F4, in the first 256 pages of F1, in the first bank of G0 and G4. -/
theorem C233_at_partial (d : Dev) (e : Env) (o : Nat) (k : WordSize) (s : St) (hs : Ready d s)
    (he : Env.Ok d e) (hpnb : d.pnb ≤ 8) (hn : ¬ Fails d e)
    (ho : if d.fam = .f4 then d.shift = 17 ∧ o < 0x100000
      else if d.fam = .f1 then o < 256 * 2 ^ d.shift else o < 2 ^ d.pnb * 2 ^ d.shift) :
    (erase d e (getPage d o) k s).2.mem o = 0xFF := by
  have main : ∀ i, i < 256 → Reach d i → InUnit d i o → (erase d e i k s).2.mem o = 0xFF := by
    intro i a b c
    rw [(C233_erase_partial d e i k s hs he a (by omega) b).2.1 hn o, if_pos c]
  by_cases hf4 : d.fam = .f4
  · rw [if_pos hf4] at ho
    obtain ⟨a, b⟩ := C231_getPage_partial d hf4 ho.1 o (by omega)
    have h12 : getPage d o < 12 := by
      rw [getPage_f4 d hf4 ho.1 o (by omega)]
      split_ifs <;> omega
    apply main _ (by omega)
    · simpa [Reach, hf4] using h12
    · simpa [InUnit, hf4] using a
  · rw [if_neg hf4] at ho
    have hp : 0 < 2 ^ d.shift := Nat.two_pow_pos _
    have h256 : o < 256 * 2 ^ d.shift := by
      by_cases hf1 : d.fam = .f1
      · rwa [if_pos hf1] at ho
      · rw [if_neg hf1] at ho
        have : 2 ^ d.pnb ≤ 2 ^ 8 := Nat.pow_le_pow_right (by omega) hpnb
        exact Nat.lt_of_lt_of_le ho (Nat.mul_le_mul_right _ this)
    obtain ⟨a, _, _, _⟩ := C232_pages_partial d hf4 o h256
    have e1 : getPage d o < 256 := by
      have e1 : d.sectors = false := by simp [Dev.sectors, hf4]
      unfold getPage
      simp only [e1]
      exact Nat.mod_lt _ (by omega)
    apply main _ e1
    · have hlt : getPage d o * 2 ^ d.shift ≤ o := a.1
      by_cases hf1 : d.fam = .f1
      · simp [Reach, hf1]
      · rw [if_neg hf1] at ho
        have : getPage d o < 2 ^ d.pnb := by
          have := Nat.lt_of_le_of_lt hlt ho
          exact Nat.lt_of_mul_lt_mul_right this
        unfold Reach
        cases hh : d.fam <;> simp_all
    · simpa [InUnit, hf4] using a

/-- A memory with nothing erased. -/
def zeros : Nat → BitVec 8 := fun _ => 0
/-- An operation that succeeds at once. -/
def fine : Env := ⟨0, 0⟩

theorem ready_unlocked (d : Dev) (m : Nat → BitVec 8) : Ready d (unlock d (reset d m)).2 := by
  refine ⟨?_, ?_, ?_, ?_⟩ <;>
  · unfold unlock reset isLocked writeKey
    cases h : d.fam <;> simp [lockBit, strtBit, h, bit]

example : Ready f405 (unlock f405 (reset f405 zeros)).2 ∧ Env.Ok f405 fine ∧ Reach f405 11 ∧ ¬ Fails f405 fine
    ∧ (erase f405 fine 11 .b32 (unlock f405 (reset f405 zeros)).2).2.mem 0xE0000 = 0xFF
    ∧ (erase f405 fine 11 .b32 (unlock f405 (reset f405 zeros)).2).2.mem 0xDFFFF = 0 := by
  refine ⟨ready_unlocked _ _, ?_, ?_, ?_, ?_, ?_⟩
  · unfold Env.Ok; decide
  · show 11 < 12; decide
  · unfold Fails; decide
  · decide +kernel
  · decide +kernel

/-- **C233** On a device of 2 MiB sectors of the second bank are mixed up:
`erase(16)` erases sector 12, `erase(12)` nothing at all, and both return 0. -/
theorem C233_bank_counterexample :
    (let s := (unlock f429 (reset f429 zeros)).2
     let r := erase f429 fine 16 .b32 s
     r.1 = 0 ∧ r.2.mem (secStart 16) = 0 ∧ r.2.mem (secStart 12) = 0xFF)
    ∧ (let s := (unlock f429 (reset f429 zeros)).2
       let r := erase f429 fine 12 .b32 s
       r.1 = 0 ∧ r.2.mem (secStart 12) = 0) := by
  decide +kernel

/-- **C233** On STM32G474 `erase(128)`, the first page of the second bank,
erases page 0 of the first one. -/
theorem C233_pnb_counterexample :
    let s := (unlock g474 (reset g474 zeros)).2
    let r := erase g474 fine 128 .b32 s
    r.1 = 0 ∧ r.2.mem (128 * 2048) = 0 ∧ r.2.mem 0 = 0xFF := by
  decide +kernel

/-- **C233** On F1 the error of a write protected page is not reported. -/
theorem C233_protect_counterexample :
    let s := (unlock f103b (reset f103b zeros)).2
    let r := erase f103b ⟨3, 0x10⟩ 5 .b32 s
    Fails f103b ⟨3, 0x10⟩ ∧ r.1 = 0 ∧ r.2.mem (5 * 1024) = 0 := by
  refine ⟨by unfold Fails; decide, ?_⟩
  decide +kernel

/-! ## Programming -/

/-- All flags of a store. -/
def storeFlags (d : Dev) (e : Env) (v : BitVec 32) (o w data : Nat) (s : St) : BitVec 32 :=
  e.flags ||| storeErr d o w data { s with cr := v }

theorem storeErr_bsy (d : Dev) (o w data : Nat) (s : St) : (storeErr d o w data s).getLsbD (bsyBit d) = false := by
  unfold storeErr bsyBit
  cases d.fam <;> simp <;> split_ifs <;> simp

/-- The part common to F4, G0 and G4. -/
theorem program_core (d : Dev) (e : Env) (s : St) (v : BitVec 32) (o w data : Nat) (hf : d.fam ≠ .f1)
    (hs : Ready d s) (he : Env.Ok d e) (h1 : v.getLsbD 1 = false) (h31 : v.getLsbD 31 = false) :
    ∃ s1 s', s1 = wait d (store d e o w data (writeCr d e v (writeSr 0xfffe s)))
      ∧ s' = writeCr d e 0 (writeSr ((readSr d s1).1 ||| 1) (readSr d s1).2)
      ∧ Ready d s'
      ∧ s'.mem = (if storeFlags d e v o w data s &&& errMask d = 0 then burn o w data s.mem else s.mem)
      ∧ (readSr d s').1 &&& 0xfffe = 0 ∧ (readSr d s').2 = s' := by
  obtain ⟨hp, hl, hb, _⟩ := hs
  have el : lockBit d = 31 := by simp [lockBit, hf]
  have est : strtBit d = 16 := by simp [strtBit, hf]
  have ebs : bsyBit d = 16 := by simp [bsyBit, hf]
  rw [el] at hl
  rw [ebs] at hb
  have he' : e.flags.getLsbD 16 = false := by simpa [Env.Ok, ebs] using he
  refine ⟨_, _, rfl, rfl, ?_⟩
  have e1 : writeCr d e v (writeSr 0xfffe s) = { s with sr := s.sr &&& ~~~((0xfffe : BitVec 32) &&& 0xffff), cr := v } := by
    unfold writeCr writeSr
    simp [hp, hl, el, est, h1]
  rw [e1]
  have e2 : store d e o w data { s with sr := s.sr &&& ~~~((0xfffe : BitVec 32) &&& 0xffff), cr := v }
      = { s with sr := s.sr &&& ~~~((0xfffe : BitVec 32) &&& 0xffff), cr := v, pend := some (storeFlags d e v o w data s, if storeFlags d e v o w data s &&& errMask d = 0 then burn o w data s.mem else s.mem), left := e.polls } := by
    unfold store
    simp only [hp, Option.isSome_none]
    rfl
  rw [e2]
  have hx : (storeFlags d e v o w data s).getLsbD 16 = false := by
    have := storeErr_bsy d o w data { s with cr := v }
    rw [ebs] at this
    unfold storeFlags
    simp [he', this]
  generalize storeFlags d e v o w data s = x at hx ⊢
  rw [wait_pend d x _ _ rfl (by rw [ebs]; simp [hb, hx])]
  have e3 : ∀ t : St, t.pend = none → t.cr.getLsbD 31 = false → writeCr d e 0 t = { t with cr := 0 } := by
    intro t a b
    unfold writeCr
    simp [a, b, el]
  rw [e3 _ rfl (by simp [writeSr, readSr, tick, h31])]
  refine ⟨⟨rfl, by simp, ?_, by simp⟩, rfl, ?_, rfl⟩
  · rw [ebs]
    simp [writeSr, readSr, tick, hb, hx]
  · simp only [writeSr, readSr, tick, Option.isSome_none, Bool.false_eq_true, if_false]
    ext k hk
    interval_cases k <;> simp

/-- The part of F1. -/
theorem program_f1 (d : Dev) (e : Env) (o data : Nat) (k : WordSize) (s : St) (hf : d.fam = .f1)
    (hs : Ready d s) (he : Env.Ok d e) :
    Ready d (program d e o data k s).2
    ∧ (program d e o data k s).2.mem = (if storeFlags d e (s.cr ||| 1) o 2 data s &&& errMask d = 0 then
        burn o 2 data s.mem else s.mem)
    ∧ (program d e o data k s).2.sr = s.sr ||| storeFlags d e (s.cr ||| 1) o 2 data s
    ∧ (program d e o data k s).1 = (s.sr ||| storeFlags d e (s.cr ||| 1) o 2 data s) &&& 0x04 := by
  obtain ⟨hp, hl, hb, hst⟩ := hs
  have el : lockBit d = 7 := by simp [lockBit, hf]
  have est : strtBit d = 6 := by simp [strtBit, hf]
  have ebs : bsyBit d = 0 := by simp [bsyBit, hf]
  rw [el] at hl
  rw [est] at hst
  have he' : e.flags.getLsbD 0 = false := by simpa [Env.Ok, ebs] using he
  have w : ∀ (t : St) (v : BitVec 32), t.pend = none → t.cr.getLsbD 7 = false → v.getLsbD 6 = false →
      writeCr d e v t = { t with cr := v } := by
    intro t v a b c
    unfold writeCr
    simp [a, b, c, el, est]
  have hx : (storeFlags d e (s.cr ||| 1) o 2 data s).getLsbD 0 = false := by
    have := storeErr_bsy d o 2 data { s with cr := s.cr ||| 1 }
    rw [ebs] at this
    unfold storeFlags
    rw [BitVec.getLsbD_or, he', this]
    rfl
  unfold program
  simp only [hf]
  rw [wait_idle d s hp hb]
  rw [ebs] at hb
  rw [w s (s.cr ||| 1) hp hl (by simp [hst])]
  have e2 : store d e o 2 data { s with cr := s.cr ||| 1 }
      = { s with cr := s.cr ||| 1, pend := some (storeFlags d e (s.cr ||| 1) o 2 data s, if storeFlags d e (s.cr ||| 1) o 2 data s &&& errMask d = 0 then burn o 2 data s.mem else s.mem), left := e.polls } := by
    unfold store
    simp only [hp, Option.isSome_none]
    rfl
  rw [e2]
  generalize storeFlags d e (s.cr ||| 1) o 2 data s = x at hx ⊢
  rw [wait_pend d x _ _ rfl (by rw [ebs]; simp [hb, hx])]
  rw [w _ _ rfl (by simp [hl, bit]) (by simp [bit, est])]
  refine ⟨⟨rfl, ?_, ?_, ?_⟩, rfl, rfl, rfl⟩
  · rw [el]
    simp [readSr, tick, hl, bit]
  · rw [ebs]
    simp [readSr, tick, hb, hx]
  · rw [est]
    simp [readSr, tick, bit, est]

/-- All the families at once: the memory after `program`, and its result. -/
theorem program_all (d : Dev) (e : Env) (o data : Nat) (k : WordSize) (s : St) (hs : Ready d s)
    (he : Env.Ok d e) :
    ∃ f : BitVec 32,
      Ready d (program d e o data k s).2
      ∧ (program d e o data k s).2.mem = (if f &&& errMask d = 0 then burn o (width d k) data s.mem else s.mem)
      ∧ (d.fam ≠ .f1 → (program d e o data k s).1 = 0)
      ∧ (d.fam = .f1 → (program d e o data k s).1 = (s.sr ||| f) &&& 0x04
          ∧ (program d e o data k s).2.sr = s.sr ||| f)
      ∧ ((∀ j, j < width d k → s.mem (o + j) = 0xFF) → f = e.flags)
      ∧ (e.flags &&& errMask d ≠ 0 → f &&& errMask d ≠ 0) := by
  have mono : ∀ y : BitVec 32, e.flags &&& errMask d ≠ 0 → (e.flags ||| y) &&& errMask d ≠ 0 := by
    intro y h hc
    apply h
    ext j hj
    have z : BitVec.getLsbD (0 : BitVec 32) j = false := by simp
    have := congrArg (fun z => z.getLsbD j) hc
    simp only [BitVec.getLsbD_and, BitVec.getLsbD_or, z] at this
    rw [← BitVec.getLsbD_eq_getElem, ← BitVec.getLsbD_eq_getElem, BitVec.getLsbD_and, z]
    revert this
    cases e.flags.getLsbD j <;> cases y.getLsbD j <;> cases (errMask d).getLsbD j <;> simp
  have noerr : ∀ v : BitVec 32, v.getLsbD 0 = true →
      (d.fam = .f4 → 2 ^ ((v >>> 8) &&& 3).toNat = width d k) →
      (∀ j, j < width d k → s.mem (o + j) = 0xFF) → storeFlags d e v o (width d k) data s = e.flags := by
    intro v h0 h4 hm
    unfold storeFlags
    have : storeErr d o (width d k) data { s with cr := v } = 0 := by
      unfold storeErr
      rw [if_neg (by simp [h0]), if_neg (by rintro ⟨a, b⟩; exact b (h4 a)), if_neg]
      rintro ⟨_, _, c⟩
      rw [List.any_eq_true] at c
      obtain ⟨j, hj, c⟩ := c
      rw [List.mem_range] at hj
      simp [hm j hj] at c
    rw [this]
    simp
  by_cases hf1 : d.fam = .f1
  · obtain ⟨a1, a2, a3, a4⟩ := program_f1 d e o data k s hf1 hs he
    have hw : width d k = 2 := by simp [width, hf1]
    refine ⟨storeFlags d e (s.cr ||| 1) o 2 data s, a1, ?_, fun h => absurd hf1 h, fun _ => ⟨a4, a3⟩, ?_, mono _⟩
    · rw [a2, hw]
    · have := noerr (s.cr ||| 1) (by simp) (fun h => by rw [hf1] at h; cases h)
      rw [hw] at this ⊢
      exact this
  · by_cases hf4 : d.fam = .f4
    · have hw : width d k = k.bytes := by simp [width, hf4]
      obtain ⟨s1, s', e1, e2, b1, b2, b3, b4⟩ := program_core d e s (1 ||| k.bits) o k.bytes data hf1 hs he
        (by cases k <;> decide) (by cases k <;> decide)
      have ee : program d e o data k s = ((readSr d s').1 &&& 0xfffe, s') := by
        unfold program
        simp only [hf4]
        rw [← e1, ← e2, b4]
      rw [ee]
      refine ⟨storeFlags d e (1 ||| k.bits) o k.bytes data s, b1, ?_, fun _ => b3, fun h => absurd h hf1, ?_, mono _⟩
      · rw [hw]; exact b2
      · have := noerr (1 ||| k.bits) (by cases k <;> decide) (fun _ => by rw [hw]; cases k <;> decide)
        rw [hw] at this ⊢
        exact this
    · have hw : width d k = 8 := by
        unfold width
        cases h : d.fam <;> simp_all
      obtain ⟨s1, s', e1, e2, b1, b2, b3, b4⟩ := program_core d e s 1 o 8 data hf1 hs he
        (by decide) (by decide)
      have ee : program d e o data k s = ((readSr d s').1 &&& 0xfffe, s') := by
        unfold program
        cases h : d.fam
        · exact absurd h hf1
        · exact absurd h hf4
        all_goals
          simp only []
          rw [← e1, ← e2, b4]
      rw [ee]
      refine ⟨storeFlags d e 1 o 8 data s, b1, ?_, fun _ => b3, fun h => absurd h hf1, ?_, mono _⟩
      · rw [hw]; exact b2
      · have := noerr 1 (by decide) (fun h => absurd h hf4)
        rw [hw] at this ⊢
        exact this

/-- Byte `j` of a word, the least significant first. -/
def byteOf (data j : Nat) : BitVec 8 := BitVec.ofNat 8 (data / 256 ^ j)

/-- **C234** `program` of erased cells without an error of the controller
writes exactly the bytes of the word, returns 0 (on F1: unless an old `PGERR`
is left over) and leaves the controller ready. -/
theorem C234_program_partial (d : Dev) (e : Env) (o data : Nat) (k : WordSize) (s : St) (hs : Ready d s)
    (he : Env.Ok d e) (hn : ¬ Fails d e) (hm : ∀ j, j < width d k → s.mem (o + j) = 0xFF)
    (hold : d.fam = .f1 → s.sr &&& 0x04 = 0) :
    Ready d (program d e o data k s).2
    ∧ (program d e o data k s).1 = 0
    ∧ (∀ j, j < width d k → (program d e o data k s).2.mem (o + j) = byteOf data j)
    ∧ (∀ a, (a < o ∨ o + width d k ≤ a) → (program d e o data k s).2.mem a = s.mem a)
    ∧ (d.fam = .f1 → (program d e o data k s).2.sr &&& 0x04 = 0) := by
  obtain ⟨f, b1, b2, b3, b4, b5, _⟩ := program_all d e o data k s hs he
  have hf := b5 hm
  subst hf
  have hn' : e.flags &&& errMask d = 0 := by simpa [Fails] using hn
  rw [if_pos hn'] at b2
  have old : d.fam = .f1 → (s.sr ||| e.flags) &&& 0x04 = 0 := by
    intro h
    have h1 := congrArg (fun z => z.getLsbD 2) (hold h)
    have em : errMask d = 0x14 := by simp [errMask, h]
    rw [em] at hn'
    have h2 := congrArg (fun z => z.getLsbD 2) hn'
    simp at h1 h2
    ext j hj
    interval_cases j <;> simp_all [BitVec.getLsbD_eq_getElem]
  refine ⟨b1, ?_, ?_, ?_, ?_⟩
  · by_cases h : d.fam = .f1
    · rw [(b4 h).1, old h]
    · exact b3 h
  · intro j hj
    rw [b2]
    unfold burn byteOf
    rw [if_pos ⟨by omega, by omega⟩, hm j hj, Nat.add_sub_cancel_left, Nat.shiftRight_eq_div_pow,
      show (2 : Nat) ^ (8 * j) = 256 ^ j by rw [Nat.pow_mul]]
    exact BitVec.allOnes_and
  · intro a ha
    rw [b2]
    unfold burn
    rw [if_neg (by omega)]
  · intro h
    rw [(b4 h).2, old h]

/-- **C234** If the controller reports an error, nothing is written.  On F1 the
result tells of `PGERR`. -/
theorem C234_error_partial (d : Dev) (e : Env) (o data : Nat) (k : WordSize) (s : St) (hs : Ready d s)
    (he : Env.Ok d e) (hn : Fails d e) :
    Ready d (program d e o data k s).2 ∧ (program d e o data k s).2.mem = s.mem
    ∧ (d.fam = .f1 → (∀ j, j < 2 → s.mem (o + j) = 0xFF) → e.flags &&& 0x04 ≠ 0 → (program d e o data k s).1 ≠ 0) := by
  obtain ⟨f, b1, b2, b3, b4, b5, b6⟩ := program_all d e o data k s hs he
  refine ⟨b1, by rw [b2, if_neg (b6 hn)], ?_⟩
  intro h hm h4
  have hw : width d k = 2 := by simp [width, h]
  rw [hw] at b5
  rw [(b4 h).1, b5 hm]
  intro hc
  apply h4
  ext j hj
  have z : BitVec.getLsbD (0 : BitVec 32) j = false := by simp
  have := congrArg (fun z => z.getLsbD j) hc
  simp only [BitVec.getLsbD_and, BitVec.getLsbD_or, z] at this
  rw [← BitVec.getLsbD_eq_getElem, ← BitVec.getLsbD_eq_getElem, BitVec.getLsbD_and, z]
  revert this
  cases e.flags.getLsbD j <;> cases s.sr.getLsbD j <;> cases (0x04 : BitVec 32).getLsbD j <;> simp

/-- **C234** On F4, G0 and G4 `program` returns 0 in every case: it clears the
error flags by `SR |= EOP` before it reads them. -/
theorem C234_silent_counterexample (d : Dev) (e : Env) (o data : Nat) (k : WordSize) (s : St)
    (hf : d.fam ≠ .f1) (hs : Ready d s) (he : Env.Ok d e) : (program d e o data k s).1 = 0 := by
  obtain ⟨f, b1, b2, b3, _⟩ := program_all d e o data k s hs he
  exact b3 hf

/-- A memory that is erased everywhere. -/
def ones : Nat → BitVec 8 := fun _ => 0xFF

/-- A write protected word of F4 and cells of G0 that are not erased: nothing
is written, 0 is returned. -/
example :
    (let r := program f405 ⟨2, 0x10⟩ 0x8000 0x12345678 .b32 (unlock f405 (reset f405 ones)).2
     Fails f405 ⟨2, 0x10⟩ ∧ r.1 = 0 ∧ r.2.mem 0x8000 = 0xFF)
    ∧ (let r := program g071 fine 0x8000 0x12345678 .b32 (unlock g071 (reset g071 (fun _ => 0x55))).2
       r.1 = 0 ∧ r.2.mem 0x8000 = 0x55) := by
  refine ⟨⟨by unfold Fails; decide, ?_⟩, ?_⟩ <;> decide +kernel

example : let r := program f405 fine 0x8000 0x1234 .b16 (unlock f405 (reset f405 ones)).2
    r.1 = 0 ∧ r.2.mem 0x8000 = 0x34 ∧ r.2.mem 0x8001 = 0x12 ∧ r.2.mem 0x8002 = 0xFF := by decide +kernel

/-- **C234** On F1 an error is never forgotten: `PGERR` of one call makes every
later call report it, though its word was written. -/
theorem C234_stale_counterexample :
    let s := (unlock f103b (reset f103b ones)).2
    let s1 := (program f103b ⟨0, 0x04⟩ 0x8000 0xAAAA .b32 s).2
    let r := program f103b fine 0x9000 0x1234 .b32 s1
    r.1 = 0x04 ∧ r.2.mem 0x9000 = 0x34 ∧ r.2.mem 0x9001 = 0x12 := by
  decide +kernel

/-- The loop of a user that programs words one after the other
(`/repo/examples/nucleo_f429zi/usbfatfs/main.cpp:105-112`). -/
def programAll (d : Dev) (k : WordSize) : List (Env × Nat) → Nat → St → List (BitVec 32) × St
  | [], _, s => ([], s)
  | (e, x) :: l, o, s =>
    let r := program d e o x k s
    let q := programAll d k l (o + width d k) r.2
    (r.1 :: q.1, q.2)

/-- **C235** Words programmed one after the other into erased memory can be
read back, every one of them, and nothing else changes. -/
theorem C235_words_partial (d : Dev) (k : WordSize) : ∀ (l : List (Env × Nat)) (o : Nat) (s : St), Ready d s →
    (∀ p ∈ l, Env.Ok d p.1 ∧ ¬ Fails d p.1) →
    (∀ a, o ≤ a → a < o + l.length * width d k → s.mem a = 0xFF) →
    (d.fam = .f1 → s.sr &&& 0x04 = 0) →
    let r := programAll d k l o s
    Ready d r.2 ∧ (∀ x ∈ r.1, x = 0)
    ∧ (∀ n j, n < l.length → j < width d k → r.2.mem (o + n * width d k + j) = byteOf (l.getD n (fine, 0)).2 j)
    ∧ (∀ a, (a < o ∨ o + l.length * width d k ≤ a) → r.2.mem a = s.mem a) := by
  intro l
  induction l with
  | nil =>
    intro o s hs _ _ _
    refine ⟨hs, ?_, ?_, ?_⟩
    · intro x hx; simp [programAll] at hx
    · intro n j hn; simp at hn
    · intro a _; rfl
  | cons p l ih =>
    obtain ⟨e, x⟩ := p
    intro o s hs hl hm hold
    have hlen : (((e, x) :: l).length) * width d k = width d k + l.length * width d k := by
      rw [List.length_cons]; ring
    rw [hlen] at hm
    obtain ⟨he, hn⟩ := hl (e, x) (by simp)
    obtain ⟨a1, a2, a3, a4, a5⟩ := C234_program_partial d e o x k s hs he hn
      (fun j hj => hm _ (by omega) (by omega)) hold
    obtain ⟨c1, c2, c3, c4⟩ := ih (o + width d k) (program d e o x k s).2 a1
      (fun q hq => hl q (by simp [hq]))
      (fun a h1 h2 => by rw [a4 a (by omega)]; exact hm a (by omega) (by omega)) a5
    show Ready d (programAll d k l (o + width d k) (program d e o x k s).2).2 ∧ _
    refine ⟨c1, ?_, ?_, ?_⟩
    · intro y hy
      rcases List.mem_cons.1 hy with h | h
      · rw [h, a2]
      · exact c2 y h
    · intro n j hn' hj
      show (programAll d k l (o + width d k) (program d e o x k s).2).2.mem _ = _
      cases n with
      | zero =>
        rw [c4 _ (by omega)]
        simpa using a3 j hj
      | succ n =>
        have := c3 n j (by simpa using hn') hj
        rw [show o + (n + 1) * width d k + j = o + width d k + n * width d k + j by ring]
        simpa using this
    · intro a ha
      show (programAll d k l (o + width d k) (program d e o x k s).2).2.mem _ = _
      rw [hlen] at ha
      rw [c4 a (by omega), a4 a (by omega)]

example : let r := programAll g071 .b32 [(fine, 0x1122334455667788), (⟨3, 0⟩, 0xA5)] 0x800 (unlock g071 (reset g071 ones)).2
    r.1 = [0, 0] ∧ r.2.mem 0x807 = 0x11 ∧ r.2.mem 0x808 = 0xA5 ∧ r.2.mem 0x810 = 0xFF := by decide +kernel

/-- **C235** Sector or page erased, then words programmed into it: they can be
read back, whatever was there before. -/
theorem C235_update_partial (d : Dev) (k : WordSize) (i : Nat) (e : Env) (l : List (Env × Nat)) (o : Nat) (s : St)
    (hs : Ready d s) (he : Env.Ok d e) (hn : ¬ Fails d e) (hi : i < 256) (hpnb : d.pnb ≤ 10) (hr : Reach d i)
    (hl : ∀ p ∈ l, Env.Ok d p.1 ∧ ¬ Fails d p.1)
    (hin : ∀ a, o ≤ a → a < o + l.length * width d k → InUnit d i a)
    (hold : d.fam = .f1 → s.sr &&& 0x04 = 0) :
    let r := programAll d k l o (erase d e i k s).2
    (∀ x ∈ r.1, x = 0)
    ∧ (∀ n j, n < l.length → j < width d k → r.2.mem (o + n * width d k + j) = byteOf (l.getD n (fine, 0)).2 j)
    ∧ (∀ a, ¬ InUnit d i a → r.2.mem a = s.mem a) := by
  obtain ⟨a1, a2, _, _, _⟩ := C233_erase_partial d e i k s hs he hi hpnb hr
  have old : d.fam = .f1 → (erase d e i k s).2.sr &&& 0x04 = 0 := by
    intro h
    rw [(erase_f1 d e i k s h hs he).2.2.1]
    have hn' : e.flags &&& errMask d = 0 := by simpa [Fails] using hn
    have h1 := congrArg (fun z => z.getLsbD 2) (hold h)
    have em : errMask d = 0x14 := by simp [errMask, h]
    rw [em] at hn'
    have h2 := congrArg (fun z => z.getLsbD 2) hn'
    simp at h1 h2
    ext j hj
    interval_cases j <;> simp_all [BitVec.getLsbD_eq_getElem]
  obtain ⟨_, c2, c3, c4⟩ := C235_words_partial d k l o (erase d e i k s).2 a1 hl
    (fun a h1 h2 => by rw [a2 hn a, if_pos (hin a h1 h2)]) old
  refine ⟨c2, c3, ?_⟩
  intro a ha
  rw [c4 a, a2 hn a, if_neg ha]
  by_cases h : o ≤ a
  · right
    by_contra hc
    exact ha (hin a h (by omega))
  · left; omega

/-- **C235** After reset the memory is locked; `unlock` unlocks it, and does so
only once. -/
theorem C235_unlock (d : Dev) (m : Nat → BitVec 8) :
    isLocked d (reset d m) = true
    ∧ (unlock d (reset d m)).1 = true ∧ isLocked d (unlock d (reset d m)).2 = false
    ∧ (unlock d (reset d m)).2.mem = m
    ∧ (∀ s, isLocked d s = false → unlock d s = (true, s)) := by
  refine ⟨?_, ?_, ?_, ?_, ?_⟩
  · unfold reset isLocked lockBit
    cases d.fam <;> simp [bit]
  · unfold unlock reset isLocked writeKey
    cases h : d.fam <;> simp [lockBit, h, bit]
  · unfold unlock reset isLocked writeKey
    cases h : d.fam <;> simp [lockBit, h, bit]
  · unfold unlock reset isLocked writeKey
    cases h : d.fam <;> simp [lockBit, h, bit]
  · intro s hs
    unfold unlock
    simp [hs]

/-- **C235** While the memory is locked `erase` returns 0 and does nothing. -/
theorem C235_locked_counterexample :
    let r := erase f405 fine 11 .b32 (reset f405 zeros)
    r.1 = 0 ∧ r.2.mem (secStart 11) = 0 := by
  decide +kernel

end Props.Flash
