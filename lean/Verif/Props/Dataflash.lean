import Verif.Spec.Dataflash
import Mathlib.Tactic.IntervalCases
import Mathlib.Data.List.Induction

set_option autoImplicit false

/-!
# C289–C291: the data flash AT45DB0x1D
-/

namespace Props.Dataflash

open Model.Dataflash Spec.Dataflash

/-! ## Status and addresses -/

theorem status_bits (b c s : Bool) (k : BitVec 4) :
    ((BitVec.ofBool b ++ BitVec.ofBool c ++ k ++ BitVec.ofBool false ++ BitVec.ofBool s : BitVec 8) &&& 0x80 != 0) = b ∧
    ((BitVec.ofBool b ++ BitVec.ofBool c ++ k ++ BitVec.ofBool false ++ BitVec.ofBool s : BitVec 8) &&& 0x40 == 0) = !c ∧
    (((BitVec.ofBool b ++ BitVec.ofBool c ++ k ++ BitVec.ofBool false ++ BitVec.ofBool s : BitVec 8) &&& 0x01 = 0) ↔ s = false) ∧
    (BitVec.ofBool b ++ BitVec.ofBool c ++ k ++ BitVec.ofBool false ++ BitVec.ofBool s : BitVec 8) ≠ 0xff ∧
    (k ≠ 0 → (BitVec.ofBool b ++ BitVec.ofBool c ++ k ++ BitVec.ofBool false ++ BitVec.ofBool s : BitVec 8) ≠ 0) := by
  revert b c s k
  decide +kernel

theorem status_facts (d : Dev) :
    ((d.status &&& 0x01 = 0) ↔ d.binary = false) ∧ d.status ≠ 0xff ∧ (d.density ≠ 0 → d.status ≠ 0) :=
  (status_bits (decide (d.busy = 0)) d.comp d.binary d.density).2.2

theorem readStatus_eq (d : Dev) : readStatus d = (d.status, { d with busy := d.busy - 1 }) := rfl

theorem isReady_eq (d : Dev) : isReady d = (decide (d.busy = 0), { d with busy := d.busy - 1 }) := by
  unfold isReady
  rw [readStatus_eq]
  simp only [Dev.status]
  rw [(status_bits _ _ _ _).1]

/-- Waiting changes nothing and ends with a ready device, after as many readings as it takes. -/
theorem wait_eq (n : Nat) : ∀ d : Dev, waitUntilReady n d = if d.busy < n then some { d with busy := 0 } else none := by
  induction n with
  | zero => intro d; rfl
  | succ n ih =>
    intro d
    rw [waitUntilReady, isReady_eq]
    simp only []
    by_cases hb : d.busy = 0
    · simp [hb]
    · rw [if_neg (by simpa using hb), ih]
      simp only []
      by_cases h : d.busy < n + 1
      · rw [if_pos (by omega), if_pos h]
      · rw [if_neg (by omega), if_neg h]

theorem hi_lo (p : BitVec 16) : (hi p).toNat * 65536 + (lo p).toNat * 256 + (0 : Byte).toNat = p.toNat * 256 := by
  have := p.isLt
  simp only [hi, lo, BitVec.extractLsb'_toNat, Nat.shiftRight_eq_div_pow]
  simp
  omega

theorem addr_eq (a : BitVec 32) (h : a.toNat < 16777216) :
    (a.extractLsb' 16 8).toNat * 65536 + (a.extractLsb' 8 8).toNat * 256 + (a.extractLsb' 0 8).toNat = a.toNat := by
  simp only [BitVec.extractLsb'_toNat, Nat.shiftRight_eq_div_pow]
  omega

/-- The store behind a device. -/
def view (d : Dev) : Store := { page := d.mem, buf := d.buf }

/-- A device with pages of 256 bytes that is ready. -/
structure Ready (d : Dev) : Prop where
  busy : d.busy = 0
  binary : d.binary = true
  pages : 0 < d.pages ∧ d.pages ≤ 65536

theorem page_of {d : Dev} (r : Ready d) (p : BitVec 16) (h : p.toNat < d.pages) : d.page (p.toNat * 256) = p.toNat := by
  unfold Dev.page
  rw [r.binary, if_pos rfl, Nat.mul_div_cancel _ (by decide), Nat.mod_eq_of_lt h]

theorem transact_cmd (d : Dev) (op x y z : Byte) (data : List Byte) (c : Cmd) (h : decode op = some c) (hc : c ≠ .status) :
    d.transact (op :: x :: y :: z :: data) =
      (0 :: 0 :: 0 :: 0 :: (d.run c (x.toNat * 65536 + y.toNat * 256 + z.toNat) [x, y, z] data).1,
        (d.run c (x.toNat * 65536 + y.toNat * 256 + z.toNat) [x, y, z] data).2) := by
  rw [Dev.transact, h]
  cases c <;> first | rfl | exact absurd rfl hc

theorem map_drop (f : Nat → Byte) (m k : Nat) : ((List.range (m + k)).map f).drop m = (List.range k).map fun i => f (m + i) := by
  rw [List.range_add, List.map_append, List.drop_append_of_le_length (by simp), List.drop_eq_nil_of_le (by simp)]
  simp

/-! ## Buffers -/

theorem writeBuf_append (size : Nat) (l : List Byte) (b : Byte) : ∀ (o : Nat) (f : Nat → Byte), o < size →
    writeBuf size o (l ++ [b]) f = Function.update (writeBuf size o l f) ((o + l.length) % size) b := by
  induction l with
  | nil => intro o f h; simp [writeBuf, Nat.mod_eq_of_lt h]
  | cons x l ih =>
    intro o f h
    rw [List.cons_append, writeBuf, ih _ _ (Nat.mod_lt _ (by omega)), writeBuf]
    have e : ((o + 1) % size + l.length) % size = (o + (x :: l).length) % size := by
      rw [List.length_cons, Nat.mod_add_mod]
      congr 1
      omega
    rw [e]

theorem overwrite_eq (l : List Byte) (o : Nat) (f : Nat → Byte) (h : o < 256) :
    overwrite f o l = writeBuf 256 o l f := by
  induction l using List.reverseRecOn with
  | nil => rfl
  | append_singleton l b ih =>
    rw [writeBuf_append _ _ _ _ _ h, ← ih]
    funext k
    unfold overwrite
    rw [List.length_append, List.length_cons, List.length_nil, Nat.zero_add, List.range_succ, List.reverse_append,
      List.reverse_cons, List.reverse_nil, List.nil_append, List.singleton_append, List.find?_cons]
    by_cases hk : (o + l.length) % 256 = k
    · have : ((o + l.length) % 256 == k) = true := by simpa using hk
      simp only [this]
      rw [← hk, Function.update_self]
      simp
    · have : ((o + l.length) % 256 == k) = false := by simpa using hk
      simp only [this]
      rw [Function.update_of_ne (fun h => hk h.symm)]
      cases hf : (List.range l.length).reverse.find? (fun i => (o + i) % 256 == k) with
      | none => rfl
      | some i =>
        have hm := List.mem_of_find?_eq_some hf
        simp only [List.mem_reverse, List.mem_range] at hm
        simp only []
        simp [List.getD, List.getElem?_append_left hm]

/-! ## C289: storing -/

theorem update_if {β : Type} (f : Nat → β) (a : Nat) (v : β) : Function.update f a v = fun x => if x = a then v else f x := by
  funext x
  by_cases h : x = a
  · subst h; simp
  · simp [h]

theorem update_ifb {β : Type} (f : Bool → β) (a : Bool) (v : β) : Function.update f a v = fun x => if x = a then v else f x := by
  funext x
  by_cases h : x = a
  · subst h; simp
  · simp [h]

theorem perform_effect (n : Nat) (d : Dev) (r : Ready d) (o : Op) (v : Valid d.pages o) (x : Out) (d' : Dev)
    (h : perform n d o = some (x, d')) :
    Ready d' ∧ d'.pages = d.pages ∧ d'.dur = d.dur ∧ effect d.pages (view d) o = (x, view d') := by
  have hb := r.busy
  have hbin := r.binary
  cases o with
  | toBuffer p b =>
    have hp := page_of r p v
    cases b <;> (
      simp only [perform, copyPageToBuffer, Dev.transact, decode, wait_eq] at h
      simp only [Dev.run, hi_lo, hp, hb, Dev.slow] at h
      simp at h
      obtain ⟨_, h1, h2⟩ := h
      subst h1 h2
      exact ⟨⟨rfl, hbin, r.pages⟩, rfl, rfl, by simp [effect, view, update_ifb]⟩)
  | compare p b =>
    have hp := page_of r p v
    have hs : d.size = 256 := by simp [Dev.size, hbin]
    cases b <;> (
      simp only [perform, comparePageToBuffer, Dev.transact, decode, wait_eq] at h
      simp only [Dev.run, hi_lo, hp, hb, Dev.slow, hs] at h
      simp at h
      obtain ⟨_, h1, h2⟩ := h
      subst h1 h2
      refine ⟨⟨rfl, hbin, r.pages⟩, rfl, rfl, ?_⟩
      simp only [isCompareEqual, readStatus_eq, Dev.status, (status_bits _ _ _ _).2.1, effect, view]
      simp only [Prod.mk.injEq, Out.equal.injEq, and_true]
      rw [List.not_any_eq_all_not]
      simp [bne])
  | toPage b p =>
    have hp := page_of r p v
    cases b <;> (
      simp only [perform, copyBufferToPage, Dev.transact, decode, wait_eq] at h
      simp only [Dev.run, hi_lo, hp, hb, Dev.slow] at h
      simp at h
      obtain ⟨_, h1, h2⟩ := h
      subst h1 h2
      exact ⟨⟨rfl, hbin, r.pages⟩, rfl, rfl, by simp [effect, view, update_if]⟩)
  | toPageNoErase b p =>
    have hp := page_of r p v
    cases b <;> (
      simp only [perform, copyBufferToPageWithoutErase, Dev.transact, decode, wait_eq] at h
      simp only [Dev.run, hi_lo, hp, hb, Dev.slow] at h
      simp at h
      obtain ⟨_, h1, h2⟩ := h
      subst h1 h2
      refine ⟨⟨rfl, hbin, r.pages⟩, rfl, rfl, ?_⟩
      simp only [effect, view, update_if, Prod.mk.injEq, true_and, Store.mk.injEq, and_true]
      funext q i
      by_cases hq : q = p.toNat
      · subst hq; simp
      · simp [hq])
  | rewrite p b =>
    have hp := page_of r p v
    cases b <;> (
      simp only [perform, pageRewrite, Dev.transact, decode, wait_eq] at h
      simp only [Dev.run, hi_lo, hp, hb, Dev.slow] at h
      simp at h
      obtain ⟨_, h1, h2⟩ := h
      subst h1 h2
      exact ⟨⟨rfl, hbin, r.pages⟩, rfl, rfl, by simp [effect, view, update_ifb]⟩)
  | chipErase =>
    simp only [perform, Model.Dataflash.chipErase, Dev.transact, decode, wait_eq, hb] at h
    by_cases hn : 0 < n
    · rw [if_pos hn] at h
      simp [Dev.run, Dev.slow] at h
      obtain ⟨_, h1, h2⟩ := h
      subst h1 h2
      exact ⟨⟨rfl, hbin, r.pages⟩, rfl, rfl, by simp [effect, view]⟩
    · rw [if_neg hn] at h; cases h
  | writeBuf b a data =>
    have ho : ∀ k, d.off k = k % 256 := fun k => by simp [Dev.off, hbin]
    have hs : d.size = 256 := by simp [Dev.size, hbin]
    have ha := a.isLt
    have ha' : a.toNat % 256 = a.toNat := Nat.mod_eq_of_lt ha
    have hz : (0 : Byte).toNat * 65536 + (0 : Byte).toNat * 256 + a.toNat = a.toNat := by simp
    have e : (d.transact ([if b then 0x87 else 0x84, 0, 0, a] ++ data)).2 = (d.run (.writeBuf b) a.toNat [0, 0, a] data).2 := by
      cases b
      · rw [List.cons_append, List.cons_append, List.cons_append, List.cons_append, List.nil_append, transact_cmd d _ _ _ _ _ (.writeBuf false) rfl (by decide), hz]
      · rw [List.cons_append, List.cons_append, List.cons_append, List.cons_append, List.nil_append, transact_cmd d _ _ _ _ _ (.writeBuf true) rfl (by decide), hz]
    simp only [perform, writeToBuffer, e, Dev.run, ho, hs, ha', Option.some.injEq, Prod.mk.injEq] at h
    rw [if_pos (Or.inl hb)] at h
    obtain ⟨h1, h2⟩ := h
    subst h1 h2
    refine ⟨⟨hb, hbin, r.pages⟩, rfl, rfl, ?_⟩
    simp only [effect, view, update_ifb, overwrite_eq _ _ _ ha]
  | readBuf b a k =>
    have ho : ∀ k, d.off k = k % 256 := fun k => by simp [Dev.off, hbin]
    have hs : d.size = 256 := by simp [Dev.size, hbin]
    have ha : a.toNat % 256 = a.toNat := Nat.mod_eq_of_lt a.isLt
    have hz : (0 : Byte).toNat * 65536 + (0 : Byte).toNat * 256 + a.toNat = a.toNat := by simp
    have e : d.transact ([if b then 0xd6 else 0xd4, 0, 0, a, 0] ++ List.replicate k 0) =
        (0 :: 0 :: 0 :: 0 :: (d.run (.readBuf b) a.toNat [0, 0, a] (0 :: List.replicate k 0)).1, d) := by
      cases b
      · rw [List.cons_append, List.cons_append, List.cons_append, List.cons_append, List.cons_append, List.nil_append, transact_cmd d _ _ _ _ _ (.readBuf false) rfl (by decide), hz]; rfl
      · rw [List.cons_append, List.cons_append, List.cons_append, List.cons_append, List.cons_append, List.nil_append, transact_cmd d _ _ _ _ _ (.readBuf true) rfl (by decide), hz]; rfl
    simp only [perform, readFromBuffer, e, Option.some.injEq, Prod.mk.injEq] at h
    obtain ⟨h1, h2⟩ := h
    subst h1 h2
    refine ⟨r, rfl, rfl, ?_⟩
    have e2 := map_drop (fun i => if i < 1 ∨ ¬ (d.busy = 0 ∨ d.lock b = false) then 0 else d.buf b ((a.toNat + (i - 1)) % 256)) 1 k
    have e3 : ∀ l : List Byte, List.drop 5 (0 :: 0 :: 0 :: 0 :: l) = l.drop 1 := fun l => rfl
    simp only [effect, view, Dev.run, ho, hs, ha, List.length_cons, List.length_replicate, e3]
    rw [Nat.add_comm k 1, e2]
    simp [hb]
  | read a k =>
    simp only [Valid] at v
    have hpg := r.pages
    have ho : ∀ k, d.off k = k % 256 := fun k => by simp [Dev.off, hbin]
    have hs : d.size = 256 := by simp [Dev.size, hbin]
    have hp : d.page a.toNat = a.toNat / 256 := by
      unfold Dev.page
      rw [hbin, if_pos rfl, Nat.mod_eq_of_lt (by omega)]
    have e : d.transact ([0x03] ++ addr a ++ List.replicate k 0) =
        (0 :: 0 :: 0 :: 0 :: (d.run .readArray a.toNat (addr a) (List.replicate k 0)).1, d) := by
      rw [addr, List.cons_append, List.nil_append, List.cons_append, List.cons_append, List.cons_append, List.cons_append, List.nil_append, transact_cmd d _ _ _ _ _ .readArray rfl (by decide), addr_eq a (by omega)]; rfl
    simp only [perform, readFromMemory, e, Option.some.injEq, Prod.mk.injEq] at h
    obtain ⟨h1, h2⟩ := h
    subst h1 h2
    refine ⟨r, rfl, rfl, ?_⟩
    have e3 : ∀ l : List Byte, List.drop 4 (0 :: 0 :: 0 :: 0 :: l) = l := fun l => rfl
    simp only [effect, view, Dev.run, ho, hs, hp, List.length_replicate, e3, Prod.mk.injEq, Out.bytes.injEq, and_true]
    apply List.map_congr_left
    intro i _
    rw [if_pos hb]
    congr 1
    · congr 1
      omega
    · omega
  | readPage a k =>
    simp only [Valid] at v
    have hpg := r.pages
    have ho : ∀ k, d.off k = k % 256 := fun k => by simp [Dev.off, hbin]
    have hs : d.size = 256 := by simp [Dev.size, hbin]
    have hp : d.page a.toNat = a.toNat / 256 := by
      unfold Dev.page
      rw [hbin, if_pos rfl, Nat.mod_eq_of_lt (by omega)]
    have e : d.transact ([0xd2] ++ addr a ++ [0, 0, 0, 0] ++ List.replicate k 0) =
        (0 :: 0 :: 0 :: 0 :: (d.run .readPage a.toNat (addr a) ([0, 0, 0, 0] ++ List.replicate k 0)).1, d) := by
      rw [addr, List.append_assoc, List.cons_append, List.nil_append, List.cons_append, List.cons_append, List.cons_append, List.cons_append, List.nil_append, transact_cmd d _ _ _ _ _ .readPage rfl (by decide), addr_eq a (by omega)]; rfl
    simp only [perform, readPageFromMemory, e, Option.some.injEq, Prod.mk.injEq] at h
    obtain ⟨h1, h2⟩ := h
    subst h1 h2
    refine ⟨r, rfl, rfl, ?_⟩
    have e2 := map_drop (fun i => if i < 4 ∨ d.busy ≠ 0 then 0 else d.mem (a.toNat / 256) ((a.toNat % 256 + (i - 4)) % 256)) 4 k
    have e3 : ∀ l : List Byte, List.drop 8 (0 :: 0 :: 0 :: 0 :: l) = l.drop 4 := fun l => rfl
    have e4 : ([0, 0, 0, 0] ++ List.replicate k (0 : Byte)).length = 4 + k := by simp; omega
    simp only [effect, view, Dev.run, ho, hs, hp, e4, e3]
    rw [e2]
    simp only [Prod.mk.injEq, Out.bytes.injEq, and_true]
    apply List.map_congr_left
    intro i _
    rw [if_neg (by omega)]
    congr 1
    omega

/-- **C289**.  On a device with pages of 256 bytes, every sequence of operations, each waited for, has the
effect of the same sequence on pages and buffers: what is read is what was stored, and nothing
else changes. -/
theorem C289_store (n : Nat) (os : List Op) : ∀ (d : Dev), Ready d → (∀ o ∈ os, Valid d.pages o) →
    ∀ (xs : List Out) (d' : Dev), performAll n os d = some (xs, d') →
      effects d.pages os (view d) = (xs, view d') ∧ Ready d' := by
  induction os with
  | nil =>
    intro d r _ xs d' h
    simp only [performAll, Option.some.injEq, Prod.mk.injEq] at h
    obtain ⟨h1, h2⟩ := h
    subst h1 h2
    exact ⟨rfl, r⟩
  | cons o os ih =>
    intro d r hv xs d' h
    rw [performAll] at h
    cases hp : perform n d o with
    | none => rw [hp] at h; cases h
    | some q =>
      obtain ⟨x, d1⟩ := q
      rw [hp] at h
      simp only [Option.bind_some, Option.map_eq_some_iff] at h
      obtain ⟨⟨ys, d2⟩, h1, h2⟩ := h
      simp only [Prod.mk.injEq] at h2
      obtain ⟨h3, h4⟩ := h2
      subst h3 h4
      obtain ⟨r1, e1, _, e2⟩ := perform_effect n d r o (hv o (by simp)) x d1 hp
      obtain ⟨e3, r2⟩ := ih d1 r1 (fun o' ho' => by rw [e1]; exact hv o' (by simp [ho'])) ys d2 h1
      rw [e1] at e3
      rw [effects, e2]
      simp only [e3]
      exact ⟨trivial, r2⟩

/-- Every operation ends, within as many readings of the status register as the device is busy. -/
theorem C289_ends (n : Nat) (d : Dev) (r : Ready d) (hd : ∀ k, d.dur k < n) (o : Op) : (perform n d o).isSome = true := by
  have hb := r.busy
  have hn : 0 < n := by have := hd 0; omega
  have key : ∀ (c : Cmd) (a : Nat) (args data : List Byte), (d.run c a args data).2.busy < n := by
    intro c a args data
    have h1 := hd d.ops
    cases c <;> simp only [Dev.run, Dev.slow] <;> (try split) <;> simp_all
  cases o with
  | toBuffer p b => cases b <;> simp [perform, copyPageToBuffer, Dev.transact, decode, wait_eq, key]
  | compare p b => cases b <;> simp [perform, comparePageToBuffer, Dev.transact, decode, wait_eq, key]
  | toPage b p => cases b <;> simp [perform, copyBufferToPage, Dev.transact, decode, wait_eq, key]
  | toPageNoErase b p => cases b <;> simp [perform, copyBufferToPageWithoutErase, Dev.transact, decode, wait_eq, key]
  | rewrite p b => cases b <;> simp [perform, pageRewrite, Dev.transact, decode, wait_eq, key]
  | chipErase =>
    simp only [perform, Model.Dataflash.chipErase, Dev.transact, decode, wait_eq, hb, if_pos hn]
    simp only [Option.map_some, Option.bind_some]
    have := hd d.ops
    simp [Dev.run, Dev.slow, this]
  | readBuf b a k => rfl
  | writeBuf b a data => rfl
  | read a k => rfl
  | readPage a k => rfl

/-- While a buffer is written to a page or filled from one, the other buffer may be written: the result is that of
one after the other. -/
theorem C289_overlap (d : Dev) (r : Ready d) (b : Bool) (p : BitVec 16) (hp : p.toNat < d.pages) (a : Byte) (data : List Byte) (n : Nat) (d' : Dev)
    (h : waitUntilReady n (writeToBuffer (!b) a data (copyBufferToPage b p d)) = some d') :
    Ready d' ∧ (effects d.pages [.toPage b p, .writeBuf (!b) a data] (view d)).2 = view d' := by
  have hb := r.busy
  have hbin := r.binary
  have ho : ∀ k, d.off k = k % 256 := fun k => by simp [Dev.off, hbin]
  have hs : d.size = 256 := by simp [Dev.size, hbin]
  have hpg := page_of r p hp
  have ha := a.isLt
  cases b <;> (
    simp only [writeToBuffer, copyBufferToPage, Dev.transact, decode, List.cons_append, List.nil_append, wait_eq] at h
    simp only [Dev.run, hi_lo, hpg, hb, Dev.slow, Dev.off, Dev.size, hbin] at h
    simp at h
    obtain ⟨_, h⟩ := h
    subst h
    refine ⟨⟨rfl, rfl, r.pages⟩, ?_⟩
    rw [Nat.mod_eq_of_lt ha]
    simp [effects, effect, view, update_if, update_ifb, overwrite_eq _ _ _ ha])

/-! ### Examples -/

def demo : Dev := { pages := 2048, mem := fun p i => BitVec.ofNat 8 (p + i), buf := fun _ _ => 0, busy := 0, lock := fun _ => false, comp := false, binary := true, binaryNext := true, density := 0b0111, ops := 0, dur := fun k => k % 7 }

example : Ready demo ∧ ∀ k, demo.dur k < 10 := ⟨⟨rfl, rfl, by decide, by decide⟩, fun k => by simp only [demo]; omega⟩

def prog : List Op := [.writeBuf true 254 [1, 2, 3], .toPage true 0x123, .read 0x122FF 3, .readPage 0x123FE 4, .compare 0x123 true, .compare 0x122 true, .toBuffer 0x122 false, .readBuf false 0xFF 2]

example : ∀ o ∈ prog, Valid demo.pages o := by
  simp [prog, Valid, demo]

example : (performAll 10 prog demo).map (·.1) = some [.nothing, .nothing, .bytes [0x21, 3, 0], .bytes [1, 2, 3, 0], .equal true, .equal false, .nothing, .bytes [0x21, 0x22]] := by
  decide +kernel

/-! ## C290: erasing -/

/-- **C290**, the part that holds: `chipErase` sets every byte of every page, whatever the device was
doing before. -/
theorem C290_chip_partial (n : Nat) (d d' : Dev) (h : chipErase n d = some d') :
    (∀ p i, d'.mem p i = 0xff) ∧ d'.buf = d.buf := by
  simp only [chipErase, Dev.transact, decode, wait_eq] at h
  by_cases hn : d.busy < n
  · rw [if_pos hn] at h
    simp [Dev.run, Dev.slow] at h
    subst h
    exact ⟨fun _ _ => rfl, rfl⟩
  · rw [if_neg hn] at h; cases h

theorem decode_small (op : Byte) (h : op.toNat < 16) : decode op = none ∨ decode op = some .readArray := by
  unfold decode
  generalize op.toNat = k at h
  interval_cases k <;> simp

theorem short_transact (d : Dev) (op y z : Byte) (h : op.toNat < 16) : (d.transact [op, y, z]).2 = d := by
  unfold Dev.transact
  rcases decode_small op h with e | e <;> simp only [e]

theorem hi_small (p : BitVec 16) (h : p.toNat < 4096) : (hi p).toNat < 16 := by
  simp only [hi, BitVec.extractLsb'_toNat, Nat.shiftRight_eq_div_pow]
  omega

/-- **C290 is false**: `pageErase` and `blockErase` leave out the opcode.  On every device with up to 4096
pages, for every page, they change nothing at all. -/
theorem C290_page_counterexample (n : Nat) (p : BitVec 16) (hp : p.toNat < 4096) (d d' : Dev)
    (h : pageErase n p d = some d' ∨ blockErase n p d = some d') : d' = { d with busy := 0 } := by
  rcases h with h | h
  · unfold pageErase at h
    rw [wait_eq] at h
    by_cases hn : d.busy < n
    · rw [if_pos hn] at h
      simp only [Option.map_some, Option.some.injEq, short_transact _ _ _ _ (hi_small p hp)] at h
      exact h.symm
    · rw [if_neg hn] at h; cases h
  · unfold blockErase at h
    rw [wait_eq] at h
    by_cases hn : d.busy < n
    · rw [if_pos hn] at h
      simp only [Option.map_some, Option.some.injEq, short_transact _ _ _ _ (hi_small p hp)] at h
      exact h.symm
    · rw [if_neg hn] at h; cases h

example : (pageErase 10 0x123 demo).map (fun d => (d.mem 0x123 0, d.mem 0x123 1)) = some (0x23, 0x24) ∧
    (chipErase 10 demo).map (fun d => (d.mem 0x123 0, d.mem 0x123 1)) = some (0xff, 0xff) := by decide +kernel

/-- With the opcode in front the page is erased and no other. -/
example : (demo.transact [0x81, hi 0x123, lo 0x123, 0]).2.mem 0x123 1 = 0xff ∧
    (demo.transact [0x81, hi 0x123, lo 0x123, 0]).2.mem 0x124 1 = demo.mem 0x124 1 := by decide +kernel

/-! ## C291: initialisation -/

/-- **C291**, the part that holds: a device that has pages of 256 bytes already is found and ready for use, its
contents untouched; another one is found, and has them after the next power cycle. -/
theorem C291_init_partial (n : Nat) (d : Dev) (hk : d.density ≠ 0) (hpg : 0 < d.pages ∧ d.pages ≤ 65536)
    (hnext : d.binary = true → d.binaryNext = true) (x : Bool) (d' : Dev) (h : init n d = some (x, d')) :
    x = true ∧ view d' = view d ∧ (d.binary = true → Ready d') ∧ (d.busy ≤ 1 → Ready d'.powerCycle) := by
  obtain ⟨s3, s4, s5⟩ := status_facts d
  unfold init at h
  rw [readStatus_eq] at h
  simp only [] at h
  rw [if_neg (by intro hh; rcases hh with hh | hh; exact s4 hh; exact s5 hk hh)] at h
  cases hb : d.binary with
  | true =>
    rw [if_neg (by rw [s3, hb]; simp), wait_eq] at h
    split at h
    · simp only [Option.map_some, Option.some.injEq, Prod.mk.injEq] at h
      obtain ⟨h1, h2⟩ := h
      subst h1 h2
      exact ⟨rfl, rfl, fun _ => ⟨rfl, hb, hpg⟩, fun _ => ⟨rfl, hnext hb, hpg⟩⟩
    · cases h
  | false =>
    rw [if_pos (by rw [s3, hb]), wait_eq] at h
    split at h
    · simp only [Option.map_some, Option.some.injEq, Prod.mk.injEq] at h
      obtain ⟨h1, h2⟩ := h
      subst h1 h2
      simp only [Dev.transact, decode, Dev.run]
      by_cases hbz : d.busy - 1 = 0
      · simp [hbz, Dev.slow, view, Dev.powerCycle]
        exact fun _ => ⟨rfl, rfl, hpg⟩
      · simp [hbz, view]
        omega
    · cases h

/-- A device as delivered. -/
def virgin : Dev := { demo with binary := false, binaryNext := false, mem := fun _ _ => 0xff }

example : virgin.density ≠ 0 ∧ virgin.busy ≤ 1 ∧ (init 10 virgin).isSome = true := by decide +kernel

/-- **C291 is false** for a device as delivered: `initialize` returns true, but until the next power
cycle the device keeps its pages of 264 bytes and the addresses of the driver are off by one bit; what
is stored in page 7 replaces what was stored in page 6. -/
theorem C291_virgin_counterexample :
    ((init 10 virgin).bind fun r => (performAll 10 [.writeBuf false 0 [0x66], .toPage false 6, .writeBuf false 0 [0x77], .toPage false 7, .readPage 0x600 1] r.2).map fun q => (r.1, q.1))
      = some (true, [.nothing, .nothing, .nothing, .nothing, .bytes [0x77]]) ∧
    (effects 2048 [.writeBuf false 0 [0x66], .toPage false 6, .writeBuf false 0 [0x77], .toPage false 7, .readPage 0x600 1] (view virgin)).1
      = [.nothing, .nothing, .nothing, .nothing, .bytes [0x66]] := by
  decide +kernel

/-- The change is lost if the device is busy: it is sent without waiting.  After a reset of the processor
during an operation the device has pages of 264 bytes even after a power cycle. -/
theorem C291_busy_counterexample :
    (init 10 { virgin with busy := 3 }).map (fun r => (r.1, r.2.powerCycle.binary)) = some (true, false) := by
  decide +kernel

end Props.Dataflash
