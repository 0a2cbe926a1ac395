import Verif.Spec.Storage
import Mathlib.Tactic.Common
import Mathlib.Data.List.Induction

set_option autoImplicit false

/-!
# Block devices: proofs (C102–C106)
-/

namespace Props.Storage

open Modm.Storage Modm.Spec.Storage

theorem u32_le (x : Nat) : u32 x ≤ x := Nat.mod_le _ _

theorem refused_within {block limit address size : Nat} (h : Within limit address size)
    (hb : size % block = 0) : refused block limit address size = false := by
  obtain ⟨h1, h2⟩ := h
  have := u32_le (address + size)
  simp only [refused, Bool.or_eq_false_iff, decide_eq_false_iff_not]
  refine ⟨⟨by omega, by omega⟩, by omega⟩

theorem refused_out {block limit address size : Nat} (h : limit < address + size)
    (hw : address + size < 4294967296) : refused block limit address size = true := by
  have : u32 (address + size) = address + size := Nat.mod_eq_of_lt hw
  simp [refused, this, h]

theorem copyTo_eq (mem : Nat → Byte) (address : Nat) (bytes : List Byte) :
    copyTo mem address bytes = store mem address bytes := rfl

theorem copyFrom_eq (mem : Nat → Byte) (address size : Nat) :
    copyFrom mem address size = load mem address size := rfl

/-! ## C102: heap and file -/

/-- The heap device is an array of bytes, for all requests within it. -/
theorem C102_heap (n : Nat) :
    Works (heap n) (fun _ => True) (fun data => data) n (fun _ _ => True) (fun _ _ => True) where
  read := by
    intro s a k _ hw _
    refine ⟨s, ?_, trivial, fun _ _ => rfl⟩
    show heapRead n a k s = _
    rw [heapRead, refused_within hw (Nat.mod_one _)]
    rw [if_neg (by simp), if_pos hw.2]
    rfl
  write := by
    intro s buffer a k _ hw _ hl
    refine ⟨store s a (buffer.take k), ?_, trivial, fun _ _ => rfl⟩
    show eraseProgram 1 1 n (heapErase n) (heapProgram n) buffer a k s = _
    simp only [eraseProgram, heapErase, heapProgram, refused_within hw (Nat.mod_one _)]
    simp only [Bool.or_false, Bool.false_eq_true, if_false]
    rw [if_pos ⟨hw.2, hl⟩]
    rfl

theorem refuses_of {σ : Type} {dev : Device σ} {s : σ} {a k : Nat}
    (h1 : dev.read a k s = some (false, [], s)) (h2 : dev.erase a k s = some (false, s))
    (h3 : ∀ b, dev.program b a k s = some (false, s)) (h4 : ∀ b, dev.write b a k s = some (false, s)) :
    Refuses dev s a k := ⟨h1, h2, fun b _ => ⟨h3 b, h4 b⟩⟩

/-- Requests that end behind the device are refused, as long as the end is below 2^32. -/
theorem C102_heap_refuses_partial (n a k : Nat) (data : Nat → Byte) (h : n < a + k)
    (hw : a + k < 4294967296) : Refuses (heap n) data a k := by
  have hr := fun b => refused_out (block := b) h hw
  apply refuses_of
  · show heapRead n a k data = _
    simp [heapRead, hr]
  · show heapErase n a k data = _
    simp [heapErase, hr]
  · intro b
    show heapProgram n b a k data = _
    simp [heapProgram, hr]
  · intro b
    show eraseProgram 1 1 n (heapErase n) (heapProgram n) b a k data = _
    simp [eraseProgram, hr]

/-- The end of the request wraps around: the bytes behind the device are accessed. -/
theorem C102_heap_counterexample (n k : Nat) (data : Nat → Byte) (b : Byte)
    (hk : k < 4294967296) (h : n ≤ k) :
    (heap n).read k (4294967296 - k) data = none ∧
      (k = 4294967295 → (heap n).program [b] k (4294967296 - k) data = none) := by
  have hr : refused 1 n k (4294967296 - k) = false := by
    have : u32 (k + (4294967296 - k)) = 0 := by
      rw [Nat.add_sub_cancel' (by omega)]
      rfl
    simp only [refused, this, Bool.or_eq_false_iff, decide_eq_false_iff_not, Nat.mod_one]
    omega
  refine ⟨?_, ?_⟩
  · show heapRead n k (4294967296 - k) data = none
    rw [heapRead, hr, if_neg (by simp), if_neg (by omega)]
  · rintro rfl
    show heapProgram n [b] 4294967295 (4294967296 - 4294967295) data = none
    rw [heapProgram, hr, if_neg (by simp), if_neg (by omega)]

example : Within 16 3 5 := ⟨by decide, by decide⟩
example : (heap 16).write [7, 8, 9] 3 2 heapInit = some (true, store heapInit 3 [7, 8]) ∧
    (heap 16).read 2 4 (store heapInit 3 [7, 8]) = some (true, [0, 7, 8, 0], store heapInit 3 [7, 8]) :=
  ⟨rfl, rfl⟩

/-- The file is open, has its size and no operation has failed. -/
def FileOk (n : Nat) (f : File) : Prop := f.content.length = n ∧ f.failed = false

theorem overwrite_length {c bytes : List Byte} {a : Nat} (h : a + bytes.length ≤ c.length) :
    (overwrite c a bytes).length = c.length := by
  simp [overwrite]
  omega

theorem overwrite_getD {c bytes : List Byte} {a : Nat} (h : a + bytes.length ≤ c.length) (x : Nat) :
    (overwrite c a bytes).getD x 0 = store (fun x => c.getD x 0) a bytes x := by
  have h0 : a - c.length = 0 := by omega
  simp only [overwrite, h0, List.replicate_zero, List.append_nil, store, List.getD_eq_getElem?_getD]
  by_cases h1 : x < a
  · rw [if_neg (by omega), List.getElem?_append_left (by simp; omega),
      List.getElem?_append_left (by simp; omega), List.getElem?_take, if_pos h1]
  · by_cases h2 : x < a + bytes.length
    · rw [if_pos (by omega), List.getElem?_append_left (by simp; omega),
        List.getElem?_append_right (by simp; omega)]
      have : (List.take a c).length = a := by simp; omega
      rw [this]
    · rw [if_neg (by omega), List.getElem?_append_right (by simp; omega), List.getElem?_drop]
      have : (List.take a c ++ bytes).length = a + bytes.length := by simp; omega
      rw [this]
      congr 2
      omega

theorem take_drop_getD (c : List Byte) (a k : Nat) (h : a + k ≤ c.length) :
    (c.drop a).take k = load (fun x => c.getD x 0) a k := by
  apply List.ext_getElem
  · simp [load]
    omega
  · intro i h1 h2
    simp only [load, List.length_map, List.length_range] at h2
    simp [load, List.getD_eq_getElem?_getD, List.getElem?_eq_getElem (show a + i < c.length by omega)]

/-- So is a file of the size of the device. -/
theorem C102_file (n : Nat) :
    Works (file n) (FileOk n) (fun f x => f.content.getD x 0) n (fun _ _ => True) (fun _ _ => True) where
  read := by
    rintro f a k ⟨hn, hf⟩ hw _
    refine ⟨f, ?_, ⟨hn, hf⟩, fun _ _ => rfl⟩
    show fileRead n a k f = _
    have hl : ((f.content.drop a).take k).length = k := by
      have := hw.2
      simp
      omega
    rw [fileRead, refused_within hw (Nat.mod_one _)]
    rw [if_neg (by simp), if_neg (by simp [hf]), hl, take_drop_getD _ _ _ (by have := hw.2; omega)]
    simp only [Nat.lt_irrefl, decide_false]
    rw [← hf]
  write := by
    rintro f buffer a k ⟨hn, hf⟩ hw _ hl
    have hlen : (buffer.take k).length = k := by simp; omega
    have hb : a + (buffer.take k).length ≤ f.content.length := by
      have := hw.2
      omega
    refine ⟨{ f with content := overwrite f.content a (buffer.take k) }, ?_, ⟨?_, hf⟩, ?_⟩
    · show eraseProgram 1 1 n (fileErase n) (fileProgram n) buffer a k f = _
      simp only [eraseProgram, fileErase, fileProgram, refused_within hw (Nat.mod_one _)]
      simp only [Bool.or_false, Bool.false_eq_true, if_false, hf]
      rw [if_neg (by omega)]
    · show (overwrite f.content a (buffer.take k)).length = n
      rw [overwrite_length hb, hn]
    · intro x _
      exact overwrite_getD hb x

theorem C102_file_refuses_partial (n a k : Nat) (f : File) (h : n < a + k)
    (hw : a + k < 4294967296) : Refuses (file n) f a k := by
  have hr := fun b => refused_out (block := b) h hw
  apply refuses_of
  · show fileRead n a k f = _
    simp [fileRead, hr]
  · show fileErase n a k f = _
    simp [fileErase, hr]
  · intro b
    show fileProgram n b a k f = _
    simp [fileProgram, hr]
  · intro b
    show eraseProgram 1 1 n (fileErase n) (fileProgram n) b a k f = _
    simp [eraseProgram, hr]

/-- A file that has the right size or is empty can be opened. -/
theorem C102_file_init (n : Nat) (c : List Byte) :
    ((fileInit n c).1 = true ↔ c.length = n ∨ c.length = 0) ∧
      ((fileInit n c).1 = true → FileOk n (fileInit n c).2) ∧
      (c.length = n → (fileInit n c).2.content = c) := by
  unfold fileInit FileOk
  by_cases h1 : c.length = n
  · simp [h1]
  · by_cases h2 : c.length = 0
    · have hn : 0 ≠ n := by omega
      simp [h2, hn]
    · simp [h1, h2]

/-- Where the end wraps around: the read succeeds without any byte, and so do all later ones; after
a program the file is too long to be opened again. -/
theorem C102_file_counterexample (n : Nat) (hn : 0 < n) (hn' : n < 4294967295) (f : File)
    (hf : FileOk n f) (b : Byte) :
    (∃ f', (file n).read 4294967295 1 f = some (true, [], f') ∧
      ∀ a k, Within n a k → (file n).read a k f' = some (true, [], f')) ∧
    ∃ f', (file n).program [b] 4294967295 1 f = some (true, f') ∧
      (fileInit n f'.content).1 = false := by
  obtain ⟨hl, hf⟩ := hf
  have hr : refused 1 n 4294967295 1 = false := by simp [refused, u32]
  have hd : f.content.drop 4294967295 = [] := List.drop_eq_nil_of_le (by omega)
  refine ⟨⟨{ f with failed := true }, ?_, ?_⟩, ?_⟩
  · show fileRead n 4294967295 1 f = _
    rw [fileRead, hr, if_neg (by simp), if_neg (by simp [hf]), hd]
    rfl
  · intro a k hw
    show fileRead n a k _ = _
    rw [fileRead, refused_within hw (Nat.mod_one _)]
    rfl
  · refine ⟨{ f with content := overwrite f.content 4294967295 [b] }, ?_, ?_⟩
    · show fileProgram n [b] 4294967295 1 f = _
      rw [fileProgram, hr, if_neg (by simp), if_neg (by simp), if_neg (by simp [hf])]
      rfl
    · have hlen : (overwrite f.content 4294967295 [b]).length = 4294967296 := by
        simp [overwrite]
        omega
      show (fileInit n (overwrite f.content 4294967295 [b])).1 = false
      rw [fileInit, hlen, if_pos (by omega), if_neg (by omega)]

example : FileOk 4 ⟨[1, 2, 3, 4], false⟩ := ⟨rfl, rfl⟩

/-! ## C103: mirror -/

theorem Works.mono {σ : Type} {dev : Device σ} {inv : σ → Prop} {view : σ → Nat → Byte} {n m : Nat}
    {r w r' w' : Nat → Nat → Prop} (h : Works dev inv view n r w) (hm : m ≤ n)
    (hr : ∀ a k, r' a k → r a k) (hw : ∀ a k, w' a k → w a k) : Works dev inv view m r' w' where
  read := by
    intro s a k hi hin ho
    obtain ⟨s', h1, h2, h3⟩ := h.read s a k hi ⟨hin.1, by have := hin.2; omega⟩ (hr a k ho)
    exact ⟨s', h1, h2, fun x hx => h3 x (by omega)⟩
  write := by
    intro s b a k hi hin ho hl
    obtain ⟨s', h1, h2, h3⟩ := h.write s b a k hi ⟨hin.1, by have := hin.2; omega⟩ (hw a k ho) hl
    exact ⟨s', h1, h2, fun x hx => h3 x (by omega)⟩

theorem store_congr {m m' : Nat → Byte} {a : Nat} {b : List Byte} {x : Nat} (h : m x = m' x) :
    store m a b x = store m' a b x := by
  simp only [store, h]

/-- If both devices work and have the same content, the mirror works and they keep the same content;
its size is the smaller one of both. -/
theorem C103_mirror_partial {σ τ : Type} {A : Device σ} {B : Device τ} {ia : σ → Prop} {ib : τ → Prop}
    {va : σ → Nat → Byte} {vb : τ → Nat → Byte} {na nb : Nat} {ra wa rb wb : Nat → Nat → Prop}
    (hA : Works A ia va na ra wa) (hB : Works B ib vb nb rb wb) (bw be : Nat) :
    Works (mirror bw be A B)
      (fun s => ia s.1 ∧ ib s.2 ∧ ∀ x < min na nb, va s.1 x = vb s.2 x)
      (fun s => va s.1) (min na nb) ra
      (fun a k => wa a k ∧ wb a k ∧ k % bw = 0 ∧ k % be = 0) where
  read := by
    rintro ⟨s, t⟩ a k ⟨hs, ht, he⟩ hw ho
    obtain ⟨s', h1, h2, h3⟩ := hA.read s a k hs ⟨hw.1, by have := hw.2; omega⟩ ho
    refine ⟨(s', t), ?_, ⟨h2, ht, ?_⟩, fun x hx => h3 x (by omega)⟩
    · simp only [mirror, h1]
    · intro x hx
      rw [h3 x (by omega)]
      exact he x hx
  write := by
    rintro ⟨s, t⟩ b a k ⟨hs, ht, he⟩ hw ⟨ho1, ho2, hbw, hbe⟩ hl
    obtain ⟨s', h1, h2, h3⟩ := hA.write s b a k hs ⟨hw.1, by have := hw.2; omega⟩ ho1 hl
    obtain ⟨t', g1, g2, g3⟩ := hB.write t b a k ht ⟨hw.1, by have := hw.2; omega⟩ ho2 hl
    refine ⟨(s', t'), ?_, ⟨h2, g2, ?_⟩, fun x hx => h3 x (by omega)⟩
    · have h0 : k ≠ 0 := by have := hw.1; omega
      simp only [mirror, wrongSize, h0, hbw, hbe, both, h1, g1]
      simp
    · intro x hx
      show va s' x = vb t' x
      rw [h3 x (by omega), g3 x (by omega)]
      exact store_congr (he x hx)

example := C103_mirror_partial (C102_heap 16) (C102_file 8) 1 1

/-- Erasing and programming reach both devices. -/
theorem C103_both {σ τ : Type} (A : Device σ) (B : Device τ) (bw be : Nat) (a k : Nat) (s s' : σ)
    (t t' : τ) (hk : k ≠ 0) :
    (k % be = 0 → A.erase a k s = some (true, s') → B.erase a k t = some (true, t') →
      (mirror bw be A B).erase a k (s, t) = some (true, s', t')) ∧
    (k % bw = 0 → ∀ b, A.program b a k s = some (true, s') → B.program b a k t = some (true, t') →
      (mirror bw be A B).program b a k (s, t) = some (true, s', t')) := by
  refine ⟨fun h1 h2 h3 => ?_, fun h1 b h2 h3 => ?_⟩
  · simp [mirror, wrongSize, hk, h1, both, h2, h3]
  · simp [mirror, wrongSize, hk, h1, both, h2, h3]

example : ∃ s' t', (heap 16).erase 0 4 heapInit = some (true, s') ∧
    (heap 16).program [1, 2, 3, 4] 0 4 heapInit = some (true, t') := ⟨_, _, rfl, rfl⟩

/-- The result of the second device is never looked at: if it fails, the mirror still succeeds. -/
theorem C103_failure_counterexample {σ τ : Type} (A : Device σ) (B : Device τ) (bw be : Nat)
    (b : List Byte) (a k : Nat) (s s' : σ) (t t' : τ) (hk : k ≠ 0) (hbw : k % bw = 0) (hbe : k % be = 0)
    (hA : A.write b a k s = some (true, s')) (hB : B.write b a k t = some (false, t')) :
    (mirror bw be A B).write b a k (s, t) = some (true, s', t') := by
  simp [mirror, wrongSize, hk, hbw, hbe, both, hA, hB]

/-- In particular for a request behind the end of the (smaller) mirror. -/
theorem C103_size_counterexample :
    (mirror 1 1 (heap 16) (heap 8)).write [7] 10 1 (heapInit, heapInit) =
      some (true, store heapInit 10 [7], heapInit) := rfl

/-! ## C104: serial flash -/

theorem isBusy_chip (c : Chip) :
    Modm.Storage.isBusy Chip.frame c = (decide (0 < c.busy), { c with busy := c.busy - 1 }) := by
  simp only [Modm.Storage.isBusy, op, Chip.frame, if_pos, Chip.status]
  refine Prod.ext ?_ rfl
  by_cases h1 : 0 < c.busy <;> by_cases h2 : c.wel <;> simp [h1, h2]

theorem wait_chip (n : Nat) (c : Chip) (h : c.busy < n) :
    waitWhileBusy Chip.frame n c = some { c with busy := 0 } := by
  induction n generalizing c with
  | zero => omega
  | succ n ih =>
    rw [waitWhileBusy, isBusy_chip]
    by_cases hb : 0 < c.busy
    · simp only [hb, decide_true, if_true]
      rw [ih]
      show c.busy - 1 < n
      omega
    · have hb0 : c.busy = 0 := by omega
      simp [hb0]

theorem frame_command (c : Chip) (cmd : Byte) (bytes : List Byte) (h5 : cmd ≠ 0x05) (hb : c.busy = 0) :
    Chip.frame (cmd :: bytes) c = (cmd :: (c.command cmd bytes).1, (c.command cmd bytes).2) := by
  rw [Chip.frame, if_neg h5, if_neg (by omega)]

theorem write_enable (c : Chip) (hb : c.busy = 0) :
    (op Chip.frame 0x06 [] c).2 = { c with wel := true, armed := false } := by
  simp only [op]
  rw [frame_command c _ _ (by decide) hb]
  simp [Chip.command]

theorem address_parse (c : Chip) (n bound a : Nat) (rest : List Byte) (hc : Ready n bound c)
    (hn : n ≤ 4294967296) (ha : a < n) :
    c.address (addressBytes n a ++ rest) = some (a, rest) := by
  unfold Chip.address addressBytes
  rw [hc.wide, hc.size]
  by_cases h : 16777216 < n
  · simp only [h, decide_true, if_true, List.cons_append, List.nil_append]
    simp only [BitVec.toNat_ofNat, Nat.shiftRight_eq_div_pow, Option.some.injEq, Prod.mk.injEq, and_true]
    have : ((a / 2 ^ 24 % 2 ^ 8 * 256 + a / 2 ^ 16 % 2 ^ 8) * 256 + a / 2 ^ 8 % 2 ^ 8) * 256 + a % 2 ^ 8 = a := by
      omega
    rw [this, Nat.mod_eq_of_lt ha]
  · simp only [h, decide_false, Bool.false_eq_true, if_false, List.cons_append, List.nil_append]
    simp only [BitVec.toNat_ofNat, Nat.shiftRight_eq_div_pow, Option.some.injEq, Prod.mk.injEq, and_true]
    have : (a / 2 ^ 16 % 2 ^ 8 * 256 + a / 2 ^ 8 % 2 ^ 8) * 256 + a % 2 ^ 8 = a := by
      omega
    rw [this, Nat.mod_eq_of_lt ha]

theorem pageBuffer_of (off : Nat) (data : List Byte) (h : off + data.length ≤ 256) (j : Nat) (hj : j < 256) :
    pageBuffer off data j =
      if off ≤ j ∧ j < off + data.length then data.getD (j - off) 0 else 255 := by
  induction data using List.reverseRecOn with
  | nil =>
    have : ¬ (off ≤ j ∧ j < off + ([] : List Byte).length) := by simp
    rw [if_neg this]
    rfl
  | append_singleton data d ih =>
    simp only [List.length_append, List.length_singleton] at h
    have ih := ih (by omega)
    unfold pageBuffer at ih ⊢
    rw [List.zipIdx_append, List.foldl_append]
    simp only [List.zipIdx_cons, List.zipIdx_nil, List.foldl_cons, List.foldl_nil, Nat.zero_add]
    rw [Nat.mod_eq_of_lt (by omega)]
    by_cases hx : j = off + data.length
    · subst hx
      rw [Function.update_self, if_pos (by simp)]
      simp [List.getD_eq_getElem?_getD]
    · rw [Function.update_of_ne hx, ih]
      by_cases h2 : off ≤ j ∧ j < off + data.length
      · rw [if_pos h2, if_pos (by simp; omega)]
        simp only [List.getD_eq_getElem?_getD]
        rw [List.getElem?_append_left (by omega)]
      · rw [if_neg h2, if_neg (by simp; omega)]

theorem ready_start {n bound : Nat} {c : Chip} (h1 : c.size = n) (h2 : c.locked = false)
    (h3 : c.wide = decide (16777216 < n)) (h4 : ∀ i, c.delays i < bound) : Ready n bound c.start :=
  ⟨h1, h2, h3, h4 0, fun i => h4 (i + 1)⟩

theorem ready_idle {n bound : Nat} {c : Chip} (h : Ready n bound c) :
    Ready n bound { c with busy := 0, wel := true, armed := false } :=
  ⟨h.size, h.locked, h.wide, Nat.lt_of_le_of_lt (Nat.zero_le _) h.busy, h.delays⟩

/-- The memory with bits cleared from `address` on. -/
def clear (mem : Nat → Byte) (address : Nat) (bytes : List Byte) : Nat → Byte :=
  fun x => if address ≤ x ∧ x < address + bytes.length then mem x &&& bytes.getD (x - address) 0 else mem x

/-- The memory with all bits set from `address` on. -/
def blank (mem : Nat → Byte) (address size : Nat) : Nat → Byte :=
  fun x => if address ≤ x ∧ x < address + size then 255 else mem x

theorem program_page (n bound a : Nat) (data : List Byte) (c : Chip) (hc : Ready n bound c)
    (hn : n ≤ 4294967296) (ha : a % 256 = 0) (hin : a + 256 ≤ n) (hd : data.length = 256) :
    ∃ c', (opAt Chip.frame n 0x02 a 0 data (op Chip.frame 0x06 [] { c with busy := 0 }).2).2 = c' ∧
      Ready n bound c' ∧ c'.mem = clear c.mem a data := by
  refine ⟨_, rfl, ?_⟩
  rw [write_enable _ rfl]
  have hr := ready_idle hc
  simp only [opAt]
  rw [frame_command _ _ _ (by decide) rfl]
  simp only [Chip.command, List.replicate_zero, List.append_nil]
  rw [if_neg (by decide), if_neg (by decide), if_neg (by decide), if_neg (by decide), if_neg (by decide),
    if_neg (by decide), address_parse _ n bound a data hr hn (by omega)]
  simp only [if_pos, Chip.program, hc.locked, Bool.not_false, Bool.and_self]
  refine ⟨ready_start hc.size rfl hc.wide hc.delays, ?_⟩
  funext x
  simp only [Chip.start, clear, hd, ha]
  by_cases hx : a ≤ x ∧ x < a + 256
  · rw [if_pos hx, if_pos (by omega), pageBuffer_of 0 data (by omega) _ (by omega), if_pos (by omega)]
    congr 2
    omega
  · rw [if_neg hx, if_neg (by omega)]

theorem clear_clear (mem : Nat → Byte) (a : Nat) (b1 b2 : List Byte) :
    clear (clear mem a b1) (a + b1.length) b2 = clear mem a (b1 ++ b2) := by
  funext x
  simp only [clear, List.length_append, List.getD_eq_getElem?_getD]
  by_cases h1 : a ≤ x ∧ x < a + b1.length
  · rw [if_neg (by omega), if_pos h1, if_pos (by omega), List.getElem?_append_left (by omega)]
  · by_cases h2 : a + b1.length ≤ x ∧ x < a + b1.length + b2.length
    · rw [if_pos h2, if_neg h1, if_pos (by omega), List.getElem?_append_right (by omega)]
      congr 3
      omega
    · rw [if_neg h2, if_neg h1, if_neg (by omega)]

theorem clear_nil (mem : Nat → Byte) (a : Nat) : clear mem a [] = mem := by
  funext x
  simp only [clear, List.length_nil, Nat.add_zero]
  rw [if_neg (by omega)]

theorem programLoop_of (n bound : Nat) (buffer : List Byte) (a size : Nat) (hn : n ≤ 4294967296)
    (ha : a % 256 = 0) (hin : a + size ≤ n) (hs : size % 256 = 0) (hl : size ≤ buffer.length)
    (k index : Nat) (hi : index % 256 = 0) (hk : size < index + k * 256) (c : Chip)
    (hc : Ready n bound c) (hle : index ≤ size) :
    ∃ c', programLoop Chip.frame bound n buffer a size k index c = some c' ∧ Ready n bound c' ∧
      c'.mem = clear c.mem (a + index) ((buffer.drop index).take (size - index)) := by
  induction k generalizing index c with
  | zero => omega
  | succ k ih =>
    rw [programLoop]
    by_cases hx : index < size
    · rw [if_pos hx, wait_chip _ _ hc.busy]
      simp only
      rw [if_pos (by omega)]
      have hu : u32 (a + index) = a + index := Nat.mod_eq_of_lt (by omega)
      have hlen : ((buffer.drop index).take 256).length = 256 := by simp; omega
      obtain ⟨c1, e1, r1, m1⟩ := program_page n bound (a + index) ((buffer.drop index).take 256) c hc hn
        (by omega) (by omega) hlen
      rw [hu, e1]
      obtain ⟨c2, e2, r2, m2⟩ := ih (index + 256) (by omega) (by omega) c1 r1 (by omega)
      refine ⟨c2, e2, r2, ?_⟩
      rw [m2, m1]
      have := clear_clear c.mem (a + index) ((buffer.drop index).take 256)
        ((buffer.drop (index + 256)).take (size - (index + 256)))
      rw [hlen] at this
      rw [show a + (index + 256) = a + index + 256 by omega, this]
      congr 1
      rw [← List.drop_drop, ← List.take_add, show 256 + (size - (index + 256)) = size - index by omega]
    · rw [if_neg hx]
      refine ⟨c, rfl, hc, ?_⟩
      rw [show size - index = 0 by omega, List.take_zero, clear_nil]

/-- Programming clears the bits that are 0 in the buffer, for aligned addresses. -/
theorem C104_program_partial (n bound : Nat) (buffer : List Byte) (a size : Nat) (hn : n ≤ 4294967296)
    (ha : a % 256 = 0) (hw : Within n a size) (hs : size % 256 = 0) (hl : size ≤ buffer.length)
    (c : Chip) (hc : Ready n bound c) :
    ∃ c', (flash Chip.frame bound n).program buffer a size c = some (true, c') ∧ Ready n bound c' ∧
      ∀ x, c'.mem x = if a ≤ x ∧ x < a + size then c.mem x &&& buffer.getD (x - a) 0 else c.mem x := by
  obtain ⟨c', e, r, m⟩ := programLoop_of n bound buffer a size hn ha hw.2 hs hl (size + 1) 0 rfl (by omega)
    c hc (by omega)
  refine ⟨c', ?_, r, ?_⟩
  · show flashProgram Chip.frame bound n buffer a size c = _
    simp only [flashProgram, refused_within hw hs, Bool.false_eq_true, if_false, e, Option.map_some]
  · intro x
    rw [m]
    have hlen : (buffer.take size).length = size := by simp; omega
    simp only [clear, Nat.add_zero, List.drop_zero, Nat.sub_zero, hlen, List.getD_eq_getElem?_getD,
      List.getElem?_take]
    by_cases hx : a ≤ x ∧ x < a + size
    · rw [if_pos hx, if_pos hx, if_pos (by omega)]
    · rw [if_neg hx, if_neg hx]

theorem erase_sector (n bound a : Nat) (c : Chip) (hc : Ready n bound c)
    (hn : n ≤ 4294967296) (ha : a % 4096 = 0) (hin : a < n) :
    ∃ c', (opAt Chip.frame n 0x20 a 0 [] (op Chip.frame 0x06 [] { c with busy := 0 }).2).2 = c' ∧
      Ready n bound c' ∧ c'.mem = blank c.mem a 4096 := by
  refine ⟨_, rfl, ?_⟩
  rw [write_enable _ rfl]
  have hr := ready_idle hc
  simp only [opAt]
  rw [frame_command _ _ _ (by decide) rfl]
  simp only [Chip.command, List.replicate_zero]
  rw [if_neg (by decide), if_neg (by decide), if_neg (by decide), if_neg (by decide), if_neg (by decide),
    if_neg (by decide), List.append_nil, address_parse _ n bound a [] hr hn (by omega)]
  simp only
  rw [if_neg (by decide), if_pos trivial]
  simp only [if_pos, Chip.eraseSector, hc.locked, Bool.not_false, Bool.and_self]
  refine ⟨ready_start hc.size rfl hc.wide hc.delays, ?_⟩
  funext x
  simp only [Chip.start, blank]
  by_cases hx : a ≤ x ∧ x < a + 4096
  · rw [if_pos hx, if_pos (by omega)]
  · rw [if_neg hx, if_neg (by omega)]

theorem blank_blank (mem : Nat → Byte) (a k l : Nat) :
    blank (blank mem a k) (a + k) l = blank mem a (k + l) := by
  funext x
  simp only [blank]
  by_cases h1 : a ≤ x ∧ x < a + k
  · rw [if_neg (by omega), if_pos h1, if_pos (by omega)]
  · by_cases h2 : a + k ≤ x ∧ x < a + k + l
    · rw [if_pos h2, if_pos (by omega)]
    · rw [if_neg h2, if_neg h1, if_neg (by omega)]

theorem eraseLoop_of (n bound : Nat) (a size : Nat) (hn : n ≤ 4294967296)
    (ha : a % 4096 = 0) (hin : a + size ≤ n) (hs : size % 4096 = 0)
    (k index : Nat) (hi : index % 4096 = 0) (hk : size < index + k * 4096) (c : Chip)
    (hc : Ready n bound c) (hle : index ≤ size) :
    ∃ c', eraseLoop Chip.frame bound n a size k index c = some c' ∧ Ready n bound c' ∧
      c'.mem = blank c.mem (a + index) (size - index) := by
  induction k generalizing index c with
  | zero => omega
  | succ k ih =>
    rw [eraseLoop]
    by_cases hx : index < size
    · rw [if_pos hx, wait_chip _ _ hc.busy]
      simp only
      have hu : u32 (a + index) = a + index := Nat.mod_eq_of_lt (by omega)
      obtain ⟨c1, e1, r1, m1⟩ := erase_sector n bound (a + index) c hc hn (by omega) (by omega)
      rw [hu, e1]
      obtain ⟨c2, e2, r2, m2⟩ := ih (index + 4096) (by omega) (by omega) c1 r1 (by omega)
      refine ⟨c2, e2, r2, ?_⟩
      rw [m2, m1, show a + (index + 4096) = a + index + 4096 by omega, blank_blank,
        show 4096 + (size - (index + 4096)) = size - index by omega]
    · rw [if_neg hx]
      refine ⟨c, rfl, hc, ?_⟩
      rw [show size - index = 0 by omega]
      funext x
      simp only [blank]
      rw [if_neg (by omega)]

/-- Erasing sets all bits, for aligned addresses and less than the whole chip. -/
theorem C104_erase_partial (n bound : Nat) (a size : Nat) (hn : n ≤ 4294967296)
    (ha : a % 4096 = 0) (hw : Within n a size) (hs : size % 4096 = 0) (hnot : ¬ (a = 0 ∧ size = n))
    (c : Chip) (hc : Ready n bound c) :
    ∃ c', (flash Chip.frame bound n).erase a size c = some (true, c') ∧ Ready n bound c' ∧
      ∀ x, c'.mem x = if a ≤ x ∧ x < a + size then 255 else c.mem x := by
  obtain ⟨c', e, r, m⟩ := eraseLoop_of n bound a size hn ha hw.2 hs (size + 1) 0 rfl (by omega)
    c hc (by omega)
  refine ⟨c', ?_, r, ?_⟩
  · show flashErase Chip.frame bound n a size c = _
    simp only [flashErase, refused_within hw hs, Bool.false_eq_true, if_false, if_neg hnot, e, Option.map_some]
  · intro x
    rw [m]
    simp only [blank, Nat.add_zero, Nat.sub_zero]

theorem read_chip (n bound a size : Nat) (c : Chip) (hc : Ready n bound c) (hn : n ≤ 4294967296)
    (hw : Within n a size) :
    ∃ c', flashRead Chip.frame bound n a size c = some (true, load c.mem a size, c') ∧
      Ready n bound c' ∧ c'.mem = c.mem := by
  refine ⟨{ c with busy := 0, armed := false }, ?_, ?_, rfl⟩
  · rw [flashRead, refused_within hw (Nat.mod_one _), if_neg (by simp), wait_chip _ _ hc.busy]
    have hr : Ready n bound { c with busy := 0, armed := false } :=
      ⟨hc.size, hc.locked, hc.wide, Nat.lt_of_le_of_lt (Nat.zero_le _) hc.busy, hc.delays⟩
    have hlen : (addressBytes n a).length = 3 ∨ (addressBytes n a).length = 4 := by
      unfold addressBytes
      by_cases h : n > 16777216
      · rw [if_pos h]; right; rfl
      · rw [if_neg h]; left; rfl
    obtain ⟨l, hl⟩ : ∃ l, l = (addressBytes n a).length := ⟨_, rfl⟩
    have hframe : Chip.frame (0x0B :: (addressBytes n a ++ List.replicate 1 0 ++ List.replicate size 0))
        { c with busy := 0 } =
        (0x0B :: ((addressBytes n a ++ [0]) ++ load c.mem a size), { c with busy := 0, armed := false }) := by
      rw [frame_command _ _ _ (by decide) rfl]
      simp only [Chip.command]
      rw [if_neg (by decide), if_neg (by decide), if_neg (by decide), if_neg (by decide), if_neg (by decide),
        if_neg (by decide), List.append_assoc, address_parse _ n bound a _ hr hn (by have := hw.1; have := hw.2; omega)]
      simp only
      rw [if_neg (by decide), if_neg (by decide), if_pos trivial]
      have h1 : (addressBytes n a ++ (List.replicate 1 0 ++ List.replicate size 0)).length -
          (List.replicate 1 (0 : Byte) ++ List.replicate size 0).length + 1 = (addressBytes n a ++ [(0 : Byte)]).length := by
        simp
      rw [h1]
      have h2 : addressBytes n a ++ (List.replicate 1 0 ++ List.replicate size 0) =
          (addressBytes n a ++ [0]) ++ List.replicate size 0 := by simp
      rw [h2, List.take_left' rfl]
      have h3 : (List.replicate 1 (0 : Byte) ++ List.replicate size 0).length - 1 = size := by simp
      rw [h3]
      have h4 : (List.range size).map (fun i => c.mem ((a + i) % c.size)) = load c.mem a size := by
        unfold load
        apply List.map_congr_left
        intro i hi
        rw [hc.size, Nat.mod_eq_of_lt]
        have := List.mem_range.1 hi
        have := hw.2
        omega
      rw [h4]
    simp only [opAt]
    rw [hframe]
    simp only [Option.some.injEq, Prod.mk.injEq, true_and, and_true]
    rw [show 1 + (addressBytes n a).length + 1 = ((addressBytes n a ++ [0]).length) + 1 by simp; omega,
      List.drop_succ_cons, List.drop_left' rfl]
  · exact ⟨hc.size, hc.locked, hc.wide, Nat.lt_of_le_of_lt (Nat.zero_le _) hc.busy, hc.delays⟩

/-- The driver with the chip works like an array of bytes, for writes to whole sectors that are not
the whole chip. -/
theorem C104_flash_partial (n bound : Nat) (hn : n ≤ 4294967296) :
    Works (flash Chip.frame bound n) (Ready n bound) (fun c => c.mem) n (fun _ _ => True)
      (fun a k => a % 4096 = 0 ∧ k % 4096 = 0 ∧ ¬ (a = 0 ∧ k = n)) where
  read := by
    intro c a k hc hw _
    obtain ⟨c', h1, h2, h3⟩ := read_chip n bound a k c hc hn hw
    exact ⟨c', h1, h2, fun x _ => by rw [h3]⟩
  write := by
    rintro c b a k hc hw ⟨ha, hk, hnot⟩ hl
    obtain ⟨c1, e1, r1, m1⟩ := C104_erase_partial n bound a k hn ha hw hk hnot c hc
    obtain ⟨c2, e2, r2, m2⟩ := C104_program_partial n bound b a k hn (by omega) hw (by omega) hl c1 r1
    refine ⟨c2, ?_, r2, ?_⟩
    · show eraseProgram 4096 256 n _ _ b a k c = _
      simp only [eraseProgram, refused_within hw hk, refused_within hw (show k % 256 = 0 by omega)]
      have e1' : flashErase Chip.frame bound n a k c = some (true, c1) := e1
      rw [e1']
      exact e2
    · intro x _
      rw [m2, m1]
      have hlen : (b.take k).length = k := by simp; omega
      simp only [store, hlen, List.getD_eq_getElem?_getD, List.getElem?_take]
      by_cases hx : a ≤ x ∧ x < a + k
      · rw [if_pos hx, if_pos hx, if_pos hx, if_pos (by omega)]
        show BitVec.allOnes 8 &&& _ = _
        rw [BitVec.allOnes_and]
      · rw [if_neg hx, if_neg hx, if_neg hx]

/-! ### Initialisation -/

theorem unlock_chip (n bound : Nat) (c : Chip) (hc : Alive n bound c) (hb : c.busy = 0) :
    ∃ c', unlock Chip.frame bound n c = some c' ∧ Ready n bound c' ∧ c'.mem = c.mem := by
  have hbd : 0 < bound := Nat.lt_of_le_of_lt (Nat.zero_le _) hc.busy
  have h98 : (op Chip.frame 0x98 [] { c with wel := true, armed := false }).2 =
      { c with wel := !c.unlockResets, locked := false, armed := false } := by
    simp only [op]
    rw [frame_command { c with wel := true, armed := false } _ _ (by decide) hb]
    simp [Chip.command, Chip.unlock]
  unfold unlock
  rw [write_enable _ hb, h98,
    wait_chip _ { c with wel := !c.unlockResets, locked := false, armed := false } hc.busy]
  simp only
  by_cases hn : n > 16777216
  · rw [if_pos hn]
    have hb7 : (op Chip.frame 0xB7 []
        { c with wel := !c.unlockResets, locked := false, armed := false, busy := 0 }).2 =
        { c with wel := !c.unlockResets, locked := false, armed := false, busy := 0, wide := true } := by
      simp only [op]
      rw [frame_command _ _ _ (by decide) rfl]
      simp [Chip.command]
    rw [hb7, wait_chip _ _ (show 0 < bound from hbd)]
    exact ⟨_, rfl, ⟨hc.size, rfl, by simpa using hn, hbd, hc.delays⟩, rfl⟩
  · rw [if_neg hn]
    refine ⟨_, rfl, ⟨hc.size, rfl, ?_, hbd, hc.delays⟩, rfl⟩
    show c.wide = _
    have : c.wide = false := by
      cases hw : c.wide with
      | false => rfl
      | true => exact absurd (hc.wide hw) hn
    simpa [this] using hn

/-- After `initialize` the chip is ready, whatever its protection and address mode were; the content
is kept. -/
theorem C104_initialize (n bound : Nat) (c : Chip) (hc : Alive n bound c) (hb : c.busy = 0) :
    ∃ c', flashInit Chip.frame bound n c = some (true, c') ∧ Ready n bound c' ∧ c'.mem = c.mem := by
  have h66 : (op Chip.frame 0x66 [] c).2 = { c with armed := true } := by
    simp only [op]
    rw [frame_command _ _ _ (by decide) hb]
    simp [Chip.command]
  have h99 : (op Chip.frame 0x99 [] { c with armed := true }).2 =
      { c with locked := true, wide := false, armed := false }.start := by
    simp only [op]
    rw [frame_command { c with armed := true } _ _ (by decide) hb]
    simp [Chip.command, Chip.reset]
  unfold flashInit
  rw [h66, h99, wait_chip _ _ (show c.delays 0 < bound from hc.delays 0)]
  simp only
  obtain ⟨c', h1, h2, h3⟩ := unlock_chip n bound
    { { c with locked := true, wide := false, armed := false }.start with busy := 0 }
    ⟨hc.size, fun h => by simp [Chip.start] at h, Nat.lt_of_le_of_lt (Nat.zero_le _) hc.busy,
      fun i => hc.delays (i + 1)⟩ rfl
  rw [h1]
  exact ⟨c', rfl, h2, h3⟩

/-- A chip with erased memory of 64 KiB. -/
def someChip : Chip where
  size := 65536
  mem := fun _ => 255
  wel := false
  locked := true
  wide := false
  armed := false
  busy := 0
  delays := fun i => i % 3
  unlockResets := false

example : Alive 65536 3 someChip :=
  ⟨rfl, fun h => by simp [someChip] at h, by decide, fun i => Nat.mod_lt _ (by decide)⟩

theorem C104_refuses_partial {σ : Type} (bus : Bus σ) (n bound a k : Nat) (s : σ) (h : n < a + k)
    (hw : a + k < 4294967296) : Refuses (flash bus bound n) s a k := by
  have hr := fun b => refused_out (block := b) h hw
  apply refuses_of
  · show flashRead bus bound n a k s = _
    simp [flashRead, hr]
  · show flashErase bus bound n a k s = _
    simp [flashErase, hr]
  · intro b
    show flashProgram bus bound n b a k s = _
    simp [flashProgram, hr]
  · intro b
    show eraseProgram _ _ n _ _ b a k s = _
    simp [eraseProgram, hr]

/-- Erasing the whole chip does nothing: the chip erase command is sent without a write enable.
After a first page has been programmed (or a sector erased) the write enable latch is off. -/
theorem C104_whole_counterexample (n bound : Nat) (hn0 : 0 < n)
    (hs : n % 4096 = 0) (c : Chip) (hc : Ready n bound c) (hwel : c.wel = false) :
    ∃ c', (flash Chip.frame bound n).erase 0 n c = some (true, c') ∧ c'.mem = c.mem := by
  have hr : refused 4096 n 0 n = false := refused_within ⟨hn0, by omega⟩ hs
  refine ⟨{ c with busy := 0, armed := false }, ?_, rfl⟩
  show flashErase Chip.frame bound n 0 n c = _
  simp only [flashErase, hr, Bool.false_eq_true, if_false, and_self, if_true, wait_chip _ _ hc.busy,
    Option.map_some, op]
  rw [frame_command _ _ _ (by decide) rfl]
  simp [Chip.command, Chip.eraseAll, hwel]

/-- With `write` of the whole chip the old content is not replaced but combined with the new one. -/
theorem C104_whole_write_counterexample (n bound : Nat) (hn0 : 0 < n) (hn : n ≤ 4294967296)
    (hs : n % 4096 = 0) (c : Chip) (hc : Ready n bound c) (hwel : c.wel = false) (b : List Byte)
    (hl : n ≤ b.length) :
    ∃ c', (flash Chip.frame bound n).write b 0 n c = some (true, c') ∧
      ∀ x < n, c'.mem x = c.mem x &&& b.getD x 0 := by
  have hw : Within n 0 n := ⟨hn0, by omega⟩
  have he : flashErase Chip.frame bound n 0 n c = some (true, { c with busy := 0, armed := false }) := by
    simp only [flashErase, refused_within hw hs, Bool.false_eq_true, if_false, and_self, if_true,
      wait_chip _ _ hc.busy, Option.map_some, op]
    rw [frame_command _ _ _ (by decide) rfl]
    simp [Chip.command, Chip.eraseAll, hwel]
  obtain ⟨c2, e2, _, m2⟩ := C104_program_partial n bound b 0 n hn rfl hw (by omega) hl
    { c with busy := 0, armed := false }
    ⟨hc.size, hc.locked, hc.wide, Nat.lt_of_le_of_lt (Nat.zero_le _) hc.busy, hc.delays⟩
  refine ⟨c2, ?_, ?_⟩
  · show eraseProgram 4096 256 n _ _ b 0 n c = _
    simp only [eraseProgram, refused_within hw hs, refused_within hw (show n % 256 = 0 by omega), he]
    exact e2
  · intro x hx
    rw [m2 x, if_pos (by omega)]
    rfl

theorem program_unaligned (n bound a : Nat) (data : List Byte) (c : Chip) (hc : Ready n bound c)
    (hn : n ≤ 4294967296) (hin : a + 256 ≤ n) (hd : data.length = 256) :
    ∃ c', (flash Chip.frame bound n).program data a 256 c = some (true, c') ∧
      ∀ x, c'.mem x = if x / 256 = a / 256 then c.mem x &&& pageBuffer (a % 256) data (x % 256) else c.mem x := by
  have hw : Within n a 256 := ⟨by decide, hin⟩
  have hu : u32 a = a := Nat.mod_eq_of_lt (by omega)
  have hl : programLoop Chip.frame bound n data a 256 257 0 c =
      some (opAt Chip.frame n 0x02 a 0 data (op Chip.frame 0x06 [] { c with busy := 0 }).2).2 := by
    rw [programLoop, if_pos (by decide), wait_chip _ _ hc.busy]
    simp only
    rw [if_pos (by omega), programLoop, if_neg (by decide)]
    simp only [Nat.add_zero, hu, List.drop_zero, List.take_of_length_le (Nat.le_of_eq hd)]
  refine ⟨(opAt Chip.frame n 0x02 a 0 data (op Chip.frame 0x06 [] { c with busy := 0 }).2).2, ?_, ?_⟩
  · show flashProgram Chip.frame bound n data a 256 c = _
    simp only [flashProgram, refused_within hw (show 256 % 256 = 0 from rfl), Bool.false_eq_true, if_false]
    rw [hl]
    rfl
  · rw [write_enable _ rfl]
    have hr := ready_idle hc
    simp only [opAt]
    rw [frame_command _ _ _ (by decide) rfl]
    simp only [Chip.command, List.replicate_zero, List.append_nil]
    rw [if_neg (by decide), if_neg (by decide), if_neg (by decide), if_neg (by decide), if_neg (by decide),
      if_neg (by decide), address_parse _ n bound a data hr hn (by omega)]
    simp only [if_pos, Chip.program, hc.locked, Bool.not_false, Bool.and_self]
    intro x
    rfl

/-- Programming from an address inside of a page on: the bytes behind the end of the page stay as
they are, though the function returns `true`. -/
theorem C104_unaligned_counterexample (n bound a : Nat) (data : List Byte) (c : Chip)
    (hc : Ready n bound c) (hn : n ≤ 4294967296) (_ : a % 256 ≠ 0) (hin : a + 256 ≤ n)
    (hd : data.length = 256) :
    ∃ c', (flash Chip.frame bound n).program data a 256 c = some (true, c') ∧
      ∀ x, a - a % 256 + 256 ≤ x → c'.mem x = c.mem x := by
  obtain ⟨c', h1, h2⟩ := program_unaligned n bound a data c hc hn hin hd
  refine ⟨c', h1, ?_⟩
  intro x hx
  rw [h2, if_neg (by omega)]

/-- The end of the request is computed modulo 2^32: a request far behind the end of the chip is not
refused and programs the last page. -/
theorem C104_wrap_counterexample (bound : Nat) (data : List Byte) (c : Chip) (hc : Ready 16777216 bound c)
    (hd : data.length = 256) :
    ∃ c', (flash Chip.frame bound 16777216).program data 4294967040 256 c = some (true, c') ∧
      ∀ x, c'.mem x = if 16776960 ≤ x ∧ x < 16777216 then c.mem x &&& data.getD (x - 16776960) 0 else c.mem x := by
  obtain ⟨c', e, _, m⟩ := program_page 16777216 bound 16776960 data c hc (by decide) (by decide) (by decide) hd
  refine ⟨c', ?_, ?_⟩
  · have hl : programLoop Chip.frame bound 16777216 data 4294967040 256 257 0 c = some c' := by
      rw [programLoop, if_pos (by decide), wait_chip _ _ hc.busy]
      simp only
      rw [if_pos (by omega), programLoop, if_neg (by decide), ← e]
      simp only [List.drop_zero, List.take_of_length_le (Nat.le_of_eq hd)]
      rfl
    show flashProgram Chip.frame bound 16777216 data 4294967040 256 c = _
    rw [flashProgram, if_neg (by decide), hl]
    rfl
  · intro x
    rw [m, clear, hd]

/-! ## C105: a stack of dies

Between two selections the driver of the selected die sees this die only. -/

/-- The states `g t` of the first bus behave like the states `t` of the second one, for all commands
but the selection of a die. -/
def Sim {σ τ : Type} (b1 : Bus σ) (b2 : Bus τ) (g : τ → σ) : Prop :=
  ∀ cmd bytes t, cmd ≠ 0xC2 → b1 (cmd :: bytes) (g t) = ((b2 (cmd :: bytes) t).1, g (b2 (cmd :: bytes) t).2)

section sim

variable {σ τ : Type} {b1 : Bus σ} {b2 : Bus τ} {g : τ → σ} (h : Sim b1 b2 g)
include h

theorem op_sim (cmd : Byte) (tx : List Byte) (t : τ) (hc : cmd ≠ 0xC2) :
    op b1 cmd tx (g t) = ((op b2 cmd tx t).1, g (op b2 cmd tx t).2) := by
  simp only [op, h cmd tx t hc]

theorem opAt_sim (n : Nat) (cmd : Byte) (a d : Nat) (tx : List Byte) (t : τ) (hc : cmd ≠ 0xC2) :
    opAt b1 n cmd a d tx (g t) = ((opAt b2 n cmd a d tx t).1, g (opAt b2 n cmd a d tx t).2) := by
  simp only [opAt, h cmd _ t hc]

theorem isBusy_sim (t : τ) :
    Modm.Storage.isBusy b1 (g t) = ((Modm.Storage.isBusy b2 t).1, g (Modm.Storage.isBusy b2 t).2) := by
  simp only [Modm.Storage.isBusy, op_sim h 0x05 [0] t (by decide)]

theorem wait_sim (n : Nat) (t : τ) : waitWhileBusy b1 n (g t) = (waitWhileBusy b2 n t).map g := by
  induction n generalizing t with
  | zero => rfl
  | succ n ih =>
    rw [waitWhileBusy, waitWhileBusy, isBusy_sim h]
    simp only
    by_cases hb : (Modm.Storage.isBusy b2 t).1 = true
    · rw [if_pos hb, if_pos hb, ih]
    · rw [if_neg hb, if_neg hb]; rfl

theorem unlock_sim (n m : Nat) (t : τ) : unlock b1 n m (g t) = (unlock b2 n m t).map g := by
  unfold unlock
  rw [op_sim h 0x06 [] t (by decide)]
  simp only
  rw [op_sim h 0x98 [] _ (by decide)]
  simp only
  rw [wait_sim h]
  cases waitWhileBusy b2 n (op b2 0x98 [] (op b2 0x06 [] t).2).2 with
  | none => rfl
  | some t' =>
    simp only [Option.map_some]
    by_cases hm : m > 16777216
    · rw [if_pos hm, if_pos hm, op_sim h 0xB7 [] _ (by decide)]
      simp only
      rw [wait_sim h]
    · rw [if_neg hm, if_neg hm]; rfl

theorem init_sim (n m : Nat) (t : τ) :
    flashInit b1 n m (g t) = (flashInit b2 n m t).map (fun r => (r.1, g r.2)) := by
  unfold flashInit
  rw [op_sim h 0x66 [] t (by decide)]
  simp only
  rw [op_sim h 0x99 [] _ (by decide)]
  simp only
  rw [wait_sim h]
  cases waitWhileBusy b2 n (op b2 0x99 [] (op b2 0x66 [] t).2).2 with
  | none => rfl
  | some t' =>
    simp only [Option.map_some]
    rw [unlock_sim h]
    cases unlock b2 n m t' <;> rfl

theorem read_sim (n m a k : Nat) (t : τ) :
    flashRead b1 n m a k (g t) = (flashRead b2 n m a k t).map (fun r => (r.1, r.2.1, g r.2.2)) := by
  unfold flashRead
  by_cases hr : refused 1 m a k = true
  · rw [if_pos hr, if_pos hr]; rfl
  · rw [if_neg hr, if_neg hr, wait_sim h]
    cases waitWhileBusy b2 n t with
    | none => rfl
    | some t' =>
      simp only [Option.map_some]
      rw [opAt_sim h m 0x0B a 1 _ t' (by decide)]

theorem programLoop_sim (n m : Nat) (b : List Byte) (a k f i : Nat) (t : τ) :
    programLoop b1 n m b a k f i (g t) = (programLoop b2 n m b a k f i t).map g := by
  induction f generalizing i t with
  | zero => rfl
  | succ f ih =>
    rw [programLoop, programLoop]
    by_cases hi : i < k
    · rw [if_pos hi, if_pos hi, wait_sim h]
      cases waitWhileBusy b2 n t with
      | none => rfl
      | some t' =>
        simp only [Option.map_some]
        by_cases hl : i + 256 ≤ b.length
        · rw [if_pos hl, if_pos hl, op_sim h 0x06 [] t' (by decide)]
          simp only
          rw [opAt_sim h m 0x02 _ 0 _ _ (by decide)]
          exact ih _ _
        · rw [if_neg hl, if_neg hl]; rfl
    · rw [if_neg hi, if_neg hi]; rfl

theorem program_sim (n m : Nat) (b : List Byte) (a k : Nat) (t : τ) :
    flashProgram b1 n m b a k (g t) = (flashProgram b2 n m b a k t).map (fun r => (r.1, g r.2)) := by
  unfold flashProgram
  by_cases hr : refused 256 m a k = true
  · rw [if_pos hr, if_pos hr]; rfl
  · rw [if_neg hr, if_neg hr, programLoop_sim h]
    cases programLoop b2 n m b a k (k + 1) 0 t <;> rfl

theorem eraseLoop_sim (n m : Nat) (a k f i : Nat) (t : τ) :
    eraseLoop b1 n m a k f i (g t) = (eraseLoop b2 n m a k f i t).map g := by
  induction f generalizing i t with
  | zero => rfl
  | succ f ih =>
    rw [eraseLoop, eraseLoop]
    by_cases hi : i < k
    · rw [if_pos hi, if_pos hi, wait_sim h]
      cases waitWhileBusy b2 n t with
      | none => rfl
      | some t' =>
        simp only [Option.map_some]
        rw [op_sim h 0x06 [] t' (by decide)]
        simp only
        rw [opAt_sim h m 0x20 _ 0 _ _ (by decide)]
        exact ih _ _
    · rw [if_neg hi, if_neg hi]; rfl

theorem erase_sim (n m : Nat) (a k : Nat) (t : τ) :
    flashErase b1 n m a k (g t) = (flashErase b2 n m a k t).map (fun r => (r.1, g r.2)) := by
  unfold flashErase
  by_cases hr : refused 4096 m a k = true
  · rw [if_pos hr, if_pos hr]; rfl
  · rw [if_neg hr, if_neg hr]
    by_cases hw : a = 0 ∧ k = m
    · rw [if_pos hw, if_pos hw, wait_sim h]
      cases waitWhileBusy b2 n t with
      | none => rfl
      | some t' =>
        simp only [Option.map_some]
        rw [op_sim h 0xC7 [] t' (by decide)]
    · rw [if_neg hw, if_neg hw, eraseLoop_sim h]
      cases eraseLoop b2 n m a k (k + 1) 0 t <;> rfl

end sim

/-- The stack with die `d` selected and in state `c`. -/
def lift (D : Nat → Chip) (d : Nat) (c : Chip) : Dies := ⟨Function.update D d c, d⟩

theorem lift_self (s : Dies) : lift s.chip s.sel (s.chip s.sel) = s := by
  simp [lift]

theorem sim_lift (D : Nat → Chip) (d : Nat) : Sim Dies.frame Chip.frame (lift D d) := by
  intro cmd bytes t hc
  unfold Dies.frame
  split
  · rename_i heq
    simp only [List.cons.injEq] at heq
    exact absurd heq.1 hc
  · simp [lift]

/-- All dies are alive, the selected one is ready and `currentDie` is its number. -/
structure StackOk (dieSize count bound : Nat) (s : Stack Dies) : Prop where
  sel : s.hw.sel = s.die
  ready : Ready dieSize bound (s.hw.chip s.die)
  alive : ∀ d < count, Alive dieSize bound (s.hw.chip d)

theorem Ready.alive {n bound : Nat} {c : Chip} (h : Ready n bound c) : Alive n bound c :=
  ⟨h.size, fun hw => by rw [h.wide] at hw; exact of_decide_eq_true hw, h.busy, h.delays⟩

/-- Selecting a die makes it ready; the content of all dies is kept. -/
theorem select_dies (n bound d : Nat) (s : Dies) (hd : d < 256) (ha : Alive n bound (s.chip d)) :
    ∃ c, selectDie Dies.frame bound n d s = some (lift s.chip d c) ∧ Ready n bound c ∧
      c.mem = (s.chip d).mem := by
  have h1 : (op Dies.frame 0xC2 [BitVec.ofNat 8 d] s).2 = lift s.chip d (s.chip d) := by
    simp only [lift, Function.update_eq_self]
    show Dies.mk s.chip (BitVec.ofNat 8 d).toNat = _
    rw [BitVec.toNat_ofNat, Nat.mod_eq_of_lt (show d < 2 ^ 8 by omega)]
  obtain ⟨c, e, r, m⟩ := unlock_chip n bound { s.chip d with busy := 0 }
    ⟨ha.size, ha.wide, Nat.lt_of_le_of_lt (Nat.zero_le _) ha.busy, ha.delays⟩ rfl
  refine ⟨c, ?_, r, m⟩
  unfold selectDie
  rw [h1, wait_sim (sim_lift s.chip d), wait_chip _ _ ha.busy]
  simp only [Option.map_some]
  rw [unlock_sim (sim_lift s.chip d), e]
  rfl

/-- The loop over the dies, with an invariant. -/
theorem overDies_of {σ : Type} (D a size : Nat) (select : Nat → σ → Option σ)
    (f : Nat → Nat → Nat → σ → Option (Bool × σ)) (Q : Nat → Stack σ → Prop) (hD : 0 < D)
    (hlim : a + size ≤ 4294967296)
    (hstep : ∀ i s, i < size → Q i s →
      ∃ hw1, (if s.die ≠ (i + a) / D then select ((i + a) / D) s.hw else some s.hw) = some hw1 ∧
      ∃ hw2, f i ((i + a) % D) (min (size - i) (D - (i + a) % D)) hw1 = some (true, hw2) ∧
        Q (min size (i + (D - (i + a) % D))) ⟨(i + a) / D, hw2⟩)
    (k i : Nat) (s : Stack σ) (hk : size - i < k) (hQ : Q (min size i) s) :
    ∃ s', overDies D a size select f k i s = some (true, s') ∧ Q size s' := by
  induction k generalizing i s with
  | zero => omega
  | succ k ih =>
    rw [overDies]
    by_cases hi : i < size
    · rw [Nat.min_eq_right (by omega)] at hQ
      have hu : u32 (i + a) = i + a := Nat.mod_eq_of_lt (by omega)
      obtain ⟨hw1, e1, hw2, e2, hQ'⟩ := hstep i s hi hQ
      have hlt : (i + a) % D < D := Nat.mod_lt _ hD
      rw [if_pos hi, hu, e1]
      simp only
      rw [e2]
      exact ih _ _ (by omega) hQ'
    · rw [if_neg hi]
      rw [Nat.min_eq_left (by omega)] at hQ
      exact ⟨s, rfl, hQ⟩

/-- The bytes of one chunk are in one die. -/
theorem chunk_mem (D p x c : Nat) (hD : 0 < D) (hc : c ≤ D - p % D) :
    (x / D = p / D ∧ p % D ≤ x % D ∧ x % D < p % D + c) ↔ (p ≤ x ∧ x < p + c) := by
  have h1 := Nat.div_add_mod x D
  have h2 := Nat.div_add_mod p D
  have h3 : p % D < D := Nat.mod_lt _ hD
  have h4 : x % D < D := Nat.mod_lt _ hD
  constructor
  · rintro ⟨h, _, _⟩
    rw [h] at h1
    omega
  · rintro ⟨ha, hb⟩
    have hq : x / D = p / D := by
      apply Nat.div_eq_of_lt_le
      · rw [Nat.mul_comm]; omega
      · rw [Nat.succ_mul, Nat.mul_comm]; omega
    rw [hq] at h1
    exact ⟨hq, by omega, by omega⟩

theorem select_step (D count bound q : Nat) (s : Stack Dies) (hs : StackOk D count bound s)
    (hq : q < count) (hc : count ≤ 256) :
    ∃ c, (if s.die ≠ q then selectDie Dies.frame bound D q s.hw else some s.hw) =
        some (lift s.hw.chip q c) ∧ Ready D bound c ∧ c.mem = (s.hw.chip q).mem := by
  by_cases h : s.die = q
  · refine ⟨s.hw.chip q, ?_, h ▸ hs.ready, rfl⟩
    rw [if_neg (not_not.2 h), ← h]
    have := lift_self s.hw
    rw [hs.sel] at this
    rw [this]
  · rw [if_pos h]
    exact select_dies D bound q s.hw (by omega) (hs.alive q hq)

theorem stackOk_lift (D count bound q : Nat) (s : Stack Dies) (hs : StackOk D count bound s) (c : Chip)
    (hc : Ready D bound c) : StackOk D count bound ⟨q, lift s.hw.chip q c⟩ where
  sel := rfl
  ready := by simpa [lift] using hc
  alive := by
    intro d hd
    by_cases h : d = q
    · subst h
      simpa [lift] using Ready.alive hc
    · simpa [lift, Function.update_of_ne h] using hs.alive d hd

theorem view_lift (D p k : Nat) (hD : 0 < D) (hk : k ≤ D - p % D) (s : Dies) (c : Chip) (h : Nat → Byte → Byte)
    (hm : ∀ y, c.mem y = if p % D ≤ y ∧ y < p % D + k then h y ((s.chip (p / D)).mem y)
      else (s.chip (p / D)).mem y) (x : Nat) :
    Dies.view D (lift s.chip (p / D) c) x =
      if p ≤ x ∧ x < p + k then h (x % D) (s.view D x) else s.view D x := by
  have hch := chunk_mem D p x k hD hk
  by_cases hq : x / D = p / D
  · simp only [Dies.view, lift, hq, Function.update_self]
    rw [hm]
    by_cases hx : p ≤ x ∧ x < p + k
    · rw [if_pos hx, if_pos (hch.2 hx).2]
    · rw [if_neg hx, if_neg (fun h' => hx (hch.1 ⟨hq, h'⟩))]
  · simp only [Dies.view, lift, Function.update_of_ne hq]
    rw [if_neg (fun h' => hq (hch.2 h').1)]

theorem load_append (m : Nat → Byte) (a i j : Nat) : load m a i ++ load m (a + i) j = load m a (i + j) := by
  unfold load
  rw [List.range_add, List.map_append, List.map_map]
  simp [Function.comp_def, Nat.add_assoc]

theorem within_die {D count a size i : Nat} (hD : 0 < D) (hw : Within (count * D) a size) (hi : i < size) :
    (i + a) / D < count := by
  rw [Nat.div_lt_iff_lt_mul hD]
  have := hw.2
  omega

theorem stack_read (D count bound a size : Nat) (hD : 0 < D) (hc : count ≤ 256)
    (hlim : count * D ≤ 4294967296) (s : Stack Dies) (hs : StackOk D count bound s)
    (hw : Within (count * D) a size) :
    ∃ s', stackRead Dies.frame bound D count a size s = some (true, load (s.hw.view D) a size, s') ∧
      StackOk D count bound s' ∧ ∀ x, s'.hw.view D x = s.hw.view D x := by
  have hD' : D ≤ 4294967296 := by
    have := hw.1; have := hw.2
    rcases Nat.eq_zero_or_pos count with h0 | h0
    · subst h0; omega
    · exact Nat.le_trans (Nat.le_mul_of_pos_left D h0) hlim
  obtain ⟨s', e, ⟨hok, hbuf, hview⟩⟩ := overDies_of (σ := List Byte × Dies) D a size
    (fun die p => (selectDie Dies.frame bound D die p.2).map (fun hw => (p.1, hw)))
    (fun _ rem chunk p =>
      (flashRead Dies.frame bound D rem chunk p.2).map (fun r => (r.1, p.1 ++ r.2.1, r.2.2)))
    (fun i t => StackOk D count bound ⟨t.die, t.hw.2⟩ ∧ t.hw.1 = load (s.hw.view D) a i ∧
      ∀ x, t.hw.2.view D x = s.hw.view D x) hD (by have := hw.2; omega)
    (by
      rintro i ⟨die, buf, hw0⟩ hi ⟨hok, hbuf, hview⟩
      simp only at hok hbuf hview ⊢
      obtain ⟨c, e1, r1, m1⟩ := select_step D count bound _ _ hok (within_die hD hw hi) hc
      have hlt : (i + a) % D < D := Nat.mod_lt _ hD
      obtain ⟨c2, e2, r2, m2⟩ := read_chip D bound ((i + a) % D) (min (size - i) (D - (i + a) % D)) c r1 hD'
        ⟨by omega, by omega⟩
      refine ⟨(buf, lift hw0.chip ((i + a) / D) c), ?_, (buf ++ load c.mem ((i + a) % D) (min (size - i) (D - (i + a) % D)),
        lift hw0.chip ((i + a) / D) c2), ?_, ?_, ?_, ?_⟩
      · by_cases hd : die = (i + a) / D
        · rw [if_neg (not_not.2 hd)] at e1 ⊢
          simp only [Option.some.injEq] at e1
          rw [← e1]
        · rw [if_pos hd] at e1 ⊢
          rw [e1]
          rfl
      · rw [read_sim (sim_lift hw0.chip ((i + a) / D)), e2]
        rfl
      · exact stackOk_lift D count bound _ _ hok c2 r2
      · have hmin : min size (i + (D - (i + a) % D)) = i + min (size - i) (D - (i + a) % D) := by omega
        simp only
        rw [hbuf, hmin, ← load_append]
        congr 1
        unfold load
        apply List.map_congr_left
        intro j hj
        have hj := List.mem_range.1 hj
        have := (chunk_mem D (i + a) (i + a + j) (min (size - i) (D - (i + a) % D)) hD (by omega)).2 (by omega)
        rw [← hview, m1]
        simp only [Dies.view]
        rw [show a + i + j = i + a + j by omega, this.1]
        congr 1
        have h1 := Nat.div_add_mod (i + a + j) D
        have h2 := Nat.div_add_mod (i + a) D
        rw [this.1] at h1
        omega
      · intro x
        have := view_lift D (i + a) 0 hD (by omega) hw0 c2 (fun _ b => b)
          (by intro y; rw [m2, m1]; simp) x
        rw [show (⟨(i + a) / D, buf ++ load c.mem ((i + a) % D) (min (size - i) (D - (i + a) % D)),
          lift hw0.chip ((i + a) / D) c2⟩ : Stack (List Byte × Dies)).hw.2 = lift hw0.chip ((i + a) / D) c2 from rfl,
          this]
        simp [hview])
    (size + 1) 0 ⟨s.die, ([], s.hw)⟩ (by omega)
    ⟨hs, by simp [load], fun x => rfl⟩
  refine ⟨⟨s'.die, s'.hw.2⟩, ?_, hok, hview⟩
  unfold stackRead
  rw [if_neg (by rw [refused_within hw (Nat.mod_one _)]; decide), e]
  simp only [Option.map_some, hbuf]

theorem die_le {D count a size : Nat} (hw : Within (count * D) a size) (hlim : count * D ≤ 4294967296) :
    D ≤ 4294967296 := by
  have := hw.1; have := hw.2
  rcases Nat.eq_zero_or_pos count with h0 | h0
  · subst h0; omega
  · exact Nat.le_trans (Nat.le_mul_of_pos_left D h0) hlim

/-- Within aligned requests all chunks are aligned. -/
theorem chunk_aligned (b D a i size : Nat) (hDb : D % b = 0) (ha : a % b = 0)
    (hs : size % b = 0) (hi : i % b = 0) :
    (i + a) % D % b = 0 ∧ min (size - i) (D - (i + a) % D) % b = 0 ∧
      min size (i + (D - (i + a) % D)) % b = 0 := by
  have h1 : b ∣ D := Nat.dvd_of_mod_eq_zero hDb
  have h2 : b ∣ i + a := Nat.dvd_add (Nat.dvd_of_mod_eq_zero hi) (Nat.dvd_of_mod_eq_zero ha)
  have h3 : b ∣ (i + a) % D := (Nat.dvd_mod_iff h1).2 h2
  have h4 : b ∣ D - (i + a) % D := Nat.dvd_sub h1 h3
  have h5 : b ∣ i + (D - (i + a) % D) := Nat.dvd_add (Nat.dvd_of_mod_eq_zero hi) h4
  have h6 : b ∣ size - i := Nat.dvd_sub (Nat.dvd_of_mod_eq_zero hs) (Nat.dvd_of_mod_eq_zero hi)
  refine ⟨Nat.mod_eq_zero_of_dvd h3, ?_, ?_⟩
  · rcases Nat.le_total (size - i) (D - (i + a) % D) with h | h
    · rw [Nat.min_eq_left h]; exact Nat.mod_eq_zero_of_dvd h6
    · rw [Nat.min_eq_right h]; exact Nat.mod_eq_zero_of_dvd h4
  · rcases Nat.le_total size (i + (D - (i + a) % D)) with h | h
    · rw [Nat.min_eq_left h]; exact hs
    · rw [Nat.min_eq_right h]; exact Nat.mod_eq_zero_of_dvd h5

theorem stack_program (D count bound : Nat) (b : List Byte) (a size : Nat) (hD : 0 < D) (hDb : D % 256 = 0)
    (hc : count ≤ 256) (hlim : count * D ≤ 4294967296) (ha : a % 256 = 0) (hsz : size % 256 = 0)
    (hl : size ≤ b.length) (s : Stack Dies) (hs : StackOk D count bound s)
    (hw : Within (count * D) a size) :
    ∃ s', stackProgram Dies.frame bound D count b a size s = some (true, s') ∧
      StackOk D count bound s' ∧ ∀ x, s'.hw.view D x =
        if a ≤ x ∧ x < a + size then s.hw.view D x &&& b.getD (x - a) 0 else s.hw.view D x := by
  have hD' := die_le hw hlim
  obtain ⟨s', e, ⟨hok, _, hview⟩⟩ := overDies_of D a size (selectDie Dies.frame bound D)
    (fun index rem chunk => flashProgram Dies.frame bound D (b.drop index) rem chunk)
    (fun i t => StackOk D count bound t ∧ i % 256 = 0 ∧ ∀ x, t.hw.view D x =
      if a ≤ x ∧ x < a + i then s.hw.view D x &&& b.getD (x - a) 0 else s.hw.view D x)
    hD (by have := hw.2; omega)
    (by
      rintro i t hi ⟨hok, hi256, hview⟩
      obtain ⟨c, e1, r1, m1⟩ := select_step D count bound _ _ hok (within_die hD hw hi) hc
      have hlt : (i + a) % D < D := Nat.mod_lt _ hD
      obtain ⟨g1, g2, g3⟩ := chunk_aligned 256 D a i size hDb ha hsz hi256
      obtain ⟨c2, e2, r2, m2⟩ := C104_program_partial D bound (b.drop i) ((i + a) % D)
        (min (size - i) (D - (i + a) % D)) hD' g1 ⟨by omega, by omega⟩ g2 (by simp; omega) c r1
      refine ⟨lift t.hw.chip ((i + a) / D) c, e1, lift t.hw.chip ((i + a) / D) c2, ?_, ?_, g3, ?_⟩
      · rw [program_sim (sim_lift t.hw.chip ((i + a) / D))]
        have e2' : flashProgram Chip.frame bound D (b.drop i) ((i + a) % D)
          (min (size - i) (D - (i + a) % D)) c = some (true, c2) := e2
        rw [e2']
        rfl
      · exact stackOk_lift D count bound _ _ hok c2 r2
      · intro x
        have hv := view_lift D (i + a) (min (size - i) (D - (i + a) % D)) hD (by omega) t.hw c2
          (fun y m => m &&& (b.drop i).getD (y - (i + a) % D) 0)
          (by intro y; rw [m2, m1]) x
        have hch := chunk_mem D (i + a) x (min (size - i) (D - (i + a) % D)) hD (by omega)
        have hx1 := Nat.div_add_mod x D
        have hx2 := Nat.div_add_mod (i + a) D
        simp only at hv ⊢
        rw [hv, hview]
        obtain ⟨k, hk⟩ : ∃ k, k = min (size - i) (D - (i + a) % D) := ⟨_, rfl⟩
        rw [show min size (i + (D - (i + a) % D)) = i + k by omega]
        rw [← hk] at hch ⊢
        by_cases hx : i + a ≤ x ∧ x < i + a + k
        · have hq := hch.2 hx
          rw [hq.1] at hx1
          rw [if_pos hx, if_neg (by omega), if_pos (by omega)]
          simp only [List.getD_eq_getElem?_getD, List.getElem?_drop]
          rw [show i + (x % D - (i + a) % D) = x - a by omega]
        · rw [if_neg hx]
          by_cases hx' : a ≤ x ∧ x < a + i
          · rw [if_pos hx', if_pos (by omega)]
          · rw [if_neg hx', if_neg (by omega)])
    (size + 1) 0 s (by omega)
    ⟨hs, by simp, fun x => by rw [if_neg (by omega)]⟩
  refine ⟨s', ?_, hok, hview⟩
  unfold stackProgram
  rw [if_neg (by rw [refused_within hw hsz]; decide), e]

theorem stack_erase (D count bound : Nat) (a size : Nat) (hD : 0 < D) (hDb : D % 4096 = 0)
    (hc : count ≤ 256) (hlim : count * D ≤ 4294967296) (ha : a % 4096 = 0) (hsz : size % 4096 = 0)
    (hnot : ∀ d < count, ¬ (a ≤ d * D ∧ d * D + D ≤ a + size))
    (s : Stack Dies) (hs : StackOk D count bound s) (hw : Within (count * D) a size) :
    ∃ s', stackErase Dies.frame bound D count a size s = some (true, s') ∧
      StackOk D count bound s' ∧ ∀ x, s'.hw.view D x =
        if a ≤ x ∧ x < a + size then 255 else s.hw.view D x := by
  have hD' := die_le hw hlim
  obtain ⟨s', e, ⟨hok, _, hview⟩⟩ := overDies_of D a size (selectDie Dies.frame bound D)
    (fun _ rem chunk => flashErase Dies.frame bound D rem chunk)
    (fun i t => StackOk D count bound t ∧ i % 4096 = 0 ∧ ∀ x, t.hw.view D x =
      if a ≤ x ∧ x < a + i then 255 else s.hw.view D x)
    hD (by have := hw.2; omega)
    (by
      rintro i t hi ⟨hok, hi256, hview⟩
      obtain ⟨c, e1, r1, m1⟩ := select_step D count bound _ _ hok (within_die hD hw hi) hc
      have hlt : (i + a) % D < D := Nat.mod_lt _ hD
      obtain ⟨g1, g2, g3⟩ := chunk_aligned 4096 D a i size hDb ha hsz hi256
      have hx2 := Nat.div_add_mod (i + a) D
      have hx3 := hnot _ (within_die hD hw hi)
      rw [Nat.mul_comm ((i + a) / D) D] at hx3
      obtain ⟨c2, e2, r2, m2⟩ := C104_erase_partial D bound ((i + a) % D)
        (min (size - i) (D - (i + a) % D)) hD' g1 ⟨by omega, by omega⟩ g2 (by omega) c r1
      refine ⟨lift t.hw.chip ((i + a) / D) c, e1, lift t.hw.chip ((i + a) / D) c2, ?_, ?_, g3, ?_⟩
      · rw [erase_sim (sim_lift t.hw.chip ((i + a) / D))]
        have e2' : flashErase Chip.frame bound D ((i + a) % D)
          (min (size - i) (D - (i + a) % D)) c = some (true, c2) := e2
        rw [e2']
        rfl
      · exact stackOk_lift D count bound _ _ hok c2 r2
      · intro x
        have hv := view_lift D (i + a) (min (size - i) (D - (i + a) % D)) hD (by omega) t.hw c2
          (fun _ _ => 255) (by intro y; rw [m2, m1]) x
        simp only at hv ⊢
        rw [hv, hview]
        obtain ⟨k, hk⟩ : ∃ k, k = min (size - i) (D - (i + a) % D) := ⟨_, rfl⟩
        rw [show min size (i + (D - (i + a) % D)) = i + k by omega]
        rw [← hk]
        by_cases hx : i + a ≤ x ∧ x < i + a + k
        · rw [if_pos hx, if_pos (by omega)]
        · rw [if_neg hx]
          by_cases hx' : a ≤ x ∧ x < a + i
          · rw [if_pos hx', if_pos (by omega)]
          · rw [if_neg hx', if_neg (by omega)])
    (size + 1) 0 s (by omega)
    ⟨hs, by simp, fun x => by rw [if_neg (by omega)]⟩
  refine ⟨s', ?_, hok, hview⟩
  unfold stackErase
  rw [if_neg (by rw [refused_within hw hsz]; decide), e]

/-- The dies are one array of bytes, for writes to whole sectors that do not cover a whole die. -/
theorem C105_stack_partial (D count bound : Nat) (hD : 0 < D) (hDb : D % 4096 = 0)
    (hc : count ≤ 256) (hlim : count * D ≤ 4294967296) :
    Works (stackFlash Dies.frame bound D count) (StackOk D count bound) (fun s => s.hw.view D) (count * D)
      (fun _ _ => True)
      (fun a k => a % 4096 = 0 ∧ k % 4096 = 0 ∧ ∀ d < count, ¬ (a ≤ d * D ∧ d * D + D ≤ a + k)) where
  read := by
    intro s a k hs hw _
    obtain ⟨s', h1, h2, h3⟩ := stack_read D count bound a k hD hc hlim s hs hw
    exact ⟨s', h1, h2, fun x _ => h3 x⟩
  write := by
    rintro s b a k hs hw ⟨ha, hk, hnot⟩ hl
    obtain ⟨s1, e1, r1, m1⟩ := stack_erase D count bound a k hD hDb hc hlim ha hk hnot s hs hw
    obtain ⟨s2, e2, r2, m2⟩ := stack_program D count bound b a k hD (by omega) hc hlim (by omega) (by omega) hl s1 r1 hw
    refine ⟨s2, ?_, r2, ?_⟩
    · show eraseProgram 4096 256 (count * D) _ _ b a k s = _
      simp only [eraseProgram, refused_within hw hk, refused_within hw (show k % 256 = 0 by omega)]
      rw [e1]
      exact e2
    · intro x _
      rw [m2, m1]
      have hlen : (b.take k).length = k := by simp; omega
      simp only [store, hlen, List.getD_eq_getElem?_getD, List.getElem?_take]
      by_cases hx : a ≤ x ∧ x < a + k
      · rw [if_pos hx, if_pos hx, if_pos hx, if_pos (by omega)]
        show BitVec.allOnes 8 &&& _ = _
        rw [BitVec.allOnes_and]
      · rw [if_neg hx, if_neg hx, if_neg hx]

/-- After `initialize` the first die is selected and ready, whatever the state of the dies was. -/
theorem C105_initialize (D count bound : Nat) (s : Stack Dies) (hsel : s.hw.sel < count)
    (hidle : (s.hw.chip s.hw.sel).busy = 0) (hall : ∀ d < count, Alive D bound (s.hw.chip d)) :
    ∃ s', stackInit Dies.frame bound D s = some (true, s') ∧ StackOk D count bound s' ∧ s'.die = 0 ∧
      ∀ x, s'.hw.view D x = s.hw.view D x := by
  obtain ⟨c, e, r, m⟩ := C104_initialize D bound _ (hall _ hsel) hidle
  have h1 : flashInit Dies.frame bound D s.hw = some (true, lift s.hw.chip s.hw.sel c) := by
    have := init_sim (sim_lift s.hw.chip s.hw.sel) bound D (s.hw.chip s.hw.sel)
    rw [lift_self, e] at this
    exact this
  have h2 : ∀ d < count, Alive D bound ((lift s.hw.chip s.hw.sel c).chip d) := by
    intro d hd
    by_cases h : d = s.hw.sel
    · rw [h]; simpa [lift] using Ready.alive r
    · simpa [lift, Function.update_of_ne h] using hall d hd
  have h3 : ∀ d, ((lift s.hw.chip s.hw.sel c).chip d).mem = (s.hw.chip d).mem := by
    intro d
    by_cases h : d = s.hw.sel
    · rw [h]; simpa [lift] using m
    · simp [lift, Function.update_of_ne h]
  obtain ⟨c', e', r', m'⟩ := select_dies D bound 0 (lift s.hw.chip s.hw.sel c) (by decide) (h2 0 (by omega))
  refine ⟨⟨0, lift (lift s.hw.chip s.hw.sel c).chip 0 c'⟩, ?_, ⟨rfl, ?_, ?_⟩, rfl, ?_⟩
  · simp only [stackInit, h1, e', Option.map_some]
  · simpa [lift] using r'
  · intro d hd
    by_cases h : d = 0
    · subst h; simpa [lift] using Ready.alive r'
    · have := h2 d hd
      simpa only [lift, Function.update_of_ne h] using this
  · intro x
    show ((lift (lift s.hw.chip s.hw.sel c).chip 0 c').chip (x / D)).mem (x % D) = _
    by_cases h : x / D = 0
    · rw [Dies.view, h, show (lift (lift s.hw.chip s.hw.sel c).chip 0 c').chip 0 = c' by simp [lift], m', h3]
    · rw [show (lift (lift s.hw.chip s.hw.sel c).chip 0 c').chip (x / D) = (lift s.hw.chip s.hw.sel c).chip (x / D) from
        Function.update_of_ne h _ _, h3]
      rfl

example : ∃ s', stackInit Dies.frame 3 65536 ⟨7, ⟨fun _ => someChip, 1⟩⟩ = some (true, s') ∧ StackOk 65536 2 3 s' := by
  obtain ⟨s', h1, h2, _⟩ := C105_initialize 65536 2 3 ⟨7, ⟨fun _ => someChip, 1⟩⟩ (by decide) rfl
    (fun _ _ => ⟨rfl, fun h => by simp [someChip] at h, by show 0 < 3; decide, fun i => Nat.mod_lt _ (by decide)⟩)
  exact ⟨s', h1, h2⟩

/-- A write over the border of two dies meets the conditions of `C105_stack_partial`. -/
example : Within (2 * 65536) 61440 8192 ∧ 61440 % 4096 = 0 ∧ 8192 % 4096 = 0 ∧
    ∀ d < 2, ¬ (61440 ≤ d * 65536 ∧ d * 65536 + 65536 ≤ 61440 + 8192) :=
  ⟨⟨by decide, by decide⟩, rfl, rfl, by intro d _; omega⟩

/-- An erase that is not aligned to the blocks and crosses the border of two dies is refused in the
first die; a write is given up with it. -/
theorem C105_unaligned {σ : Type} (bus : Bus σ) (D count bound a k : Nat) (s : Stack σ)
    (hD : 0 < D) (hDb : D % 4096 = 0) (hlim : count * D ≤ 4294967296) (hw : Within (count * D) a k)
    (ha : a % 4096 ≠ 0) (hk : k % 4096 = 0) (hx : D < a % D + k) :
    (stackFlash bus bound D count).erase a k s = none ∨
      ∃ s', (stackFlash bus bound D count).erase a k s = some (false, s') ∧
        ∀ b, (stackFlash bus bound D count).write b a k s = some (false, s') := by
  have h0 := hw.1
  have h1 := hw.2
  have hu : u32 (0 + a) = a := by unfold u32; omega
  have hr : a % D < D := Nat.mod_lt _ hD
  have hm : (D - a % D) % 4096 ≠ 0 := by
    intro hc
    have h3 : a % D % 4096 = a % 4096 := Nat.mod_mod_of_dvd _ (Nat.dvd_of_mod_eq_zero hDb)
    omega
  have hf : ∀ hw, flashErase bus bound D (a % D) (D - a % D) hw = some (false, hw) := by
    intro hw
    simp only [flashErase, refused, hm, ne_eq, not_false_eq_true, decide_true, Bool.or_true,
      Bool.true_or, if_true]
  have he : (stackFlash bus bound D count).erase a k s = none ∨
      ∃ s', (stackFlash bus bound D count).erase a k s = some (false, s') := by
    show stackErase bus bound D count a k s = none ∨ ∃ s', stackErase bus bound D count a k s = some (false, s')
    rw [stackErase, refused_within hw hk, if_neg (by simp), overDies, if_pos (by omega), hu,
      Nat.sub_zero, Nat.min_eq_right (by omega)]
    split
    · exact Or.inl rfl
    · rw [hf]
      exact Or.inr ⟨_, rfl⟩
  rcases he with he | ⟨s', he⟩
  · exact Or.inl he
  · refine Or.inr ⟨s', he, fun b => ?_⟩
    show eraseProgram 4096 256 (count * D) (stackErase bus bound D count) (stackProgram bus bound D count)
      b a k s = _
    have he' : stackErase bus bound D count a k s = some (false, s') := he
    rw [eraseProgram, refused_within hw hk, refused_within hw (by omega), he']
    rfl

example : Within (2 * 65536) 65280 4096 ∧ 65280 % 4096 ≠ 0 ∧ 65536 < 65280 % 65536 + 4096 :=
  ⟨⟨by decide, by decide⟩, by decide, by decide⟩

theorem C105_refuses_partial {σ : Type} (bus : Bus σ) (D count bound a k : Nat) (s : Stack σ)
    (h : count * D < a + k) (hw : a + k < 4294967296) :
    Refuses (stackFlash bus bound D count) s a k := by
  have hr := fun b => refused_out (block := b) h hw
  apply refuses_of
  · show stackRead bus bound D count a k s = _
    simp [stackRead, hr]
  · show stackErase bus bound D count a k s = _
    simp [stackErase, hr]
  · intro b
    show stackProgram bus bound D count b a k s = _
    simp [stackProgram, hr]
  · intro b
    show eraseProgram _ _ (count * D) _ _ b a k s = _
    simp [eraseProgram, hr]

/-- Erasing the whole first die does nothing, when its write enable latch is off. -/
theorem C105_whole_die_counterexample (D count bound : Nat) (hD : 0 < D) (hDb : D % 4096 = 0)
    (hc : 0 < count) (hlim : D ≤ 4294967296) (s : Stack Dies) (hs : StackOk D count bound s) (h0 : s.die = 0)
    (hwel : (s.hw.chip 0).wel = false) :
    ∃ s', (stackFlash Dies.frame bound D count).erase 0 D s = some (true, s') ∧
      s'.hw.view D = s.hw.view D := by
  have hw : Within (count * D) 0 D := ⟨hD, by rw [Nat.zero_add]; exact Nat.le_mul_of_pos_left D hc⟩
  have hready : Ready D bound (s.hw.chip 0) := h0 ▸ hs.ready
  have hsel : s.hw.sel = 0 := hs.sel.trans h0
  obtain ⟨c', e, m⟩ := C104_whole_counterexample D bound hD hDb (s.hw.chip 0) hready hwel
  have e' : flashErase Chip.frame bound D 0 D (s.hw.chip 0) = some (true, c') := e
  have h1 : flashErase Dies.frame bound D 0 D s.hw = some (true, lift s.hw.chip 0 c') := by
    have := erase_sim (sim_lift s.hw.chip 0) bound D 0 D (s.hw.chip 0)
    have hself := lift_self s.hw
    rw [hsel] at hself
    rw [hself, e'] at this
    exact this
  refine ⟨⟨0, lift s.hw.chip 0 c'⟩, ?_, ?_⟩
  · show stackErase Dies.frame bound D count 0 D s = _
    unfold stackErase
    rw [if_neg (by rw [refused_within hw hDb]; decide), overDies, if_pos hD]
    have hu : u32 (0 + 0) = 0 := rfl
    rw [hu, Nat.zero_div, Nat.zero_mod, if_neg (by simp [h0])]
    simp only [Nat.sub_zero, Nat.min_self, h1]
    obtain ⟨k, hk⟩ : ∃ k, D = k + 1 := ⟨D - 1, by omega⟩
    rw [hk, overDies, if_neg (by omega)]
  · funext x
    by_cases h : x / D = 0
    · simp [Dies.view, lift, h, m]
    · simp [Dies.view, lift, Function.update_of_ne h]

/-! ## C106: `isBusy` of the stack -/

/-- If no selection is interrupted, all dies are asked. -/
theorem C106_is_busy_partial (busy : Nat → Bool) (k j die : Nat) (hd : die ≤ 255) (hk : die < k) :
    ∃ d, stackIsBusy busy (fun _ => 0) k j die = some (decide (∃ d < die, busy d = true), d) := by
  induction k generalizing j die with
  | zero => omega
  | succ k ih =>
    rw [stackIsBusy]
    by_cases h0 : die > 0
    · rw [if_pos h0, show (die + 256 * (0 + 1) - (0 + 1)) % 256 = die - 1 by omega]
      by_cases hb : busy (die - 1) = true
      · rw [if_pos hb]
        refine ⟨die - 1, ?_⟩
        rw [decide_eq_true ⟨die - 1, by omega, hb⟩]
      · rw [if_neg hb]
        obtain ⟨d, hd'⟩ := ih (j + 1) (die - 1) (by omega) (by omega)
        refine ⟨d, ?_⟩
        rw [hd']
        congr 2
        rw [decide_eq_decide]
        constructor
        · rintro ⟨e, he, hb'⟩; exact ⟨e, by omega, hb'⟩
        · rintro ⟨e, he, hb'⟩
          refine ⟨e, ?_, hb'⟩
          by_contra hne
          exact hb (show busy (die - 1) = true from (show e = die - 1 by omega) ▸ hb')
    · rw [if_neg h0]
      refine ⟨die, ?_⟩
      rw [decide_eq_false (by rintro ⟨e, he, _⟩; omega)]

/-- `--currentDie` is an argument of `RF_CALL`: it is evaluated again whenever the call is resumed.
With four dies and every selection resumed once, the dies 3 and 1 are never asked. -/
theorem C106_counterexample (busy : Nat → Bool) (h2 : busy 2 = false) (h0 : busy 0 = false) :
    stackIsBusy busy (fun _ => 1) 5 0 4 = some (false, 0) := by
  simp [stackIsBusy, h2, h0]

/-- With an odd number of dies the counter wraps around: dies that do not exist are selected. -/
theorem C106_wrap_counterexample (busy : Nat → Bool) (h1 : busy 1 = false) (h255 : busy 255 = true) :
    stackIsBusy busy (fun _ => 1) 5 0 3 = some (true, 255) := by
  simp [stackIsBusy, h1, h255]

end Props.Storage
