import Verif.Lemmas.Panel
import Verif.Props.Mono

set_option autoImplicit false

/-! The panels of the monochrome displays: C297–C302. -/

namespace Props.Panel

open Modm.Panel Modm.Mono

/-! ## SSD1306 (C297) -/

theorem updates_append (H : Nat) (l : List Buf) (b : Buf) (d : Oled) :
    ssdUpdates H (l ++ [b]) d = ssdUpdate H b (H / 8 * 128) (ssdUpdates H l d) := by
  unfold ssdUpdates
  rw [List.foldl_append, List.foldl_cons, List.foldl_nil]

theorem updates_cons (H : Nat) (l : List Buf) (b : Buf) (d : Oled) :
    ssdUpdates H (b :: l) d = ssdUpdates H l (ssdUpdate H b (H / 8 * 128) d) := by
  unfold ssdUpdates
  rw [List.foldl_cons]

theorem updates_nil (H : Nat) (d : Oled) : ssdUpdates H [] d = d := rfl

/-- One complete update of the large display, from whatever place of the memory it starts -/
theorem full_update (b : Buf) (d : Oled) (h : Whole d) :
    Whole (ssdUpdate 64 b 1024 d) ∧ (ssdUpdate 64 b 1024 d).page * 128 + (ssdUpdate 64 b 1024 d).col = d.page * 128 + d.col ∧
      ∀ a, a < 1024 → (ssdUpdate 64 b 1024 d).ram (a / 128) (a % 128) =
        b ((a + 1024 - (d.page * 128 + d.col)) % 1024 / 128) ((a + 1024 - (d.page * 128 + d.col)) % 1024 % 128) := by
  have hl : (flat (64 / 8) 128 b).length = 1024 := flat_length _ _ _
  unfold ssdUpdate
  rw [List.take_of_length_le (by rw [hl])]
  obtain ⟨i1, i2, i3⟩ := ssd_datas d h (flat (64 / 8) 128 b) (by rw [hl])
  refine ⟨i1, ?_, ?_⟩
  · rw [i2, hl]
    obtain ⟨_, _, _, _, _, h6, h7⟩ := h
    omega
  · intro a ha
    rw [i3 a ha, flat_get _ _ _ _ (Nat.mod_lt _ (by omega))]
    rfl

/-- **C297** (large display). After the initialisation, from any state of the controller, and any number of complete updates the memory
of the SSD1306 holds the last buffer, and the display is switched on. -/
theorem C297_update (d : Oled) (l : List Buf) (b : Buf) :
    (ssdUpdates 64 (l ++ [b]) (ssdInitialize 64 initializeMemoryMode d)).on = true ∧
      ∀ p x, p < 8 → x < 128 → (ssdUpdates 64 (l ++ [b]) (ssdInitialize 64 initializeMemoryMode d)).ram p x = b p x := by
  have hon : ∀ (l : List Byte) (d : Oled), (d.datas l).on = d.on := by
    intro l
    induction l with
    | nil => intro d; rfl
    | cons v l ih =>
      intro d
      show ((d.data v).datas l).on = d.on
      rw [ih]
      unfold Oled.data
      simp only
      split_ifs <;> rfl
  have key : ∀ (l : List Buf) (d : Oled), Whole d → d.page = 0 → d.col = 0 →
      Whole (ssdUpdates 64 l d) ∧ (ssdUpdates 64 l d).page = 0 ∧ (ssdUpdates 64 l d).col = 0 ∧ (ssdUpdates 64 l d).on = d.on := by
    intro l
    induction l with
    | nil => exact fun d h1 h2 h3 => ⟨h1, h2, h3, rfl⟩
    | cons b l ih =>
      intro d h1 h2 h3
      obtain ⟨a1, a2, _⟩ := full_update b d h1
      have h6 := a1.2.2.2.2.2
      obtain ⟨i1, i2, i3, i4⟩ := ih (ssdUpdate 64 b 1024 d) a1 (by omega) (by omega)
      rw [updates_cons, show 64 / 8 * 128 = 1024 by norm_num]
      refine ⟨i1, i2, i3, ?_⟩
      rw [i4, ssdUpdate, hon]
  obtain ⟨h1, h2, h3, h4, _, _⟩ := ssd_init 64 d
  obtain ⟨k1, k2, k3, k4⟩ := key l _ h1 h2 h3
  have e : ssdUpdates 64 (l ++ [b]) (ssdInitialize 64 initializeMemoryMode d) =
      ssdUpdate 64 b 1024 (ssdUpdates 64 l (ssdInitialize 64 initializeMemoryMode d)) := by
    rw [updates_append, show 64 / 8 * 128 = 1024 by norm_num]
  rw [e]
  refine ⟨by rw [← h4, ← k4, ssdUpdate, hon], ?_⟩
  intro p x hp hx
  obtain ⟨_, _, a3⟩ := full_update b _ k1
  have h := a3 (p * 128 + x) (by omega)
  rw [k2, k3, show (p * 128 + x) / 128 = p by omega, show (p * 128 + x) % 128 = x by omega,
    show (p * 128 + x + 1024 - (0 * 128 + 0)) % 1024 = p * 128 + x by omega, show (p * 128 + x) / 128 = p by omega,
    show (p * 128 + x) % 128 = x by omega] at h
  exact h

/-- **C297** (pixels). The pixel that `getPixel` reads in the buffer is the one in the memory of the controller. -/
theorem C297_pixels (d : Oled) (l : List Buf) (b : Buf) (x y : Nat) (hx : x < 128) (hy : y < 64) :
    getPixelV 128 64 b x y =
      some (((ssdUpdates 64 (l ++ [b]) (ssdInitialize 64 initializeMemoryMode d)).ram (y / 8) x).getLsbD (y % 8)) := by
  rw [(C297_update d l b).2 (y / 8) x (by omega) hx, Props.Mono.getPixelV_of 128 64 rfl b x y (by omega) (by omega),
    decide_eq_true (by omega)]
  rw [Bool.true_and, Option.some.injEq]
  show (b (((y : Int) / 8).toNat) ((x : Int).toNat)).getLsbD (((y : Int) % 8).toNat) = _
  rw [show ((y : Int) / 8).toNat = y / 8 by omega, show ((x : Int)).toNat = x by omega, show ((y : Int) % 8).toNat = y % 8 by omega]

/-- A controller after power-up -/
def oled0 : Oled := ⟨false, 0, 127, 0, 7, 0, 0, 63, false, fun _ _ => 0x5A⟩

example : (ssdUpdates 64 ([fun _ _ => 1] ++ [fun p x => BitVec.ofNat 8 (p + x)]) (ssdInitialize 64 initializeMemoryMode oled0)).ram 7 127 = 134 := by
  rw [(C297_update oled0 [fun _ _ => 1] (fun p x => BitVec.ofNat 8 (p + x))).2 7 127 (by omega) (by omega)]
  rfl

/-- **C297** (small display), false in general. With a height of 32 the window of the controller still has eight pages, so that the
updates go by turns to the pages 0 to 3 and to the pages 4 to 7: whichever four of them the panel shows, it misses every second update. -/
theorem C297_small_counterexample (d d1 d2 : Oled) (b1 b2 : Buf) (h1 : d1 = ssdUpdates 32 [b1] (ssdInitialize 32 initializeMemoryMode d))
    (h2 : d2 = ssdUpdates 32 [b1, b2] (ssdInitialize 32 initializeMemoryMode d)) :
    (∀ p x, p < 4 → x < 128 → d1.ram p x = b1 p x ∧ d1.ram (p + 4) x = d.ram (p + 4) x) ∧
      ∀ p x, p < 4 → x < 128 → d2.ram p x = b1 p x ∧ d2.ram (p + 4) x = b2 p x := by
  have hl : ∀ b, (flat (32 / 8) 128 b).length = 512 := fun b => flat_length _ _ _
  have e1 : ssdUpdates 32 [b1] (ssdInitialize 32 initializeMemoryMode d) =
      (ssdInitialize 32 initializeMemoryMode d).datas (flat (32 / 8) 128 b1) := by
    rw [updates_cons, updates_nil, ssdUpdate, List.take_of_length_le (by rw [hl])]
  have e2 : ssdUpdates 32 [b1, b2] (ssdInitialize 32 initializeMemoryMode d) =
      ((ssdInitialize 32 initializeMemoryMode d).datas (flat (32 / 8) 128 b1)).datas (flat (32 / 8) 128 b2) := by
    rw [updates_cons, updates_cons, updates_nil, ssdUpdate, ssdUpdate, List.take_of_length_le (by rw [hl]),
      List.take_of_length_le (by rw [hl])]
  rw [h1, h2, e1, e2]
  clear h1 h2 e1 e2
  obtain ⟨h1, h2, h3, _, _, h6⟩ := ssd_init 32 d
  obtain ⟨i1, i2, i3⟩ := ssd_datas _ h1 (flat (32 / 8) 128 b1) (by rw [hl]; omega)
  obtain ⟨j1, j2, j3⟩ := ssd_datas _ i1 (flat (32 / 8) 128 b2) (by rw [hl]; omega)
  rw [hl, h2, h3] at i2
  rw [h2, h3, h6] at i3
  rw [show (0 * 128 + 0 + 512) % 1024 = 512 by rfl] at i2
  rw [i2] at j3
  generalize (ssdInitialize 32 initializeMemoryMode d).datas (flat (32 / 8) 128 b1) = s1 at *
  have r1 : ∀ p x, p < 4 → x < 128 → s1.ram p x = b1 p x ∧ s1.ram (p + 4) x = d.ram (p + 4) x := by
    intro p x hp hx
    have q1 := i3 (p * 128 + x) (by omega)
    have q2 := i3 ((p + 4) * 128 + x) (by omega)
    rw [show (p * 128 + x) / 128 = p by omega, show (p * 128 + x) % 128 = x by omega,
      show (p * 128 + x + 1024 - (0 * 128 + 0)) % 1024 = p * 128 + x by omega, flat_get _ _ _ _ (by omega),
      show (p * 128 + x) / 128 = p by omega, show (p * 128 + x) % 128 = x by omega] at q1
    rw [show ((p + 4) * 128 + x) / 128 = p + 4 by omega, show ((p + 4) * 128 + x) % 128 = x by omega,
      List.getElem?_eq_none (by rw [hl]; omega)] at q2
    exact ⟨q1, q2⟩
  refine ⟨r1, ?_⟩
  intro p x hp hx
  have q1 := j3 (p * 128 + x) (by omega)
  have q2 := j3 ((p + 4) * 128 + x) (by omega)
  rw [show (p * 128 + x) / 128 = p by omega, show (p * 128 + x) % 128 = x by omega, List.getElem?_eq_none (by rw [hl]; omega)] at q1
  rw [show ((p + 4) * 128 + x) / 128 = p + 4 by omega, show ((p + 4) * 128 + x) % 128 = x by omega,
    show ((p + 4) * 128 + x + 1024 - 512) % 1024 = p * 128 + x by omega, flat_get _ _ _ _ (by omega),
    show (p * 128 + x) / 128 = p by omega, show (p * 128 + x) % 128 = x by omega] at q2
  exact ⟨q1.trans (r1 p x hp hx).1, q2⟩

/-- **C297** (interrupted transfers), false in general. If only `n` bytes of an update arrive (a byte was not acknowledged or the arbitration
was lost), the pointer of the controller stays there: the next update is complete and reported as successful, and its picture is moved by
`n` bytes along the lines of the memory. -/
theorem C297_interrupted_counterexample (d : Oled) (b1 b2 : Buf) (n : Nat) (hn : n < 1024) :
    ∀ a, a < 1024 → (ssdUpdate 64 b2 1024 (ssdUpdate 64 b1 n (ssdInitialize 64 initializeMemoryMode d))).ram (a / 128) (a % 128) =
      b2 ((a + 1024 - n) % 1024 / 128) ((a + 1024 - n) % 1024 % 128) := by
  intro a ha
  obtain ⟨h1, h2, h3, _, _, _⟩ := ssd_init 64 d
  have hl : (flat (64 / 8) 128 b1).length = 1024 := flat_length _ _ _
  have ht : ((flat (64 / 8) 128 b1).take n).length = n := by rw [List.length_take, hl]; omega
  obtain ⟨i1, i2, i3⟩ := ssd_datas _ h1 ((flat (64 / 8) 128 b1).take n) (by rw [ht]; omega)
  rw [ht, h2, h3, Nat.zero_mul, Nat.add_zero, Nat.zero_add, Nat.mod_eq_of_lt hn] at i2
  have := (full_update b2 _ i1).2.2 a ha
  rw [i2] at this
  rw [show ssdUpdate 64 b1 n (ssdInitialize 64 initializeMemoryMode d) =
    (ssdInitialize 64 initializeMemoryMode d).datas ((flat (64 / 8) 128 b1).take n) by rw [ssdUpdate], this]

example : (ssdUpdate 64 (fun p x => BitVec.ofNat 8 (p * 16 + x)) 1024
    (ssdUpdate 64 (fun _ _ => 0) 3 (ssdInitialize 64 initializeMemoryMode oled0))).ram 0 5 = 2 := by
  have := C297_interrupted_counterexample oled0 (fun _ _ => 0) (fun p x => BitVec.ofNat 8 (p * 16 + x)) 3 (by omega) 5 (by omega)
  rw [this]
  rfl

/-! ## SH1106 (C298) -/

/-- **C298** (SH1106). From any place of the pointer, also after interrupted transfers: of every page the bytes that arrive are in the
memory from column 2 on, and the rest of the memory is as before.  A complete update puts the whole buffer there, for both heights. -/
theorem C298_update (H : Nat) (hH : H / 8 ≤ 8) (b : Buf) (n : Nat → Nat) (d : Oled) (h : d.horizontal = false) :
    (shUpdate H b n d).horizontal = false ∧ (shUpdate H b n d).on = d.on ∧
      ∀ p c, (shUpdate H b n d).ram p c = if p < H / 8 ∧ 2 ≤ c ∧ c < 2 + min (n p) 128 then b p (c - 2) else d.ram p c := by
  unfold shUpdate
  generalize H / 8 = m at *
  induction m with
  | zero =>
    refine ⟨h, rfl, ?_⟩
    intro p c
    rw [if_neg (by omega)]
    rfl
  | succ m ih =>
    obtain ⟨i1, i2, i3⟩ := ih (by omega)
    rw [List.range_succ, List.foldl_append, List.foldl_cons, List.foldl_nil]
    obtain ⟨p1, p2, p3⟩ := sh_page b _ m (n m) (by omega) i1
    refine ⟨p1, by rw [p2, i2], ?_⟩
    intro p c
    rw [p3, i3]
    by_cases hp : p = m
    · subst hp
      by_cases hc : 2 ≤ c ∧ c < 2 + min (n p) 128
      · rw [if_pos ⟨rfl, hc⟩, if_pos ⟨by omega, hc⟩]
      · rw [if_neg (fun q => hc q.2), if_neg (fun q => hc q.2), if_neg (fun q => hc q.2)]
    · rw [if_neg (fun q => hp q.1)]
      by_cases hc : p < m ∧ 2 ≤ c ∧ c < 2 + min (n p) 128
      · rw [if_pos hc, if_pos ⟨by omega, hc.2⟩]
      · rw [if_neg hc, if_neg (by omega)]

/-- **C298** (after the initialisation). A complete update shows every pixel of the buffer, whatever was sent before. -/
theorem C298_initialized (H : Nat) (hH : H / 8 ≤ 8) (b : Buf) (d d' : Oled) (l : List (Buf × (Nat → Nat)))
    (hd : d' = l.foldl (fun d q => shUpdate H q.1 q.2 d) (ssdInitialize H initializeMemoryModeSh d)) :
    (shUpdate H b (fun _ => 128) d').on = true ∧
      ∀ p x, p < H / 8 → x < 128 → (shUpdate H b (fun _ => 128) d').ram p (x + 2) = b p x := by
  have key : ∀ (l : List (Buf × (Nat → Nat))) (d : Oled), d.horizontal = false →
      (l.foldl (fun d q => shUpdate H q.1 q.2 d) d).horizontal = false ∧ (l.foldl (fun d q => shUpdate H q.1 q.2 d) d).on = d.on := by
    intro l
    induction l with
    | nil => exact fun d h => ⟨h, rfl⟩
    | cons q l ih =>
      intro d h
      obtain ⟨a1, a2, _⟩ := C298_update H hH q.1 q.2 d h
      obtain ⟨b1, b2⟩ := ih _ a1
      exact ⟨b1, by rw [List.foldl_cons, b2, a2]⟩
  obtain ⟨h1, h2, _⟩ := sh_init H d
  obtain ⟨k1, k2⟩ := key l _ h1
  rw [← hd] at k1 k2
  obtain ⟨a1, a2, a3⟩ := C298_update H hH b (fun _ => 128) d' k1
  refine ⟨by rw [a2, k2, h2], ?_⟩
  intro p x hp hx
  rw [a3, if_pos (by omega), Nat.add_sub_cancel]

example : (shUpdate 32 (fun p x => BitVec.ofNat 8 (p + x)) (fun _ => 128)
    (shUpdate 32 (fun _ _ => 0) (fun p => 5 * p) (ssdInitialize 32 initializeMemoryModeSh oled0))).ram 3 (100 + 2) = 103 := by
  have h := (C298_initialized 32 (by omega) (fun p x => BitVec.ofNat 8 (p + x)) oled0 _ [(fun _ _ => 0, fun p => 5 * p)] rfl).2 3 100 (by omega) (by omega)
  rw [List.foldl_cons, List.foldl_nil] at h
  rw [h]
  rfl

/-! ## Nokia 5110, KS0108, ST7565 (C299) -/

theorem readV_none (W H : Nat) (b : Buf) (page : Nat) : readV W H b (H / 8) page = none := by
  unfold readV fetch
  rw [if_neg (by omega)]

/-- **C299** (update), false in general: every update of these displays reads `buffer[x][page]`, though the buffer is declared as
`buffer[Height / 8][Width]`, and so reads outside of it. -/
theorem C299_update_counterexample (b : Buf) :
    (∀ d, nokiaUpdate (readV 84 48 b) d = none) ∧ (∀ d, ksUpdate (readV 128 64 b) d = none) ∧
      ∀ W H topView d, H / 8 < W → 0 < H / 8 → stUpdate W H topView (readV W H b) d = none := by
  refine ⟨?_, ?_, ?_⟩
  · intro d
    unfold nokiaUpdate
    rw [mapM_none _ _ (6, 0) ((mem_pairs 84 6 6 0).2 (by omega)) (readV_none 84 48 b 0)]
    rfl
  · intro d
    have hc : ∀ (n i : Nat) (d : Ks × Ks), 0 < n → ksColumns (readV 128 64 b) 0 n i d = none := by
      intro n i d hn
      obtain ⟨n, rfl⟩ : ∃ m, n = m + 1 := ⟨n - 1, by omega⟩
      rw [ksColumns]
      have : readV 128 64 b (i + 64) 0 = none := by
        unfold readV fetch
        rw [if_neg (by omega)]
      rw [this]
      cases readV 128 64 b i 0 <;> rfl
    unfold ksUpdate
    rw [ksPages, hc 64 0 _ (by omega)]
    rfl
  · intro W H topView d hW hH
    unfold stUpdate
    obtain ⟨m, hm⟩ : ∃ m, H / 8 = m + 1 := ⟨H / 8 - 1, by omega⟩
    rw [hm, List.range_succ_eq_map, List.foldlM_cons]
    have : stPage W topView (readV W H b) d 0 = none := by
      unfold stPage
      rw [mapM_none _ _ (H / 8) (List.mem_range.2 hW) (readV_none W H b 0)]
      rfl
    rw [this]
    rfl

/-- **C299** (Nokia 5110). The rest of `update` is right: if the loop reads the byte of column `x` and bank `y`, it goes to column `x`
and bank `y` of the controller, after `initialize`, wherever the pointer is, and after every update.  Missing: the loop does not read
it (`C299_update_counterexample`). -/
theorem C299_nokia_partial (f : Nat → Nat → Option Byte) (g : Nat → Nat → Byte) (hf : ∀ x y, x < 84 → y < 6 → f x y = some (g x y)) (d0 d : Pcd)
    (hd : d = nokiaInitialize d0 ∨ (d.vertical = true ∧ d.extended = false)) :
    ∃ d', nokiaUpdate f d = some d' ∧ d'.vertical = true ∧ d'.extended = false ∧ ∀ x y, x < 84 → y < 6 → d'.ram y x = g x y := by
  have hv : d.vertical = true ∧ d.extended = false := by
    rcases hd with h | h
    · rw [h]
      simp [nokiaInitialize, Pcd.command]
    · exact h
  have hc : ∃ d1, (d.command 0x80).command 0x40 = d1 ∧ d1.vertical = true ∧ d1.extended = false ∧ d1.x = 0 ∧ d1.y = 0 := by
    refine ⟨_, rfl, ?_⟩
    simp [Pcd.command, hv.1, hv.2]
  obtain ⟨d1, e1, a1, a2, a3, a4⟩ := hc
  unfold nokiaUpdate
  rw [mapM_some _ (fun q => g q.1 q.2) _ (fun q hq => hf q.1 q.2 ((mem_pairs 84 6 q.1 q.2).1 hq).1 ((mem_pairs 84 6 q.1 q.2).1 hq).2), pairs_map, e1, Option.map_some]
  have hext : ∀ (l : List Byte) (d : Pcd), (l.foldl Pcd.data d).extended = d.extended := by
    intro l
    induction l with
    | nil => intro d; rfl
    | cons v l ih =>
      intro d
      rw [List.foldl_cons, ih]
      unfold Pcd.data
      simp only
      split_ifs <;> rfl
  have hlen := flatMap_range_length 6 g 84
  obtain ⟨i1, i2, i3⟩ := pcd_datas d1 ⟨a1, by omega, by omega⟩ _ (Nat.le_of_eq hlen)
  refine ⟨_, rfl, i1.1, by rw [hext]; exact a2, ?_⟩
  intro x y hx hy
  have h := i3 (x * 6 + y) (by omega)
  rw [a3, a4, show (x * 6 + y + 504 - (0 * 6 + 0)) % 504 = x * 6 + y by omega, flatMap_range_get 6 g 84 _ (by omega),
    show (x * 6 + y) % 6 = y by omega, show (x * 6 + y) / 6 = x by omega, Option.getD_some] at h
  exact h

/-- **C299** (KS0108). The rest of `update` is right: if the loop reads the byte of column `x` and page `p`, the left controller gets the columns
0 to 63 and the right one the columns 64 to 127, from any state of the two.  Missing: see `C299_update_counterexample`. -/
theorem C299_ks0108_partial (f : Nat → Nat → Option Byte) (g : Nat → Nat → Byte) (hf : ∀ x p, x < 128 → p < 8 → f x p = some (g x p))
    (d : Ks × Ks) : ∃ d', ksUpdate f d = some d' ∧ d'.1.on = d.1.on ∧ d'.2.on = d.2.on ∧ d'.1.start = d.1.start ∧ d'.2.start = d.2.start ∧
      ∀ p c, p < 8 → c < 64 → d'.1.ram p c = g c p ∧ d'.2.ram p c = g (c + 64) p := by
  obtain ⟨d', e, a1, a2, a3, a4, a5, a6⟩ := ks_pages f g hf 8 0 (d.1.command (0x40 ||| 0), d.2.command (0x40 ||| 0)) rfl
    (by simp [Ks.command]) (by simp [Ks.command])
  refine ⟨d', e, by rw [a1]; simp [Ks.command], by rw [a2]; simp [Ks.command], by rw [a3]; simp [Ks.command], by rw [a4]; simp [Ks.command], ?_⟩
  intro p c hp hc
  rw [a5, a6, if_pos (by omega), if_pos (by omega)]
  exact ⟨rfl, rfl⟩

/-- **C299** (KS0108, initialisation). Both controllers are switched on and start with the first line. -/
theorem C299_ks0108_initialize (d : Ks × Ks) :
    (ksInitialize d).1.on = true ∧ (ksInitialize d).2.on = true ∧ (ksInitialize d).1.start = 0 ∧ (ksInitialize d).2.start = 0 := by
  simp [ksInitialize, Ks.command]

/-- **C299** (ST7565). The rest of `update` is right: if the loop reads the byte of column `x` and page `y`, it goes to page `y` and the column
`x`, or `x + 4` with the view from the top, as long as the controller has that column.  Missing: see `C299_update_counterexample`. -/
theorem C299_st7565_partial (W H : Nat) (hH : H / 8 ≤ 16) (topView : Bool) (f : Nat → Nat → Option Byte) (g : Nat → Nat → Byte)
    (hf : ∀ x y, x < W → y < H / 8 → f x y = some (g x y)) (d : St) :
    ∃ d', stUpdate W H topView f d = some d' ∧ d'.adcReverse = d.adcReverse ∧
      ∀ x y, x < W → y < H / 8 → x + (if topView then 4 else 0) < 132 → d'.ram y (x + (if topView then 4 else 0)) = g x y := by
  obtain ⟨d', e, a1, a2⟩ := st_update W (H / 8) topView f g d hH hf
  refine ⟨d', e, a1, ?_⟩
  intro x y hx hy hlt
  rw [a2, if_pos (by omega), Nat.add_sub_cancel]

/-- The controllers after power-up -/
def pcd0 : Pcd := ⟨false, false, 3, 2, false, fun _ _ => 0x5A⟩
def ks0 : Ks := ⟨5, 6, false, 7, fun _ _ => 0x5A⟩
def st0 : St := ⟨false, 2, 100, fun _ _ => 0x5A⟩

example : ∃ d', nokiaUpdate (fun x y => some (BitVec.ofNat 8 (x + y))) (nokiaInitialize pcd0) = some d' ∧ d'.ram 5 83 = 88 := by
  obtain ⟨d', e, _, _, h⟩ := C299_nokia_partial _ (fun x y => BitVec.ofNat 8 (x + y)) (fun _ _ _ _ => rfl) pcd0 _ (Or.inl rfl)
  exact ⟨d', e, h 83 5 (by omega) (by omega)⟩

example : ∃ d', ksUpdate (fun x y => some (BitVec.ofNat 8 (x + y))) (ks0, ks0) = some d' ∧ d'.2.ram 7 63 = 134 := by
  obtain ⟨d', e, _, _, _, _, h⟩ := C299_ks0108_partial _ (fun x y => BitVec.ofNat 8 (x + y)) (fun _ _ _ _ => rfl) (ks0, ks0)
  exact ⟨d', e, (h 7 63 (by omega) (by omega)).2⟩

example : ∃ d', stUpdate 128 64 true (fun x y => some (BitVec.ofNat 8 (x + y))) st0 = some d' ∧ d'.ram 7 131 = 134 := by
  obtain ⟨d', e, _, h⟩ := C299_st7565_partial 128 64 (by omega) true _ (fun x y => BitVec.ofNat 8 (x + y)) (fun _ _ _ _ => rfl) st0
  exact ⟨d', e, h 127 7 (by omega) (by omega) (by simp)⟩

/-! ## The two views of the ST7565 (C300) -/

/-- The segment of the glass at which column `x` of the picture is shown: both views must use the same segments -/
theorem segments (W H : Nat) (hH : H / 8 ≤ 16) (topView : Bool) (g : Nat → Nat → Byte) (d : St) (x y : Nat) (hx : x < W) (hy : y < H / 8)
    (hW : x + (if topView then 4 else 0) < 132) :
    ∃ d', stUpdate W H topView (fun x y => some (g x y)) (stInitialize topView d) = some d' ∧
      d'.segment y (if topView then x + 4 else 131 - x) = g x y := by
  obtain ⟨d', e, a1, a2⟩ := C299_st7565_partial W H hH topView (fun x y => some (g x y)) g (fun _ _ _ _ => rfl) (stInitialize topView d)
  refine ⟨d', e, ?_⟩
  have := a2 x y hx hy hW
  unfold St.segment
  rw [a1]
  cases topView
  · have hi : (stInitialize false d).adcReverse = true := by simp [stInitialize, St.command]
    rw [hi]
    simp only [if_true, Bool.false_eq_true, if_false] at *
    rw [show 131 - (131 - x) = x by omega]
    exact this
  · have hi : (stInitialize true d).adcReverse = false := by simp [stInitialize, St.command]
    rw [hi]
    exact this

/-- **C300** (width 128). With the view from the top the picture is turned: column `x` of the one view is shown at the segment at which
column `127 - x` of the other one is shown, so both use the same segments 4 to 131. -/
theorem C300_turned_partial (H : Nat) (hH : H / 8 ≤ 16) (g : Nat → Nat → Byte) (d d0 : St) (x y : Nat) (hx : x < 128) (hy : y < H / 8) :
    ∃ d1 d2 s, stUpdate 128 H true (fun x y => some (g x y)) (stInitialize true d) = some d1 ∧
      stUpdate 128 H false (fun x y => some (g x y)) (stInitialize false d0) = some d2 ∧ 4 ≤ s ∧ s < 132 ∧
      d1.segment y s = g x y ∧ d2.segment y s = g (127 - x) y := by
  obtain ⟨d1, e1, a1⟩ := segments 128 H hH true g d x y hx hy (by simp; omega)
  obtain ⟨d2, e2, a2⟩ := segments 128 H hH false g d0 (127 - x) y (by omega) hy (by simp; omega)
  simp only [if_true, Bool.false_eq_true, if_false] at a1 a2
  rw [show 131 - (127 - x) = x + 4 by omega] at a2
  exact ⟨d1, d2, x + 4, e1, e2, by omega, by omega, a1, a2⟩

/-- **C300** (other widths), false in general. The EA DOGM132 has 132 columns: with the view from the top the last four columns of the
picture are not in the memory of the controller, for any picture. The EA DOGS102 has 102 columns: the view from the top uses the
segments from 4 on, the other one the segments from 30 on, so that 26 columns of the one are at segments that the other does not use. -/
theorem C300_widths_counterexample :
    (∀ (g : Nat → Nat → Byte) (d : St), ∃ d', stUpdate 132 32 true (fun x y => some (g x y)) (stInitialize true d) = some d' ∧
      ∀ y s, y < 4 → s < 132 → d'.segment y s = if s < 4 then d.ram y s else g (s - 4) y) ∧
    (∀ (g : Nat → Nat → Byte) (d : St), ∃ d1 d2, stUpdate 102 64 true (fun x y => some (g x y)) (stInitialize true d) = some d1 ∧
      stUpdate 102 64 false (fun x y => some (g x y)) (stInitialize false d) = some d2 ∧
      ∀ s y, 4 ≤ s → s < 30 → y < 8 → d1.segment y s = g (s - 4) y ∧ d2.segment y s = d.ram y (131 - s)) := by
  have r : ∀ (t : Bool) (d : St), (stInitialize t d).ram = d.ram ∧ (stInitialize t d).adcReverse = !t := by
    intro t d
    cases t <;> simp [stInitialize, St.command]
  refine ⟨?_, ?_⟩
  · intro g d
    obtain ⟨d', e, a1, a2⟩ := st_update 132 (32 / 8) true (fun x y => some (g x y)) g (stInitialize true d) (by omega) (fun _ _ _ _ => rfl)
    refine ⟨d', e, ?_⟩
    intro y s hy hs
    unfold St.segment
    rw [a1, (r true d).2]
    simp only [Bool.not_true, Bool.false_eq_true, if_false, if_true] at *
    rw [a2, (r true d).1]
    by_cases h : s < 4
    · rw [if_neg (by omega), if_pos h]
    · rw [if_pos (by omega), if_neg h]
  · intro g d
    obtain ⟨d1, e1, a1, a2⟩ := st_update 102 (64 / 8) true (fun x y => some (g x y)) g (stInitialize true d) (by omega) (fun _ _ _ _ => rfl)
    obtain ⟨d2, e2, b1, b2⟩ := st_update 102 (64 / 8) false (fun x y => some (g x y)) g (stInitialize false d) (by omega) (fun _ _ _ _ => rfl)
    refine ⟨d1, d2, e1, e2, ?_⟩
    intro s y h4 h30 hy
    unfold St.segment
    rw [a1, b1, (r true d).2, (r false d).2]
    simp only [Bool.not_true, Bool.not_false, Bool.false_eq_true, if_false, if_true] at *
    rw [a2, b2, (r true d).1, (r false d).1, if_pos (by omega), if_neg (by omega)]
    exact ⟨rfl, rfl⟩

/-! ## ST7586S (C301) -/

theorem cell_bits : ∀ a b c : Bool, ∀ i : Fin 8, (cellOf a b c).getLsbD i.val =
    ((decide (i.val = 7 ∨ i.val = 6) && a) || (decide (i.val = 4 ∨ i.val = 3) && b) || (decide (i.val = 1 ∨ i.val = 0) && c)) := by
  decide

/-- **C301** (ST7586S). For every width that is a multiple of eight, every line and every buffer: `update` stays inside of the buffer, sends
`Width / 3` bytes for the line, and the byte `k` has the pixel `3 k` in bits 7 and 6, the pixel `3 k + 1` in bits 4 and 3 and the pixel
`3 k + 2` in bits 1 and 0. -/
theorem C301_line (W H : Nat) (hW : W % 8 = 0) (b : Buf) (y : Nat) (hy : y < H) :
    ∃ l, st7586Update W H b y = some l ∧ l.length = W / 3 ∧ ∀ k, k < W / 3 → ∃ v p0 p1 p2, l[k]? = some v ∧
      getPixelH W H b (3 * k : Nat) y = some p0 ∧ getPixelH W H b (3 * k + 1 : Nat) y = some p1 ∧ getPixelH W H b (3 * k + 2 : Nat) y = some p2 ∧
      ∀ i, i < 8 → v.getLsbD i = ((decide (i = 7 ∨ i = 6) && p0) || (decide (i = 4 ∨ i = 3) && p1) || (decide (i = 1 ∨ i = 0) && p2)) := by
  obtain ⟨l, e, hl, h⟩ := st7586_line (fun i => fetch H (W / 8) b y i) (fun i => b y i) (W / 8)
    (fun i hi => by show fetch H (W / 8) b y i = _; unfold fetch; rw [if_pos ⟨hy, hi⟩]) (W / 3) 0 0 0 0 rfl (by omega) (by omega)
    (by intro j hj; simp)
  refine ⟨l, e, hl, ?_⟩
  intro k hk
  have hp : ∀ q : Nat, q < W → getPixelH W H b q y = some ((b y (q / 8)).getLsbD (q % 8)) := by
    intro q hq
    rw [Props.Mono.getPixelH_of W H hW b q y (by omega) (by omega), decide_eq_true (by omega)]
    rw [Bool.true_and, Option.some.injEq]
    show (b ((y : Int).toNat) (((q : Int) / 8).toNat)).getLsbD (((q : Int) % 8).toNat) = _
    rw [show ((q : Int) / 8).toNat = q / 8 by omega, show ((y : Int)).toNat = y by omega, show ((q : Int) % 8).toNat = q % 8 by omega]
  have hk' := h k hk
  rw [Nat.zero_add] at hk'
  refine ⟨_, _, _, _, hk', hp _ (by omega), hp _ (by omega), hp _ (by omega), ?_⟩
  intro i hi
  exact cell_bits _ _ _ ⟨i, hi⟩

example : ∃ l, st7586Update 384 160 (fun _ _ => 0x0F) 159 = some l ∧ l.length = 128 := by
  obtain ⟨l, e, h, _⟩ := C301_line 384 160 rfl (fun _ _ => 0x0F) 159 (by omega)
  exact ⟨l, e, h⟩

example : st7586Update 24 1 (fun _ c => if c = 0 then 0x0F else 0x80) 0 = some [0xDB, 0xC0, 0, 0, 0, 0xC0, 0, 0x03] := by decide +kernel

/-! ## MAX7219 (C302) -/

/-- **C302** (registers). `setRegister` reaches every chip of the chain, here with the brightness: all chips get it, and the rest stays. -/
theorem C302_brightness (l : List Max) (v : Byte) (j : Nat) (c : Max) (hj : l[j]? = some c) :
    ∃ c', (setBrightness v l)[j]? = some c' ∧ c'.intensity.toNat = v.toNat % 16 ∧ c'.digit = c.digit ∧ c'.scan = c.scan ∧ c'.decode = c.decode ∧
      c'.shutdown = c.shutdown ∧ c'.test = c.test := by
  obtain ⟨_, h2⟩ := send_get (List.replicate l.length (0x0A, BitVec.ofNat 8 (v.toNat % 16))) l (by simp)
  obtain ⟨w, e1, e2⟩ := h2 j c hj
  rw [List.getElem?_replicate] at e1
  split_ifs at e1
  simp only [Option.some.injEq] at e1
  subst e1
  refine ⟨_, e2, ?_⟩
  have hl : latch { c with word := (0x0A, BitVec.ofNat 8 (v.toNat % 16)) } =
      { c with word := (0x0A, BitVec.ofNat 8 (v.toNat % 16)), intensity := BitVec.ofNat 8 (v.toNat % 16) &&& 15 } := by
    simp [latch]
  rw [hl]
  refine ⟨?_, rfl, rfl, rfl, rfl, rfl⟩
  have : ∀ v : Byte, (BitVec.ofNat 8 (v.toNat % 16) &&& 15).toNat = v.toNat % 16 := by decide +kernel
  exact this v

/-- What one more register word does to all chips -/
theorem register_all (reg v : Byte) (l : List Max) (P Q : Max → Prop) (hl : ∀ c ∈ l, P c) (hQ : ∀ c, P c → Q (latch { c with word := (reg, v) })) :
    ∀ c ∈ setRegister reg v l, Q c := by
  intro c hc
  obtain ⟨h1, h2⟩ := send_get (List.replicate l.length (reg, v)) l (by simp)
  obtain ⟨j, hj, e⟩ := List.getElem_of_mem hc
  have hjl : j < l.length := by rw [← h1]; exact hj
  obtain ⟨w, e1, e2⟩ := h2 j l[j] (List.getElem?_eq_getElem hjl)
  rw [List.getElem?_replicate] at e1
  split_ifs at e1
  simp only [Option.some.injEq] at e1
  subst e1
  have e3 : (setRegister reg v l)[j]? = some c := by rw [List.getElem?_eq_getElem hj, e]
  have e4 : some c = some (latch { l[j] with word := (reg, v) }) := e3.symm.trans e2
  rw [Option.some.injEq] at e4
  rw [e4]
  exact hQ _ (hl _ (List.getElem_mem hjl))

theorem setRegister_length (reg v : Byte) (l : List Max) : (setRegister reg v l).length = l.length :=
  (send_get (List.replicate l.length (reg, v)) l (by simp)).1

/-- **C302** (initialisation). From any state of the chain, `initializeMatrix` leaves every chip with all eight digits scanned, without
decoding, without display test, with full brightness, switched on and with all LEDs dark. -/
theorem C302_initialize (l : List Max) : (initializeMatrix l).length = l.length ∧
    ∀ c ∈ initializeMatrix l, c.scan = 7 ∧ c.decode = 0 ∧ c.test = 0 ∧ c.intensity = 15 ∧ c.shutdown = 1 ∧ ∀ d, d < 8 → c.digit d = 0 := by
  have s1 := register_all 0x0B 7 l (fun _ => True) (fun c => c.scan = 7) (fun _ _ => trivial) (fun c _ => by simp [latch])
  have s2 := register_all 0x09 0 _ _ (fun c => c.scan = 7 ∧ c.decode = 0) s1 (fun c h => by simpa [latch] using h)
  have s3 := register_all 0x0F 0 _ _ (fun c => c.scan = 7 ∧ c.decode = 0 ∧ c.test = 0) s2 (fun c h => by simpa [latch] using h)
  have n3 : (setRegister 0x0F 0 (setRegister 0x09 0 (setRegister 0x0B 7 l))).length = l.length := by
    rw [setRegister_length, setRegister_length, setRegister_length]
  unfold initializeMatrix setBrightness
  generalize (setRegister 0x0F 0 (setRegister 0x09 0 (setRegister 0x0B 7 l))) = l3 at *
  have clr : ∀ (m : Nat) (l : List Max), m ≤ 8 → ((List.range m).foldl (fun l col => setRow col (List.replicate l.length 0) l) l).length = l.length ∧
      ∀ j, j < l.length → regs ((List.range m).foldl (fun l col => setRow col (List.replicate l.length 0) l) l) j = regs l j ∧
        ∀ d, d < m → dig ((List.range m).foldl (fun l col => setRow col (List.replicate l.length 0) l) l) j d = 0 := by
    intro m l hm
    induction m with
    | zero => exact ⟨rfl, fun j _ => ⟨rfl, by simp⟩⟩
    | succ m ih =>
      obtain ⟨i1, i2⟩ := ih (by omega)
      rw [List.range_succ, List.foldl_append, List.foldl_cons, List.foldl_nil]
      generalize (List.range m).foldl (fun l col => setRow col (List.replicate l.length 0) l) l = l' at *
      obtain ⟨a1, a2⟩ := setRow_spec m (List.replicate l'.length 0) l' (by omega) (by simp)
      refine ⟨by rw [a1, i1], ?_⟩
      intro j hj
      obtain ⟨b1, b2⟩ := a2 j (by omega)
      refine ⟨by rw [b1, (i2 j hj).1], ?_⟩
      intro d hd
      rw [b2]
      split_ifs with h
      · rw [List.getElem?_replicate]
        split_ifs <;> rfl
      · exact (i2 j hj).2 d (by omega)
  obtain ⟨c1, c2⟩ := clr 8 l3 (Nat.le_refl _)
  have s4 : ∀ c ∈ clearChips l3, c.scan = 7 ∧ c.decode = 0 ∧ c.test = 0 ∧ ∀ d, d < 8 → c.digit d = 0 := by
    intro c hc
    obtain ⟨j, hj, e⟩ := List.getElem_of_mem hc
    have hjl : j < l3.length := by rw [← c1]; exact hj
    obtain ⟨r1, r2⟩ := c2 j hjl
    have e3 : (clearChips l3)[j]? = some c := by rw [List.getElem?_eq_getElem hj, e]
    have r1' : regs (clearChips l3) j = regs l3 j := r1
    unfold regs at r1'
    rw [e3, List.getElem?_eq_getElem hjl, Option.map_some, Option.map_some, Option.some.injEq] at r1'
    simp only [Prod.mk.injEq] at r1'
    have := s3 l3[j] (List.getElem_mem hjl)
    refine ⟨r1'.2.2.1.trans this.1, r1'.1.trans this.2.1, r1'.2.2.2.2.trans this.2.2, ?_⟩
    intro d hd
    have h := r2 d hd
    change dig (clearChips l3) j d = 0 at h
    unfold dig at h
    rw [e3] at h
    exact h
  have s5 := register_all 0x0A (BitVec.ofNat 8 ((15 : Byte).toNat % 16)) _ _
    (fun c => c.scan = 7 ∧ c.decode = 0 ∧ c.test = 0 ∧ (∀ d, d < 8 → c.digit d = 0) ∧ c.intensity = 15) s4 (fun c h => by simpa [latch] using h)
  have s6 := register_all 0x0C 1 _ _
    (fun c => c.scan = 7 ∧ c.decode = 0 ∧ c.test = 0 ∧ (∀ d, d < 8 → c.digit d = 0) ∧ c.intensity = 15 ∧ c.shutdown = 1) s5 (fun c h => by simpa [latch] using h)
  refine ⟨?_, ?_⟩
  · rw [setRegister_length, setRegister_length]
    exact c1.trans n3
  · intro c hc
    obtain ⟨q1, q2, q3, q4, q5, q6⟩ := s6 c hc
    exact ⟨q1, q2, q3, q5, q6, q4⟩

/-- A chain of three chips in an unknown state -/
def chain0 : List Max := List.replicate 3 ⟨(3, 4), fun _ => 0x5A, 1, 2, 3, 0, 1⟩

example : ∀ c ∈ initializeMatrix chain0, c.shutdown = 1 ∧ c.digit 7 = 0 :=
  fun c hc => ⟨((C302_initialize chain0).2 c hc).2.2.2.2.1, ((C302_initialize chain0).2 c hc).2.2.2.2.2 7 (by omega)⟩

example : ∃ c, chain0[2]? = some c ∧ c.intensity ≠ 9 := ⟨_, rfl, by decide⟩

/-- **C302** (horizontal matrix). The rest of `update` is right: if the loop reads the byte of module column `c` and line `y`, then the module in
row `r` and column `c`, which is number `r * COLUMNS + c` of the chain as documented, shows it at digit `7 - y % 8`, for all sizes.
Missing: the loop does not read it (`C302_matrix_counterexample`). -/
theorem C302_horizontal_partial (C R : Nat) (f : Nat → Nat → Option Byte) (g : Nat → Nat → Byte)
    (hf : ∀ c y, c < C → y < 8 * R → f c y = some (g c y)) (l : List Max) (hl : l.length = C * R) :
    ∃ l', horizontalUpdate C R f l = some l' ∧ l'.length = C * R ∧
      ∀ c r k, c < C → r < R → k < 8 → dig l' (r * C + c) (7 - k) = g c (r * 8 + k) ∧ regs l' (r * C + c) = regs l (r * C + c) := by
  have hb : ∀ k, k < 8 → horizontalBuf C R f k = some (((List.range R).flatMap fun r => (List.range C).map fun c => g c (r * 8 + k)).reverse) := by
    intro k hk
    unfold horizontalBuf
    rw [mapM_some _ (fun q => (fun a b => g b (a * 8 + k)) q.1 q.2) _ (fun q hq => by
      have := (mem_pairs R C q.1 q.2).1 hq
      exact hf q.2 (q.1 * 8 + k) this.2 (by omega)), pairs_map R C (fun a b => g b (a * 8 + k))]
    rfl
  have hlen : ∀ k, ((List.range R).flatMap fun r => (List.range C).map fun c => g c (r * 8 + k)).length = R * C :=
    fun k => flatMap_range_length C (fun r c => g c (r * 8 + k)) R
  obtain ⟨l', e, h1, h2⟩ := rows_spec (horizontalBuf C R f)
    (fun k => ((List.range R).flatMap fun r => (List.range C).map fun c => g c (r * 8 + k)).reverse) (fun k => 7 - k) l 8
    (fun k hk => ⟨hb k hk, by rw [List.length_reverse, hlen, hl, Nat.mul_comm]⟩) (fun k hk => by omega) (fun k k' hk hk' he => by omega)
  refine ⟨l', e, by rw [h1, hl], ?_⟩
  intro c r k hc hr hk
  have hj : r * C + c < R * C := by
    have : (r + 1) * C ≤ R * C := Nat.mul_le_mul_right C hr
    rw [Nat.succ_mul] at this
    omega
  have hRC : R * C = C * R := Nat.mul_comm R C
  obtain ⟨a1, a2, _⟩ := h2 (r * C + c) (by omega)
  refine ⟨?_, a1⟩
  rw [a2 k hk, List.getElem?_reverse (by rw [hlen]; omega), hlen, hl, ← hRC,
    show R * C - 1 - (R * C - 1 - (r * C + c)) = r * C + c by omega, flatMap_range_get C (fun r c => g c (r * 8 + k)) R _ hj,
    show (r * C + c) / C = r by rw [Nat.mul_comm, Nat.mul_add_div (by omega), Nat.div_eq_of_lt hc]; rfl,
    show (r * C + c) % C = c by rw [Nat.mul_comm, Nat.mul_add_mod, Nat.mod_eq_of_lt hc]]
  rfl

/-- **C302** (vertical matrix). The rest of `update` is right: if the loop reads the byte of pixel column `x` and module row `r`, then the module
in row `r` and column `c` shows the column `8 c + k` at digit `k`; the module that is connected to the microcontroller is the one in the last row and
the last column.  Missing: see `C302_matrix_counterexample`. -/
theorem C302_vertical_partial (C R : Nat) (f : Nat → Nat → Option Byte) (g : Nat → Nat → Byte)
    (hf : ∀ x r, x < 8 * C → r < R → f x r = some (g x r)) (l : List Max) (hl : l.length = C * R) :
    ∃ l', matrixUpdate C R f l = some l' ∧ l'.length = C * R ∧
      ∀ c r k, c < C → r < R → k < 8 → dig l' (C * R - 1 - (c * R + r)) k = g (c * 8 + k) r ∧
        regs l' (C * R - 1 - (c * R + r)) = regs l (C * R - 1 - (c * R + r)) := by
  have hb : ∀ k, k < 8 → matrixBuf C R f k = some ((List.range C).flatMap fun c => (List.range R).map fun r => g (c * 8 + k) r) := by
    intro k hk
    unfold matrixBuf
    rw [mapM_some _ (fun q => (fun a b => g (a * 8 + k) b) q.1 q.2) _ (fun q hq => by
      have := (mem_pairs C R q.1 q.2).1 hq
      exact hf (q.1 * 8 + k) q.2 (by omega) this.2), pairs_map C R (fun a b => g (a * 8 + k) b)]
  have hlen : ∀ k, ((List.range C).flatMap fun c => (List.range R).map fun r => g (c * 8 + k) r).length = C * R :=
    fun k => flatMap_range_length R (fun c r => g (c * 8 + k) r) C
  obtain ⟨l', e, h1, h2⟩ := rows_spec (matrixBuf C R f)
    (fun k => (List.range C).flatMap fun c => (List.range R).map fun r => g (c * 8 + k) r) (fun k => k) l 8
    (fun k hk => ⟨hb k hk, by rw [hlen, hl]⟩) (fun k hk => hk) (fun k k' hk hk' he => he)
  refine ⟨l', e, by rw [h1, hl], ?_⟩
  intro c r k hc hr hk
  have hj : c * R + r < C * R := by
    have : (c + 1) * R ≤ C * R := Nat.mul_le_mul_right R hc
    rw [Nat.succ_mul] at this
    omega
  obtain ⟨a1, a2, _⟩ := h2 (C * R - 1 - (c * R + r)) (by omega)
  refine ⟨?_, a1⟩
  rw [a2 k hk, hl, show C * R - 1 - (C * R - 1 - (c * R + r)) = c * R + r by omega, flatMap_range_get R (fun c r => g (c * 8 + k) r) C _ hj,
    show (c * R + r) / R = c by rw [Nat.mul_comm, Nat.mul_add_div (by omega), Nat.div_eq_of_lt hr]; rfl,
    show (c * R + r) % R = r by rw [Nat.mul_comm, Nat.mul_add_mod, Nat.mod_eq_of_lt hr]]
  rfl

example : ∃ l', horizontalUpdate 3 1 (fun c y => some (BitVec.ofNat 8 (c * 16 + y))) chain0 = some l' ∧ dig l' 2 (7 - 5) = 37 := by
  obtain ⟨l', e, _, h⟩ := C302_horizontal_partial 3 1 _ (fun c y => BitVec.ofNat 8 (c * 16 + y)) (fun _ _ _ _ => rfl) chain0 rfl
  exact ⟨l', e, (h 2 0 5 (by omega) (by omega) (by omega)).1⟩

example : ∃ l', matrixUpdate 3 1 (fun x r => some (BitVec.ofNat 8 (x + r))) chain0 = some l' ∧ dig l' 0 5 = 21 := by
  obtain ⟨l', e, _, h⟩ := C302_vertical_partial 3 1 _ (fun x r => BitVec.ofNat 8 (x + r)) (fun _ _ _ _ => rfl) chain0 rfl
  exact ⟨l', e, (h 2 0 5 (by omega) (by omega) (by omega)).1⟩

theorem rows_none (bufs : Nat → Option (List Byte)) (step : Nat → List Byte → List Max → List Max) (k : Nat) (hb : bufs k = none) :
    ∀ (ks : List Nat) (l : List Max), k ∈ ks → ks.foldlM (fun l k => (bufs k).map fun buf => step k buf l) l = none := by
  intro ks
  induction ks with
  | nil => intro l h; simp at h
  | cons a ks ih =>
    intro l h
    rw [List.foldlM_cons]
    by_cases e : a = k
    · rw [e, hb]; rfl
    · cases hba : bufs a with
      | none => rfl
      | some v => exact ih _ ((List.mem_cons.1 h).resolve_left (fun q => e q.symm))

/-- **C302** (matrices), false in general: the loops read `buffer[x][row]` and `buffer[column][line]`, though the buffers are declared as
`buffer[ROWS][8 * COLUMNS]` and `buffer[8 * ROWS][COLUMNS]`.  Every update reads outside of the buffer, except for the sizes for which the buffer
is a square, and there it shows the transposed bytes: a byte of column 1 of the picture appears at line 1. -/
theorem C302_matrix_counterexample (b : Buf) :
    (∀ C R l, 0 < C → 0 < R → R ≠ 8 * C → matrixUpdate C R (readV (8 * C) (8 * R) b) l = none) ∧
    (∀ C R l, 0 < C → 0 < R → C ≠ 8 * R → horizontalUpdate C R (readH (8 * C) (8 * R) b) l = none) ∧
    (∀ l : List Max, l.length = 8 → ∃ l', horizontalUpdate 8 1 (readH 64 8 b) l = some l' ∧ dig l' 0 6 = b 0 1) := by
  refine ⟨?_, ?_, ?_⟩
  · intro C R l hC hR hne
    unfold matrixUpdate
    have hx : ∃ k, k < 8 ∧ matrixBuf C R (readV (8 * C) (8 * R) b) k = none := by
      by_cases h : R < 8 * C
      · refine ⟨R % 8, by omega, ?_⟩
        unfold matrixBuf
        refine mapM_none _ _ (R / 8, 0) ((mem_pairs C R _ _).2 (by omega)) ?_
        simp only [readV, fetch]
        rw [if_neg (by omega)]
      · refine ⟨0, by omega, ?_⟩
        unfold matrixBuf
        refine mapM_none _ _ (0, 8 * C) ((mem_pairs C R _ _).2 (by omega)) ?_
        simp only [readV, fetch]
        rw [if_neg (by omega)]
    obtain ⟨k, hk, e⟩ := hx
    exact rows_none _ (fun k buf l => setRow k buf l) k e _ l (List.mem_range.2 hk)
  · intro C R l hC hR hne
    unfold horizontalUpdate
    have hx : ∃ k, k < 8 ∧ horizontalBuf C R (readH (8 * C) (8 * R) b) k = none := by
      by_cases h : C < 8 * R
      · refine ⟨C % 8, by omega, ?_⟩
        unfold horizontalBuf
        rw [mapM_none _ _ (C / 8, 0) ((mem_pairs R C _ _).2 (by omega)) (by
          simp only [readH, fetch]
          rw [if_neg (by omega)])]
        rfl
      · refine ⟨0, by omega, ?_⟩
        unfold horizontalBuf
        rw [mapM_none _ _ (0, 8 * R) ((mem_pairs R C _ _).2 (by omega)) (by
          simp only [readH, fetch]
          rw [if_neg (by omega)])]
        rfl
    obtain ⟨k, hk, e⟩ := hx
    exact rows_none _ (fun k buf l => setRow (7 - k) buf l) k e _ l (List.mem_range.2 hk)
  · intro l hl
    obtain ⟨l', e, _, h⟩ := C302_horizontal_partial 8 1 (readH 64 8 b) (fun c y => b c y)
      (fun c y hc hy => by unfold readH fetch; rw [if_pos (by omega)]) l (by omega)
    exact ⟨l', e, (h 0 0 1 (by omega) (by omega) (by omega)).1⟩

end Props.Panel
