/-
C190: texts that scroll.
C191: menus: entries, selection.
C192: menus: which texts scroll.
-/
import Verif.Spec.Menu
import Mathlib.Data.List.Induction
import Mathlib.Tactic.Cases
import Mathlib.Tactic.Linarith
set_option autoImplicit false
namespace Props.Menu
open Modm.Menu Spec.Menu

private def ring (text : List Char) (k : Nat) : Char := (text ++ [' ']).getD (k % (text.length + 1)) ' '

private theorem window_eq (text : List Char) (sp p : Nat) : window text sp p = (List.range sp).map (fun i => ring text (p + i)) := rfl

private theorem window_mod (text : List Char) (sp p : Nat) : window text sp (p % (text.length + 1)) = window text sp p := by
  simp only [window, Nat.mod_add_mod]

private theorem mapM_some {α β : Type} (f : α → Option β) (g : α → β) (l : List α) (h : ∀ x ∈ l, f x = some (g x)) : l.mapM f = some (l.map g) := by
  induction l with
  | nil => rfl
  | cons a l ih =>
    rw [List.mapM_cons, h a List.mem_cons_self, ih (fun x hx => h x (List.mem_cons_of_mem _ hx))]
    rfl

/-- the members that do not change -/
private def Ok (text : List Char) (sp : Nat) (t : Text) : Prop := t.text = text ∧ t.length = text.length ∧ t.space = sp

private theorem needs_iff {text : List Char} {sp : Nat} {t : Text} (h : Ok text sp t) : t.needsScrolling = true ↔ sp < text.length := by
  simp [Text.needsScrolling, h.2.1, h.2.2]

private def Printed (text : List Char) (sp p : Nat) (t : Text) : Prop := ∀ i < sp, t.print i = some (ring text (p + i))

private theorem ring_lt {text : List Char} {k : Nat} (h : k < text.length) : text[k]? = some (ring text k) := by
  unfold ring
  rw [Nat.mod_eq_of_lt (by omega), List.getD_eq_getElem?_getD, List.getElem?_append_left h, List.getElem?_eq_getElem h]
  rfl

private theorem ring_blank {text : List Char} {k : Nat} (h : k = text.length) : ring text k = ' ' := by
  unfold ring
  subst h
  rw [Nat.mod_eq_of_lt (by omega), List.getD_eq_getElem?_getD, List.getElem?_append_right (by omega)]
  simp

private theorem ring_sub {text : List Char} {k : Nat} (h : text.length + 1 ≤ k) : ring text k = ring text (k - (text.length + 1)) := by
  unfold ring
  rw [Nat.mod_eq_sub_mod h]

private theorem charAt_ring {text : List Char} {sp : Nat} {t : Text} (h : Ok text sp t) (hn : sp < text.length) {i : Nat} (hi : i < sp)
    (hs : t.start ≤ text.length) : t.charAt i = some (ring text (t.start + i)) := by
  unfold Text.charAt
  rw [h.1, h.2.1, Nat.add_comm i t.start]
  split
  · rename_i hc; exact ring_lt hc
  · split
    · rename_i hc; rw [ring_blank hc]
    · rw [ring_sub (text := text) (k := t.start + i) (by omega)]
      exact ring_lt (by omega)

private theorem printStart_ok {text : List Char} {sp : Nat} {t : Text} (h : Ok text sp t) (hsp : sp ≤ 255 ∨ text.length ≤ sp) :
    ∃ t', t.printStart = some t' ∧ Ok text sp t' ∧ t'.paused = t.paused ∧ t'.start = t.start ∧ (sp < text.length → Printed text sp 0 t') := by
  unfold Text.printStart
  by_cases hn : sp < text.length
  · rw [if_pos ((needs_iff h).mpr hn), if_pos (by rw [h.2.2]; omega)]
    refine ⟨_, rfl, h, rfl, rfl, fun _ i hi => ?_⟩
    dsimp only
    rw [h.2.2, if_pos hi, h.1, ring_lt (by omega), Nat.zero_add]
  · rw [if_neg (fun hc => hn ((needs_iff h).mp hc))]
    exact ⟨t, rfl, h, rfl, rfl, fun hc => absurd hc hn⟩

private theorem get_fits {text : List Char} {sp : Nat} {t : Text} (h : Ok text sp t) (hn : text.length ≤ sp) : t.getText = (some text, t) := by
  unfold Text.getText
  rw [if_neg (fun hc => by have := (needs_iff h).mp hc; omega), h.1]

private theorem get_paused {text : List Char} {sp p : Nat} {t : Text} (h : Ok text sp t) (hn : sp < text.length) (hp : t.paused = true)
    (hpr : Printed text sp p t) : t.getText = (some (window text sp p), t) := by
  unfold Text.getText
  rw [if_pos ((needs_iff h).mpr hn)]
  simp only [hp, Bool.not_true, Bool.false_eq_true, if_false]
  rw [h.2.2, window_eq, mapM_some _ (fun i => ring text (p + i))]
  intro x hx
  exact hpr x (List.mem_range.mp hx)

private theorem get_running {text : List Char} {sp p : Nat} {t : Text} (h : Ok text sp t) (hl : text.length < 2 ^ 16) (hn : sp < text.length) (hp : t.paused = false)
    (hs : t.start = p % (text.length + 1)) :
    ∃ t', t.getText = (some (window text sp p), t') ∧ Ok text sp t' ∧ t'.paused = false ∧ t'.start = (p + 1) % (text.length + 1) ∧ Printed text sp p t' := by
  have hlt : p % (text.length + 1) < text.length + 1 := Nat.mod_lt _ (by omega)
  have hle : t.start ≤ text.length := by omega
  have hr : ∀ i, i < sp → t.charAt i = some (ring text (p + i)) := by
    intro i hi
    rw [charAt_ring h hn hi hle, hs]
    unfold ring
    rw [Nat.mod_add_mod]
  unfold Text.getText
  rw [if_pos ((needs_iff h).mpr hn)]
  simp only [hp, Bool.not_false, if_true]
  refine ⟨_, Prod.ext ?_ rfl, ⟨h.1, h.2.1, h.2.2⟩, rfl, ?_, ?_⟩
  · show List.mapM _ (List.range t.space) = _
    rw [h.2.2, window_eq, mapM_some _ (fun i => ring text (p + i))]
    intro x hx
    have hx' := List.mem_range.mp hx
    rw [if_pos hx', hr x hx']
  · dsimp only
    rw [h.2.1, hs]
    by_cases he : p % (text.length + 1) = text.length
    · rw [he]
      have : (p + 1) % (text.length + 1) = 0 := by
        rw [Nat.add_mod, he]
        by_cases h0 : text.length = 0
        · omega
        · rw [Nat.mod_eq_of_lt (show 1 < text.length + 1 by omega), Nat.mod_self]
      rw [this]
      by_cases h6 : text.length + 1 = 2 ^ 16
      · rw [h6, Nat.mod_self, if_neg (by omega)]
      · rw [Nat.mod_eq_of_lt (by omega), if_pos (by omega)]
    · have h1 : (p + 1) % (text.length + 1) = p % (text.length + 1) + 1 := by
        rw [Nat.add_mod, Nat.mod_eq_of_lt (show 1 < text.length + 1 by omega), Nat.mod_eq_of_lt (by omega)]
      rw [Nat.mod_eq_of_lt (show p % (text.length + 1) + 1 < 2 ^ 16 by omega), if_neg (by omega), h1]
  · intro i hi
    dsimp only
    rw [h.2.2, if_pos hi, hr i hi]

/-! ## Texts -/

private structure Sync (text : List Char) (sp : Nat) (t : Text) (s : Scroll) : Prop where
  ok : Ok text sp t
  paused : t.paused = s.paused
  start : sp < text.length → t.start = s.pos % (text.length + 1)
  print : sp < text.length → Printed text sp s.last t

private theorem make_sync {text : List Char} {sp : Nat} (hl : text.length < 2 ^ 16) (hs : sp < 2 ^ 16) (hsp : sp ≤ 255 ∨ text.length ≤ sp) :
    ∃ t, Text.make text sp = some t ∧ Sync text sp t {} := by
  have h0 : Ok text sp ⟨true, text, 0, text.length % 2 ^ 16, sp % 2 ^ 16, fun _ => none⟩ := ⟨rfl, Nat.mod_eq_of_lt hl, Nat.mod_eq_of_lt hs⟩
  obtain ⟨t, e, o, p, st, pr⟩ := printStart_ok h0 hsp
  exact ⟨t, e, o, p, fun _ => by rw [st]; simp, pr⟩

private theorem ask_sync {text : List Char} {sp : Nat} (hl : text.length < 2 ^ 16) (hsp : sp ≤ 255 ∨ text.length ≤ sp) {t : Text} {s : Scroll} (h : Sync text sp t s) (a : Ask) :
    ∃ x t', t.ask a = some (x, t') ∧ x = (s.ask text sp a).1.toList.map some ∧ Sync text sp t' (s.ask text sp a).2 := by
  cases a with
  | toggle => exact ⟨_, _, rfl, rfl, h.ok, by simp [Text.toogle, Scroll.ask, h.paused], h.start, h.print⟩
  | scroll => exact ⟨_, _, rfl, rfl, h.ok, rfl, h.start, h.print⟩
  | pause => exact ⟨_, _, rfl, rfl, h.ok, rfl, h.start, h.print⟩
  | toStart =>
    have h0 : Ok text sp { t with start := 0 } := h.ok
    obtain ⟨t', e, o, p, st, pr⟩ := printStart_ok h0 hsp
    refine ⟨[], t', by simp [Text.ask, Text.setToStart, e], rfl, o, by rw [p]; exact h.paused, fun _ => by rw [st]; simp [Scroll.ask], pr⟩
  | get =>
    refine ⟨_, _, rfl, ?_, ?_⟩
    · by_cases hn : sp < text.length
      · cases hp : s.paused with
        | true => rw [get_paused h.ok hn (h.paused.trans hp) (h.print hn)]; simp [Scroll.ask, hp, shown, Nat.not_le.mpr hn]
        | false =>
          obtain ⟨t', e, _⟩ := get_running h.ok hl hn (h.paused.trans hp) (h.start hn)
          rw [e]; simp [Scroll.ask, hp, shown, Nat.not_le.mpr hn]
      · rw [get_fits h.ok (by omega)]
        unfold Scroll.ask
        cases s.paused <;> simp [shown, Nat.not_lt.mp hn]
    · by_cases hn : sp < text.length
      · cases hp : s.paused with
        | true =>
          rw [get_paused h.ok hn (h.paused.trans hp) (h.print hn)]
          simpa [Scroll.ask, hp] using h
        | false =>
          obtain ⟨t', e, o, p, st, pr⟩ := get_running h.ok hl hn (h.paused.trans hp) (h.start hn)
          rw [e]
          simp only [Scroll.ask, hp]
          exact ⟨o, p, fun _ => st, fun _ => pr⟩
      · rw [get_fits h.ok (by omega)]
        refine ⟨h.ok, ?_, fun hc => absurd hc hn, fun hc => absurd hc hn⟩
        unfold Scroll.ask
        cases hp : s.paused <;> simp [h.paused, hp]

private theorem asks_sync {text : List Char} {sp : Nat} (hl : text.length < 2 ^ 16) (hsp : sp ≤ 255 ∨ text.length ≤ sp) (l : List Ask) :
    ∀ {t : Text} {s : Scroll}, Sync text sp t s → t.asks l = some ((s.asks text sp l).map some) := by
  induction l with
  | nil => intro t s _; rfl
  | cons a l ih =>
    intro t s h
    obtain ⟨x, t', e, hx, h'⟩ := ask_sync hl hsp h a
    simp [Text.asks, e, ih h', hx, Scroll.asks]

/-- C190, for spaces of at most 255 letters, or texts that fit: a text shows its beginning until it scrolls; each `getText` of a text that scrolls shows the text displaced by one letter,
with a blank between its end and its beginning; a text that pauses shows what it showed last. -/
theorem C190_scroll_partial (text : List Char) (space : Nat) (l : List Ask) (hl : text.length < 2 ^ 16) (hs : space < 2 ^ 16) (hsp : space ≤ 255 ∨ text.length ≤ space) :
    ∃ t, Text.make text space = some t ∧ t.asks l = some ((Scroll.asks text space {} l).map some) ∧
      ∃ t', t.copy = some t' ∧ t'.asks l = some ((Scroll.asks text space {} l).map some) := by
  obtain ⟨t, e, h⟩ := make_sync hl hs hsp
  refine ⟨t, e, asks_sync hl hsp l h, ?_⟩
  have h0 : Ok text space { t with start := 0, print := fun _ => none } := h.ok
  obtain ⟨t', e', o, p, st, pr⟩ := printStart_ok h0 hsp
  exact ⟨t', e', asks_sync hl hsp l ⟨o, by rw [p]; exact h.paused, fun _ => by rw [st]; simp, pr⟩⟩

example : Text.make "battery".toList 5 >>= (fun t => t.asks [.get, .scroll, .get, .get, .get, .get, .pause, .get, .toStart, .get]) =
    some (["batte".toList, "batte".toList, "atter".toList, "ttery".toList, "tery ".toList, "tery ".toList, "batte".toList].map some) := by
  decide +kernel

example : Scroll.asks "battery".toList 5 {} [.scroll, .get, .get, .get, .get, .get, .get, .get, .get, .get] =
    ["batte".toList, "atter".toList, "ttery".toList, "tery ".toList, "ery b".toList, "ry ba".toList, "y bat".toList, " batt".toList, "batte".toList] := by
  decide +kernel

/-- C190 is false for more than 255 letters: the constructor does not return. -/
theorem C190_space_counterexample (text : List Char) (space : Nat) (h1 : 255 < space) (h2 : space < text.length) (h3 : text.length < 2 ^ 16) :
    Text.make text space = none := by
  unfold Text.make Text.printStart Text.needsScrolling
  dsimp only
  rw [Nat.mod_eq_of_lt h3, Nat.mod_eq_of_lt (by omega), if_pos (by simpa using h2), if_neg (by omega)]

/-- C190 is false for `operator =`: a text that pauses is shown from its beginning by the one it is assigned to, which goes on elsewhere. -/
theorem C190_assign_counterexample : ∃ t t', (do
      let t ← Text.make "battery".toList 5
      some (t.scroll.getText.2.getText.2.getText.2.pause)) = some t ∧ t.assign = some t' ∧
    t.getText.1 = some "ttery".toList ∧ t'.getText.1 = some "batte".toList ∧ t'.scroll.getText.1 = some "tery ".toList :=
  ⟨_, _, rfl, rfl, by decide +kernel, by decide +kernel, by decide +kernel⟩

/-! ## Menus -/

/-- The text of an entry; `inc`: whether it behaves as it should. -/
private def EntryOk (inc : Prop) (text : List Char) (sp : Nat) (selected : Prop) (age : Nat) (t : Text) : Prop :=
  Ok text sp t ∧ (inc → sp < text.length →
    (selected → t.paused = false ∧ t.start = age % (text.length + 1)) ∧ (¬ selected → t.paused = true ∧ t.start = 0 ∧ Printed text sp 0 t))

private theorem get_ok {text : List Char} {sp : Nat} {t : Text} (h : Ok text sp t) : Ok text sp t.getText.2 := by
  unfold Text.getText
  split
  · dsimp only
    split
    · exact h
    · exact h
  · exact h

private theorem get_entry {inc : Prop} {text : List Char} {sp : Nat} {selected : Prop} {age : Nat} {t : Text} (hl : text.length < 2 ^ 16)
    (h : EntryOk inc text sp selected age t) :
    EntryOk inc text sp selected (age + 1) t.getText.2 ∧ (selected → inc → t.getText.1 = some (shown text sp age)) ∧
    (¬ selected → inc → t.getText.1 = some (shown text sp 0)) ∧ (text.length ≤ sp → t.getText.1 = some text) := by
  refine ⟨⟨get_ok h.1, fun hi hn => ⟨fun hs => ?_, fun hs => ?_⟩⟩, fun hs hi => ?_, fun hs hi => ?_, fun hn => ?_⟩
  · obtain ⟨a, b⟩ := (h.2 hi hn).1 hs
    obtain ⟨t', e, _, p, st, _⟩ := get_running h.1 hl hn a b
    rw [e]; exact ⟨p, st⟩
  · obtain ⟨a, b, c⟩ := (h.2 hi hn).2 hs
    rw [get_paused h.1 hn a c]; exact ⟨a, b, c⟩
  · by_cases hn : sp < text.length
    · obtain ⟨a, b⟩ := (h.2 hi hn).1 hs
      obtain ⟨t', e, _⟩ := get_running h.1 hl hn a b
      rw [e]; simp [shown, Nat.not_le.mpr hn]
    · rw [get_fits h.1 (by omega)]; simp [shown, Nat.not_lt.mp hn]
  · by_cases hn : sp < text.length
    · obtain ⟨a, b, c⟩ := (h.2 hi hn).2 hs
      rw [get_paused h.1 hn a c]; simp [shown, Nat.not_le.mpr hn]
    · rw [get_fits h.1 (by omega)]; simp [shown, Nat.not_lt.mp hn]
  · rw [get_fits h.1 hn]

/-- The entries of a menu, with what they were made of. -/
private structure Entries (P : Nat → Prop) (texts : List (List Char)) (sp : Nat) (vars : List Nat) (E : List Entry) (sel : Option Nat) (age : Nat) : Prop where
  len : E.length = texts.length
  ok : ∀ k e text, E[k]? = some e → texts[k]? = some text → EntryOk (P k) text sp (sel = some k) age e.text
  vars : E.map Entry.value = vars

private theorem at_ {P : Nat → Prop} {texts : List (List Char)} {sp : Nat} {vars : List Nat} {E : List Entry} {sel : Option Nat} {age : Nat}
    (h : Entries P texts sp vars E sel age) {k : Nat} (hk : k < texts.length) :
    ∃ e text, E[k]? = some e ∧ texts[k]? = some text ∧ text ∈ texts ∧ EntryOk (P k) text sp (sel = some k) age e.text := by
  have h1 : E[k]? = some (E[k]'(by rw [h.len]; exact hk)) := List.getElem?_eq_getElem _
  have h2 : texts[k]? = some texts[k] := List.getElem?_eq_getElem hk
  exact ⟨_, _, h1, h2, List.getElem_mem hk, h.ok k _ _ h1 h2⟩

private theorem set_self {α : Type} {l : List α} {k : Nat} {a : α} (h : l[k]? = some a) : l.set k a = l := by
  apply List.ext_getElem?
  intro j
  rw [List.getElem?_set]
  split
  · rename_i e; subst e
    rw [if_pos (List.getElem?_eq_some_iff.mp h).1, h]
  · rfl

private theorem set_entries {P : Nat → Prop} {texts : List (List Char)} {sp : Nat} {vars : List Nat} {E : List Entry} {sel sel' : Option Nat} {age age' : Nat}
    (h : Entries P texts sp vars E sel age) {k : Nat} {e : Entry} {text : List Char} {t : Text} (he : E[k]? = some e) (ht : texts[k]? = some text)
    (hn : EntryOk (P k) text sp (sel' = some k) age' t)
    (ho : ∀ j e text, j ≠ k → E[j]? = some e → texts[j]? = some text → EntryOk (P j) text sp (sel' = some j) age' e.text) :
    Entries P texts sp vars (E.set k { e with text := t }) sel' age' where
  len := by rw [List.length_set]; exact h.len
  ok := by
    intro j e' text' hj ht'
    rw [List.getElem?_set] at hj
    by_cases hkj : k = j
    · subst hkj
      rw [ht] at ht'; cases ht'
      simp only [if_true] at hj
      split at hj
      · cases hj; exact hn
      · cases hj
    · rw [if_neg hkj] at hj
      exact ho j e' text' (fun e => hkj e.symm) hj ht'
  vars := by
    rw [← h.vars, List.map_set]
    apply set_self
    rw [List.getElem?_map, he]; rfl

/-- the selected text stops and is set to its start -/
private theorem off_entries {P : Nat → Prop} {texts : List (List Char)} {sp : Nat} {vars : List Nat} {E : List Entry} {a age : Nat}
    (hsp : sp ≤ 255) (h : Entries P texts sp vars E (some a) age) (ha : a < texts.length) :
    ∃ E', (∀ m : Menu, m.entries = E → onText m a (fun t => t.toogle.setToStart) = some { m with entries := E' }) ∧ Entries P texts sp vars E' none 0 := by
  obtain ⟨e, text, he, ht, _, hok⟩ := at_ h ha
  have h0 : Ok text sp { e.text.toogle with start := 0 } := hok.1
  obtain ⟨t', e1, o, p, st, pr⟩ := printStart_ok h0 (Or.inl hsp)
  refine ⟨E.set a { e with text := t' }, ?_, ?_⟩
  · intro m hm
    simp [onText, hm, he, Text.setToStart, e1]
  · refine set_entries h he ht ⟨o, fun hi hn => ⟨fun hc => (by cases hc), fun _ => ⟨?_, st, pr hn⟩⟩⟩ ?_
    · rw [p]; simp [Text.toogle, ((hok.2 hi hn).1 rfl).1]
    · intro j e' text' hj hj1 hj2
      have := h.ok j e' text' hj1 hj2
      refine ⟨this.1, fun hi hn => ⟨fun hc => (by cases hc), fun _ => (this.2 hi hn).2 (fun hc => hj (by cases hc; rfl))⟩⟩

/-- a text is selected -/
private theorem on_entries {P : Nat → Prop} {texts : List (List Char)} {sp : Nat} {vars : List Nat} {E : List Entry} {b age : Nat}
    (h : Entries P texts sp vars E none age) (hb : b < texts.length) :
    ∃ E', (∀ m : Menu, m.entries = E → onText m b (fun t => some t.toogle) = some { m with entries := E' }) ∧ Entries P texts sp vars E' (some b) 0 := by
  obtain ⟨e, text, he, ht, _, hok⟩ := at_ h hb
  refine ⟨E.set b { e with text := e.text.toogle }, ?_, ?_⟩
  · intro m hm
    simp [onText, hm, he]
  · refine set_entries h he ht ⟨hok.1, fun hi hn => ⟨fun _ => ?_, fun hc => absurd rfl hc⟩⟩ ?_
    · obtain ⟨x, y, _⟩ := (hok.2 hi hn).2 (by simp)
      simp [Text.toogle, x, y]
    · intro j e' text' hj hj1 hj2
      have := h.ok j e' text' hj1 hj2
      exact ⟨this.1, fun hi hn => ⟨fun hc => absurd (by cases hc; rfl) hj, fun _ => (this.2 hi hn).2 (by simp)⟩⟩

/-- What is drawn of one entry. -/
private def lineOf (m : Menu) (i : Nat) (e : Entry) : Line := ⟨i, decide ((m.position : Int) - m.home = i), e.text.getText.1, m.values e.value⟩

private theorem rows_spec (stop : Nat) (fuel : Nat) : ∀ (m : Menu) (count i : Nat), count ≤ m.entries.length → stop = min m.maximal (count - m.home) → stop ≤ i + fuel →
    ∃ l m', drawRows m count fuel i = some (l, m') ∧ l.length = stop - i ∧
      (∀ j, j < stop - i → l[j]? = (m.entries[m.home + (i + j)]?).map (lineOf m (i + j))) ∧
      m' = { m with entries := m'.entries } ∧ m'.entries.length = m.entries.length ∧ m'.entries.map Entry.value = m.entries.map Entry.value ∧
      ∀ k, m'.entries[k]? = if m.home + i ≤ k ∧ k < m.home + stop then (m.entries[k]?).map (fun e => { e with text := e.text.getText.2 }) else m.entries[k]? := by
  induction fuel with
  | zero =>
    intro m count i hc hs hf
    refine ⟨[], m, rfl, by simp; omega, fun j hj => by omega, rfl, rfl, rfl, fun k => ?_⟩
    rw [if_neg (by omega)]
  | succ fuel ih =>
    intro m count i hc hs hf
    unfold drawRows
    have hend : ¬ i < stop → ∃ l m', some (([] : List Line), m) = some (l, m') ∧ l.length = stop - i ∧
      (∀ j, j < stop - i → l[j]? = (m.entries[m.home + (i + j)]?).map (lineOf m (i + j))) ∧
      m' = { m with entries := m'.entries } ∧ m'.entries.length = m.entries.length ∧ m'.entries.map Entry.value = m.entries.map Entry.value ∧
      ∀ k, m'.entries[k]? = if m.home + i ≤ k ∧ k < m.home + stop then (m.entries[k]?).map (fun e => { e with text := e.text.getText.2 }) else m.entries[k]? := by
      intro h
      refine ⟨[], m, rfl, by simp; omega, fun j hj => by omega, rfl, rfl, rfl, fun k => ?_⟩
      rw [if_neg (by omega)]
    by_cases h1 : i < m.maximal
    · rw [if_pos h1]
      by_cases h2 : m.home + i ≥ count
      · rw [if_pos h2]; exact hend (by omega)
      · rw [if_neg h2]
        clear hend
        have hlt : m.home + i < m.entries.length := by omega
        have he := List.getElem?_eq_getElem hlt
        generalize hee : m.entries[m.home + i] = e at he
        generalize hE : m.entries.set (m.home + i) { e with text := e.text.getText.2 } = E
        have hEl : E.length = m.entries.length := by rw [← hE, List.length_set]
        obtain ⟨l, m', r1, r2, r3, r4, r5, r6, r7⟩ := ih { m with entries := E } count (i + 1) (by dsimp only; omega) hs (by omega)
        dsimp only at r1 r2 r3 r4 r5 r6 r7
        refine ⟨lineOf m i e :: l, m', ?_, ?_, ?_, ?_, ?_, ?_, ?_⟩
        · rw [he]
          simp only [Option.bind_eq_bind, Option.bind_some, hE, r1]
          rw [r4]; rfl
        · rw [List.length_cons, r2]; omega
        · intro j hj
          cases j with
          | zero => rw [Nat.add_zero, he]; rfl
          | succ j =>
            rw [List.getElem?_cons_succ, r3 j (by omega), show i + 1 + j = i + (j + 1) by omega, ← hE, List.getElem?_set_ne (by omega)]
            rfl
        · rw [r4]
        · rw [r5, hEl]
        · rw [r6, ← hE, List.map_set]
          apply set_self
          rw [List.getElem?_map, he]; rfl
        · intro k
          rw [r7 k, ← hE, List.getElem?_set]
          by_cases hk : m.home + i = k
          · subst hk
            rw [if_neg (by omega), if_pos rfl, if_pos hlt, if_pos (by omega), he]; rfl
          · rw [if_neg hk]
            by_cases hk2 : m.home + (i + 1) ≤ k ∧ k < m.home + stop
            · rw [if_pos hk2, if_pos (by omega)]
            · rw [if_neg hk2, if_neg (by omega)]
    · rw [if_neg h1]; exact hend (by omega)

private structure Inv (P : Nat → Prop) (texts : List (List Char)) (sp : Nat) (vars : List Nat) (m : Menu) (s : Nav) : Prop where
  ent : Entries P texts sp vars m.entries (some s.sel) s.age
  n : s.n = texts.length
  rows : m.maximal = s.rows
  home : m.home = s.home
  pos : m.position = s.sel
  hle : s.home ≤ s.sel
  hlt : s.sel < s.home + s.rows
  sel : s.sel < s.n

private theorem move_inv {P : Nat → Prop} {texts : List (List Char)} {sp : Nat} {vars : List Nat} {m : Menu} {s : Nav} (hsp : sp ≤ 255) (hn : texts.length ≤ 255)
    (h : Inv P texts sp vars m s) (b : Button) :
    ∃ m', move m b = some m' ∧ Inv P texts sp vars m' (s.op (.press b)) ∧ m'.values = m.values ∧ m'.chosen = m.chosen ∧ m'.opened = m.opened ∧ m'.alive = m.alive ∧
      (m.selected = s.told → m'.selected = (s.op (.press b)).told) := by
  have hsame : ∃ m', some m = some m' ∧ Inv P texts sp vars m' s ∧ m'.values = m.values ∧ m'.chosen = m.chosen ∧ m'.opened = m.opened ∧ m'.alive = m.alive ∧
      (m.selected = s.told → m'.selected = s.told) := ⟨m, rfl, h, rfl, rfl, rfl, rfl, fun h => h⟩
  have hS := h.sel
  have hN := h.n
  have hL := h.hle
  have hT := h.hlt
  cases b with
  | left => exact hsame
  | right => exact hsame
  | ok => exact hsame
  | down =>
    simp only [move, Nav.op]
    rw [h.ent.len, h.pos, ← h.n]
    by_cases hc : s.sel + 1 < s.n
    · rw [if_pos hc, if_pos hc]
      obtain ⟨E1, e1, i1⟩ := off_entries hsp h.ent (by omega)
      obtain ⟨E2, e2, i2⟩ := on_entries (b := s.sel + 1) i1 (by omega)
      have hm : (s.sel + 1) % 256 = s.sel + 1 := Nat.mod_eq_of_lt (by omega)
      have hm' : (s.home + 1) % 256 = s.home + 1 := Nat.mod_eq_of_lt (by omega)
      simp only [bind, Option.bind, e1 m rfl, h.home, h.rows, h.pos]
      by_cases hr : (s.sel : Int) - s.home = s.rows - 1
      · rw [if_pos hr, e2 _ rfl]
        refine ⟨_, rfl, ⟨i2, h.n, rfl, ?_, ?_, ?_, ?_, ?_⟩, rfl, rfl, rfl, rfl, ?_⟩ <;> dsimp only [Nav.select]
        · rw [hm']; omega
        · exact hm
        · omega
        · omega
        · exact hc
        · intro ht; rw [ht, hm]
      · rw [if_neg hr, e2 _ rfl]
        refine ⟨_, rfl, ⟨i2, h.n, rfl, ?_, ?_, ?_, ?_, ?_⟩, rfl, rfl, rfl, rfl, ?_⟩ <;> dsimp only [Nav.select]
        · omega
        · exact hm
        · omega
        · omega
        · exact hc
        · intro ht; rw [ht, hm]
    · rw [if_neg hc, if_neg hc]; exact hsame
  | up =>
    simp only [move, Nav.op]
    rw [h.pos]
    by_cases hc : s.sel > 0
    · rw [if_pos hc, if_pos hc]
      obtain ⟨E1, e1, i1⟩ := off_entries hsp h.ent (by omega)
      obtain ⟨E2, e2, i2⟩ := on_entries (b := s.sel - 1) i1 (by omega)
      simp only [bind, Option.bind, e1 m rfl, h.home, h.pos]
      by_cases hr : s.sel = s.home
      · rw [if_pos hr]
        dsimp only
        rw [e2 _ rfl]
        refine ⟨_, rfl, ⟨i2, h.n, h.rows, ?_, rfl, ?_, ?_, ?_⟩, rfl, rfl, rfl, rfl, ?_⟩ <;> dsimp only [Nav.select]
        · omega
        · omega
        · omega
        · omega
        · intro ht; rw [ht]
      · rw [if_neg hr]
        dsimp only
        rw [e2 _ rfl]
        refine ⟨_, rfl, ⟨i2, h.n, h.rows, ?_, rfl, ?_, ?_, ?_⟩, rfl, rfl, rfl, rfl, ?_⟩ <;> dsimp only [Nav.select]
        · omega
        · omega
        · omega
        · omega
        · intro ht; rw [ht]
    · rw [if_neg hc, if_neg hc]; exact hsame

/-- What a menu shows. -/
private def Drawn (P : Nat → Prop) (texts : List (List Char)) (sp : Nat) (vars : List Nat) (m : Menu) (s : Nav) (lines : List Line) : Prop :=
  lines.length = min s.rows (s.n - s.home) ∧ (∀ i line, lines[i]? = some line → line.row = i ∧ (line.mark = true ↔ s.home + i = s.sel) ∧
    ∃ text, texts[s.home + i]? = some text ∧ (text.length ≤ sp → line.text = some text) ∧ (P (s.home + i) → line.text = some (s.text text sp (s.home + i))) ∧
      ∃ v, vars[s.home + i]? = some v ∧ line.value = m.values v)

private theorem draw_inv {P : Nat → Prop} {texts : List (List Char)} {sp : Nat} {vars : List Nat} {m : Menu} {s : Nav} (hn : texts.length ≤ 255)
    (hl : ∀ t ∈ texts, t.length < 2 ^ 16) (hr : s.rows ≤ 255) (h : Inv P texts sp vars m s) :
    ∃ lines m', draw m = some (lines, m') ∧ Inv P texts sp vars m' (s.op .draw) ∧ m' = { m with entries := m'.entries } ∧ Drawn P texts sp vars m s lines := by
  have hS := h.sel
  have hN := h.n
  have hL := h.hle
  have hT := h.hlt
  have hlen := h.ent.len
  obtain ⟨l, m', r1, r2, r3, r4, r5, r6, r7⟩ := rows_spec (min m.maximal (m.entries.length - m.home)) 256 m m.entries.length 0 (le_refl _) rfl (by rw [h.rows]; omega)
  rw [h.rows, h.home, hlen] at r2 r3 r7
  refine ⟨l, m', ?_, ?_, r4, ?_, ?_⟩
  · unfold draw
    rw [if_neg (by rw [h.home]; omega), Nat.mod_eq_of_lt (by omega)]
    exact r1
  · refine ⟨⟨by rw [r5]; exact hlen, ?_, by rw [r6]; exact h.ent.vars⟩, h.n, by rw [r4]; exact h.rows, by rw [r4]; exact h.home, by rw [r4]; exact h.pos, hL, hT, hS⟩
    intro k e text hk ht
    rw [r7 k] at hk
    have hmem : text ∈ texts := List.mem_of_getElem? ht
    split at hk
    · rw [Option.map_eq_some_iff] at hk
      obtain ⟨e0, he0, rfl⟩ := hk
      exact (get_entry (hl text hmem) (h.ent.ok k e0 text he0 ht)).1
    · rename_i hc
      have h0 := h.ent.ok k e text hk ht
      have hne : ¬ some s.sel = some k := by
        intro hc2; cases hc2; apply hc; omega
      exact ⟨h0.1, fun hi hn' => ⟨fun hc2 => absurd hc2 hne, fun _ => (h0.2 hi hn').2 hne⟩⟩
  · rw [r2, Nat.sub_zero, h.n]
  · intro i line hi
    have hi' : i < min s.rows (texts.length - s.home) := by
      have := (List.getElem?_eq_some_iff.mp hi).1
      omega
    rw [r3 i (by omega), Nat.zero_add] at hi
    obtain ⟨e, text, he, ht, hmem, hok⟩ := at_ h.ent (k := s.home + i) (by omega)
    rw [he] at hi
    cases hi
    obtain ⟨_, g2, g3, g4⟩ := get_entry (hl text hmem) hok
    refine ⟨rfl, ?_, text, ht, g4, ?_, e.value, ?_, rfl⟩
    · simp only [lineOf, h.pos, h.home, decide_eq_true_eq]; omega
    · intro hP
      show e.text.getText.1 = _
      unfold Nav.text
      by_cases hc : s.home + i = s.sel
      · rw [if_pos hc, g2 (by rw [hc]) hP]
      · rw [if_neg hc, g3 (fun hc2 => hc (Option.some.inj hc2).symm) hP]
    · rw [← h.ent.vars, List.getElem?_map, he]; rfl

private theorem rows_op (s : Nav) (o : Op) : (s.op o).rows = s.rows := by
  cases o with
  | draw => rfl
  | press b =>
    cases b with
    | left => rfl
    | right => rfl
    | ok => rfl
    | down => simp only [Nav.op]; split <;> rfl
    | up => simp only [Nav.op]; split <;> rfl

private theorem append_entries {texts : List (List Char)} {sp : Nat} {vars : List Nat} {E : List Entry}
    (h : Entries (fun _ => True) texts sp vars E none 0) {text : List Char} {e : Entry} (he : EntryOk True text sp False 0 e.text) :
    Entries (fun _ => True) (texts ++ [text]) sp (vars ++ [e.value]) (E ++ [e]) none 0 where
  len := by simp [h.len]
  ok := by
    intro k e' text' hk ht
    by_cases hlt : k < texts.length
    · rw [List.getElem?_append_left (by rw [h.len]; exact hlt)] at hk
      rw [List.getElem?_append_left hlt] at ht
      exact h.ok k e' text' hk ht
    · rw [List.getElem?_append_right (by rw [h.len]; omega), List.getElem?_singleton] at hk
      rw [List.getElem?_append_right (by omega), List.getElem?_singleton] at ht
      split at hk
      · split at ht
        · cases hk; cases ht
          exact ⟨he.1, fun hi hn => ⟨fun hc => (by cases hc), fun _ => (he.2 hi hn).2 (fun h => h)⟩⟩
        · cases ht
      · cases hk
  vars := by simp [h.vars]

/-- an entry is made and copied into the list -/
private theorem made_entry {text : List Char} {sp : Nat} (hl : text.length < 2 ^ 16) (hsp : sp ≤ 255) :
    ∃ t t', Text.make text sp = some t ∧ t.copy = some t' ∧ EntryOk True text sp False 0 t' := by
  obtain ⟨t, e, h⟩ := make_sync hl (by omega) (Or.inl hsp)
  have h0 : Ok text sp { t with start := 0, print := fun _ => none } := h.ok
  obtain ⟨t', e', o, p, st, pr⟩ := printStart_ok h0 (Or.inl hsp)
  exact ⟨t, t', e, e', o, fun _ hn => ⟨fun hc => hc.elim, fun _ => ⟨by rw [p]; exact h.paused, st, pr hn⟩⟩⟩

private theorem space_eq {width : Nat} (h1 : 16 ≤ width) (h2 : width ≤ 1551) : ((((width : Int) - 16).tdiv 6 % 2 ^ 16).toNat) = (width - 16) / 6 := by
  rw [Int.tdiv_eq_ediv_of_nonneg (by omega)]; omega
private theorem space_eq' {width : Nat} (h1 : 52 ≤ width) (h2 : width ≤ 1587) : (((((width : Int) - 16).tdiv 6 - 6) % 2 ^ 16).toNat) = (width - 16) / 6 - 6 := by
  rw [Int.tdiv_eq_ediv_of_nonneg (by omega)]; omega
private theorem rows_eq {height : Nat} (h1 : 24 ≤ height) (h2 : height ≤ 2063) : (((height : Int) - 16).tdiv 8 % 256).toNat = (height - 16) / 8 := by
  rw [Int.tdiv_eq_ediv_of_nonneg (by omega)]; omega

private theorem entries0 (sp : Nat) : Entries (fun _ => True) [] sp [] [] none 0 := ⟨rfl, fun k e t h => (by simp at h), rfl⟩

private theorem standard_entries {width : Nat} (h1 : 16 ≤ width) (h2 : width ≤ 1551) (rest : List (List Char)) :
    ∀ (done : List (List Char)) (m : Menu), (∀ t ∈ rest, t.length < 2 ^ 16) → Entries (fun _ => True) done ((width - 16) / 6) (done.map fun _ => 0) m.entries none 0 →
    ∃ E, rest.foldlM (fun m t => addEntry m width t) m = some { m with entries := E } ∧
      Entries (fun _ => True) (done ++ rest) ((width - 16) / 6) ((done ++ rest).map fun _ => 0) E none 0 := by
  induction rest with
  | nil => intro done m _ h; exact ⟨m.entries, rfl, by simpa using h⟩
  | cons text rest ih =>
    intro done m hl h
    obtain ⟨t, t', e1, e2, he⟩ := made_entry (hl text List.mem_cons_self) (show (width - 16) / 6 ≤ 255 by omega)
    have ha : addEntry m width text = some { m with entries := m.entries ++ [{ text := t' }] } := by
      unfold addEntry; rw [space_eq h1 h2, e1]; simp [e2]
    have hE := append_entries h (e := { text := t' }) he
    obtain ⟨E, e3, h3⟩ := ih (done ++ [text]) { m with entries := m.entries ++ [{ text := t' }] } (fun t ht => hl t (List.mem_cons_of_mem _ ht)) (by simpa using hE)
    refine ⟨E, ?_, by simpa using h3⟩
    rw [List.foldlM_cons, ha]
    exact e3

private theorem choice_entries {width : Nat} (h1 : 52 ≤ width) (h2 : width ≤ 1587) (rest : List (List Char × Nat × Bool)) :
    ∀ (done : List (List Char × Nat × Bool)) (m : Menu) (sp : Option Nat), (sp = none ∨ sp = some ((width - 16) / 6 - 6)) → (∀ t ∈ rest, t.1.length < 2 ^ 16) →
      Entries (fun _ => True) (done.map Prod.fst) ((width - 16) / 6 - 6) (done.map (fun e => e.2.1)) m.entries none 0 → m.entries.map Entry.default_ = done.map (fun e => e.2.2) →
    ∃ E sp', rest.foldlM (fun p e => addChoice p.1 p.2 width e.1 e.2.1 e.2.2) (sp, m) = some (sp', { m with entries := E }) ∧
      Entries (fun _ => True) ((done ++ rest).map Prod.fst) ((width - 16) / 6 - 6) ((done ++ rest).map (fun e => e.2.1)) E none 0 ∧
      E.map Entry.default_ = (done ++ rest).map (fun e => e.2.2) := by
  induction rest with
  | nil => intro done m sp _ _ h hd; exact ⟨m.entries, sp, rfl, by simpa using h, by simpa using hd⟩
  | cons x rest ih =>
    intro done m sp hsp hl h hd
    obtain ⟨text, v, d⟩ := x
    obtain ⟨t, t', e1, e2, he⟩ := made_entry (hl (text, v, d) List.mem_cons_self) (show (width - 16) / 6 - 6 ≤ 255 by omega)
    dsimp only at e1 he
    have ha : addChoice sp m width text v d = some (some ((width - 16) / 6 - 6), { m with entries := m.entries ++ [⟨t', v, d⟩] }) := by
      unfold addChoice
      rw [space_eq' h1 h2]
      have : sp.getD ((width - 16) / 6 - 6) = (width - 16) / 6 - 6 := by rcases hsp with rfl | rfl <;> rfl
      rw [this]
      simp [e1, e2]
    have hE := append_entries h (e := ⟨t', v, d⟩) he
    obtain ⟨E, sp', e3, h3, h4⟩ := ih (done ++ [(text, v, d)]) { m with entries := m.entries ++ [⟨t', v, d⟩] } (some ((width - 16) / 6 - 6)) (Or.inr rfl)
      (fun t ht => hl t (List.mem_cons_of_mem _ ht)) (by simpa using hE) (by simp [hd])
    refine ⟨E, sp', ?_, by simpa using h3, by simpa using h4⟩
    rw [List.foldlM_cons, ha]
    exact e3

private theorem standard_run {texts : List (List Char)} {sp : Nat} {vars : List Nat} (hsp : sp ≤ 255) (hn : texts.length ≤ 255) (hl : ∀ t ∈ texts, t.length < 2 ^ 16)
    (ops : List Op) : ∀ (m : Menu) (s : Nav), s.rows ≤ 255 → Inv (fun k => k ≠ 0) texts sp vars m s → m.selected = s.told →
    ∃ m', run pressStandard m ops = some m' ∧ Inv (fun k => k ≠ 0) texts sp vars m' (s.ops ops) ∧ m'.selected = (s.ops ops).told ∧ m'.chosen = m.chosen ++ s.chosen ops ∧
      m'.alive = (m.alive && !decide (Op.press .left ∈ ops)) ∧ (s.ops ops).rows ≤ 255 := by
  induction ops with
  | nil => intro m s hr h ht; exact ⟨m, rfl, h, ht, by simp [Nav.chosen], by simp, hr⟩
  | cons o ops ih =>
    intro m s hr h ht
    have key : ∃ m1, step pressStandard m o = some m1 ∧ Inv (fun k => k ≠ 0) texts sp vars m1 (s.op o) ∧ m1.selected = (s.op o).told ∧
        m1.chosen = m.chosen ++ (if o = .press .right then [s.sel] else []) ∧ m1.alive = (m.alive && !decide (Op.press .left = o)) := by
      cases o with
      | draw =>
        obtain ⟨lines, m1, e, i, r, _⟩ := draw_inv hn hl hr h
        refine ⟨m1, by simp [step, e], i, by rw [r]; exact ht, by rw [r]; simp, by rw [r]; simp⟩
      | press b =>
        cases b with
        | left => exact ⟨_, rfl, ⟨h.ent, h.n, h.rows, h.home, h.pos, h.hle, h.hlt, h.sel⟩, ht, by simp, by simp⟩
        | ok => exact ⟨_, rfl, h, ht, by simp, by simp⟩
        | right =>
          obtain ⟨e, _, he, _⟩ := at_ h.ent (k := s.sel) (by rw [← h.n]; exact h.sel)
          have : step pressStandard m (.press .right) = some { m with chosen := m.chosen ++ [m.position] } := by
            simp [step, pressStandard, h.pos, he]
          exact ⟨_, this, ⟨h.ent, h.n, h.rows, h.home, h.pos, h.hle, h.hlt, h.sel⟩, ht, by simp [h.pos], by simp⟩
        | up =>
          obtain ⟨m1, e, i, a, b, c, d, f⟩ := move_inv hsp hn h .up
          exact ⟨m1, e, i, f ht, by simp [b], by simp [d]⟩
        | down =>
          obtain ⟨m1, e, i, a, b, c, d, f⟩ := move_inv hsp hn h .down
          exact ⟨m1, e, i, f ht, by simp [b], by simp [d]⟩
    obtain ⟨m1, e1, i1, t1, c1, a1⟩ := key
    obtain ⟨m2, e2, i2, t2, c2, a2, r2⟩ := ih m1 (s.op o) (by rw [rows_op]; exact hr) i1 t1
    refine ⟨m2, by simp [run, e1, e2], i2, t2, by rw [c2, c1]; simp [Nav.chosen], ?_, r2⟩
    rw [a2, a1]
    cases m.alive <;> simp

private theorem choice_run {texts : List (List Char)} {sp : Nat} {vars : List Nat} (hsp : sp ≤ 255) (hn : texts.length ≤ 255) (hl : ∀ t ∈ texts, t.length < 2 ^ 16)
    (ops : List Op) : ∀ (m : Menu) (s : Nav), s.rows ≤ 255 → Inv (fun _ => True) texts sp vars m s →
    ∃ m', run pressChoice m ops = some m' ∧ Inv (fun _ => True) texts sp vars m' (s.ops ops) ∧ m'.values = s.values (fun k => vars.getD k 0) m.values ops ∧
      m'.opened = m.opened + ops.count (.press .right) ∧
      m'.alive = (m.alive && !decide (Op.press .left ∈ ops)) ∧ (s.ops ops).rows ≤ 255 := by
  induction ops with
  | nil => intro m s hr h; exact ⟨m, rfl, h, rfl, by simp, by simp, hr⟩
  | cons o ops ih =>
    intro m s hr h
    have key : ∃ m1, step pressChoice m o = some m1 ∧ Inv (fun _ => True) texts sp vars m1 (s.op o) ∧
        m1.values = (if o = .press .ok then (fun a => if a = vars.getD s.sel 0 then !m.values a else m.values a) else m.values) ∧
        m1.opened = m.opened + (if o = .press .right then 1 else 0) ∧ m1.alive = (m.alive && !decide (Op.press .left = o)) := by
      cases o with
      | draw =>
        obtain ⟨lines, m1, e, i, r, _⟩ := draw_inv hn hl hr h
        refine ⟨m1, by simp [step, e], i, by rw [r]; simp, by rw [r]; simp, by rw [r]; simp⟩
      | press b =>
        cases b with
        | left => exact ⟨_, rfl, ⟨h.ent, h.n, h.rows, h.home, h.pos, h.hle, h.hlt, h.sel⟩, by simp, by simp, by simp⟩
        | right => exact ⟨_, rfl, ⟨h.ent, h.n, h.rows, h.home, h.pos, h.hle, h.hlt, h.sel⟩, by simp, by simp, by simp⟩
        | ok =>
          obtain ⟨e, _, he, _⟩ := at_ h.ent (k := s.sel) (by rw [← h.n]; exact h.sel)
          have : step pressChoice m (.press .ok) = some { m with values := Function.update m.values e.value (!m.values e.value), buttonAction := true } := by
            simp [step, pressChoice, h.pos, he]
          refine ⟨_, this, ⟨h.ent, h.n, h.rows, h.home, h.pos, h.hle, h.hlt, h.sel⟩, ?_, by simp, by simp⟩
          have hv : vars.getD s.sel 0 = e.value := by
            rw [← h.ent.vars, List.getD_eq_getElem?_getD, List.getElem?_map, he]; rfl
          dsimp only
          rw [if_pos rfl, hv]
          funext a
          by_cases ha : a = e.value
          · subst ha; simp
          · simp [Function.update_of_ne ha, ha]
        | up =>
          obtain ⟨m1, e, i, a, b, c, d, f⟩ := move_inv hsp hn h .up
          refine ⟨{ m1 with selected := m.selected }, by simp [step, pressChoice, e], ⟨i.ent, i.n, i.rows, i.home, i.pos, i.hle, i.hlt, i.sel⟩, by simp [a], by simp [c], by simp [d]⟩
        | down =>
          obtain ⟨m1, e, i, a, b, c, d, f⟩ := move_inv hsp hn h .down
          refine ⟨{ m1 with selected := m.selected }, by simp [step, pressChoice, e], ⟨i.ent, i.n, i.rows, i.home, i.pos, i.hle, i.hlt, i.sel⟩, by simp [a], by simp [c], by simp [d]⟩
    obtain ⟨m1, e1, i1, v1, c1, a1⟩ := key
    obtain ⟨m2, e2, i2, v2, c2, a2, r2⟩ := ih m1 (s.op o) (by rw [rows_op]; exact hr) i1
    refine ⟨m2, by simp [run, e1, e2], i2, by rw [v2, v1]; rfl, ?_, ?_, r2⟩
    · rw [c2, c1, List.count_cons]
      simp only [beq_iff_eq]
      omega
    · rw [a2, a1]
      cases m.alive <;> simp

private theorem marked {P : Nat → Prop} {texts : List (List Char)} {sp : Nat} {vars : List Nat} {m m0 : Menu} {s : Nav} {lines : List Line} (h : Inv P texts sp vars m0 s)
    (hd : Drawn P texts sp vars m s lines) : ∃ line, lines[s.sel - s.home]? = some line ∧ line.mark = true := by
  have hlt : s.sel - s.home < lines.length := by
    have h1 := h.hle; have h2 := h.hlt; have h3 := h.sel
    rw [hd.1]; omega
  refine ⟨lines[s.sel - s.home], List.getElem?_eq_getElem hlt, ?_⟩
  have := (hd.2 _ _ (List.getElem?_eq_getElem hlt)).2.1
  rw [this]
  have h1 := h.hle
  omega

private theorem standard_all (width height : Nat) (texts : List (List Char)) (ops : List Op) (hw1 : 16 ≤ width) (hw2 : width ≤ 1551) (hh1 : 24 ≤ height) (hh2 : height ≤ 2063)
    (hn0 : texts ≠ []) (hn : texts.length ≤ 255) (hl : ∀ t ∈ texts, t.length < 2 ^ 16) :
    ∃ m0 m lines m', standard width height texts = some m0 ∧ run pressStandard m0 ops = some m ∧ draw m = some (lines, m') ∧
      Inv (fun k => k ≠ 0) texts ((width - 16) / 6) (texts.map fun _ => 0) m (Nav.ops ⟨texts.length, (height - 16) / 8, 0, 0, 0, []⟩ ops) ∧
      Drawn (fun k => k ≠ 0) texts ((width - 16) / 6) (texts.map fun _ => 0) m (Nav.ops ⟨texts.length, (height - 16) / 8, 0, 0, 0, []⟩ ops) lines ∧
      m.selected = (Nav.ops ⟨texts.length, (height - 16) / 8, 0, 0, 0, []⟩ ops).told ∧ m.chosen = Nav.chosen ⟨texts.length, (height - 16) / 8, 0, 0, 0, []⟩ ops ∧
      m.alive = !decide (Op.press .left ∈ ops) := by
  have hpos : 0 < texts.length := List.length_pos_iff.mpr hn0
  obtain ⟨E, e0, hE⟩ := standard_entries hw1 hw2 texts [] (make height) hl (entries0 _)
  rw [List.nil_append] at hE
  have hI : Inv (fun k => k ≠ 0) texts ((width - 16) / 6) (texts.map fun _ => 0) { make height with entries := E } ⟨texts.length, (height - 16) / 8, 0, 0, 0, []⟩ := by
    refine ⟨⟨hE.len, ?_, hE.vars⟩, rfl, rows_eq hh1 hh2, rfl, rfl, Nat.le_refl 0, ?_, hpos⟩
    · intro k e text hk ht
      have := hE.ok k e text hk ht
      refine ⟨this.1, fun hi hn => ⟨fun hc => ?_, fun _ => (this.2 trivial hn).2 (by simp)⟩⟩
      have : (0 : Nat) = k := Option.some.inj hc
      exact absurd this.symm hi
    · dsimp only; omega
  obtain ⟨m, e1, i1, t1, c1, a1, r1⟩ := standard_run (by omega) hn hl ops _ _ (by dsimp only; omega) hI rfl
  obtain ⟨lines, m', e2, _, _, d⟩ := draw_inv hn hl r1 i1
  exact ⟨_, m, lines, m', e0, e1, e2, i1, d, t1, by rw [c1]; rfl, by rw [a1]; rfl⟩

/-- C191 for menus of 1 to 255 entries, on displays of 24 to 2063 pixels and texts of at most 255 letters: whatever buttons are pressed, UP and DOWN select the entry before and after, which is told;
the selected entry is among those drawn, and it is the only one that is marked; rows show entries in order, and the last entry is followed by nothing; RIGHT calls what belongs to the selected entry,
LEFT removes the menu. -/
theorem C191_standard_partial (width height : Nat) (texts : List (List Char)) (ops : List Op) (hw1 : 16 ≤ width) (hw2 : width ≤ 1551) (hh1 : 24 ≤ height) (hh2 : height ≤ 2063)
    (hn0 : texts ≠ []) (hn : texts.length ≤ 255) (hl : ∀ t ∈ texts, t.length < 2 ^ 16) (s0 s : Nav) (hs0 : s0 = { n := texts.length, rows := (height - 16) / 8 }) (hs : s = s0.ops ops) :
    ∃ m0 m lines m', standard width height texts = some m0 ∧ run pressStandard m0 ops = some m ∧ draw m = some (lines, m') ∧
      m.selected = s.told ∧ m.chosen = s0.chosen ops ∧ (m.alive = false ↔ Op.press .left ∈ ops) ∧
      lines.length = min s.rows (s.n - s.home) ∧ (∃ line, lines[s.sel - s.home]? = some line ∧ line.mark = true) ∧
      ∀ i line, lines[i]? = some line → line.row = i ∧ (line.mark = true ↔ s.home + i = s.sel) ∧
        ∃ text, texts[s.home + i]? = some text ∧ (text.length ≤ (width - 16) / 6 → line.text = some text) := by
  subst hs0; subst hs
  obtain ⟨m0, m, lines, m', e0, e1, e2, i, d, t, c, a⟩ := standard_all width height texts ops hw1 hw2 hh1 hh2 hn0 hn hl
  refine ⟨m0, m, lines, m', e0, e1, e2, t, c, by rw [a]; simp, d.1, marked i d, ?_⟩
  intro j line hj
  obtain ⟨x, y, text, z, u, _⟩ := d.2 j line hj
  exact ⟨x, y, text, z, u⟩

/-- C192 for all entries of a `StandardMenu` but the first: the selected entry scrolls by a letter each time the menu is drawn, from its beginning, and others show their beginning. -/
theorem C192_standard_partial (width height : Nat) (texts : List (List Char)) (ops : List Op) (hw1 : 16 ≤ width) (hw2 : width ≤ 1551) (hh1 : 24 ≤ height) (hh2 : height ≤ 2063)
    (hn0 : texts ≠ []) (hn : texts.length ≤ 255) (hl : ∀ t ∈ texts, t.length < 2 ^ 16) (s : Nav) (hs : s = Nav.ops { n := texts.length, rows := (height - 16) / 8 } ops) :
    ∃ m0 m lines m', standard width height texts = some m0 ∧ run pressStandard m0 ops = some m ∧ draw m = some (lines, m') ∧
      ∀ i line, lines[i]? = some line → s.home + i ≠ 0 → ∃ text, texts[s.home + i]? = some text ∧ line.text = some (s.text text ((width - 16) / 6) (s.home + i)) := by
  subst hs
  obtain ⟨m0, m, lines, m', e0, e1, e2, i, d, t, c, a⟩ := standard_all width height texts ops hw1 hw2 hh1 hh2 hn0 hn hl
  refine ⟨m0, m, lines, m', e0, e1, e2, ?_⟩
  intro j line hj h0
  obtain ⟨x, y, text, z, u, v, _⟩ := d.2 j line hj
  exact ⟨text, z, v h0⟩

private theorem preset_foldl (l : List (List Char × Nat × Bool)) (E : List Entry) (h1 : E.map Entry.value = l.map (fun e => e.2.1)) (h2 : E.map Entry.default_ = l.map (fun e => e.2.2)) :
    E.foldl (fun f e => Function.update f e.value e.default_) (fun _ => false) = preset l := by
  induction l using List.reverseRecOn generalizing E with
  | nil => cases E with
    | nil => rfl
    | cons a E => simp at h1
  | append_singleton l x ih =>
    rcases List.eq_nil_or_concat E with rfl | ⟨E', e, rfl⟩
    · simp at h1
    · simp only [List.map_append, List.map_cons, List.map_nil, List.concat_eq_append] at h1 h2
      have g1 := List.append_inj' h1 rfl
      have g2 := List.append_inj' h2 rfl
      rw [List.concat_eq_append, List.foldl_append, ih E' g1.1 g2.1]
      have hv : e.value = x.2.1 := by simpa using g1.2
      have hd : e.default_ = x.2.2 := by simpa using g2.2
      funext v
      simp only [List.foldl_cons, List.foldl_nil, hv, hd, preset, List.filter_append]
      by_cases hc : v = x.2.1
      · subst hc; simp
      · simp [Function.update_of_ne hc, Ne.symm hc, preset]

private theorem choice_all (space : Option Nat) (width height : Nat) (entries : List (List Char × Nat × Bool)) (ops : List Op) (hs : space = none ∨ space = some ((width - 16) / 6 - 6))
    (hw1 : 52 ≤ width) (hw2 : width ≤ 1587) (hh1 : 24 ≤ height) (hh2 : height ≤ 2063) (hn0 : entries ≠ []) (hn : entries.length ≤ 255) (hl : ∀ t ∈ entries, t.1.length < 2 ^ 16) :
    ∃ sp m0 m lines m', choice space width height entries = some (sp, m0) ∧ run pressChoice m0 ops = some m ∧ draw m = some (lines, m') ∧
      Inv (fun _ => True) (entries.map Prod.fst) ((width - 16) / 6 - 6) (entries.map fun e => e.2.1) m (Nav.ops ⟨entries.length, (height - 16) / 8, 0, 0, 0, []⟩ ops) ∧
      Drawn (fun _ => True) (entries.map Prod.fst) ((width - 16) / 6 - 6) (entries.map fun e => e.2.1) m (Nav.ops ⟨entries.length, (height - 16) / 8, 0, 0, 0, []⟩ ops) lines ∧
      m.values = Nav.values (fun k => (entries.map fun e => e.2.1).getD k 0) ⟨entries.length, (height - 16) / 8, 0, 0, 0, []⟩ (preset entries) ops ∧
      m.opened = ops.count (.press .right) ∧ m.alive = !decide (Op.press .left ∈ ops) := by
  have hpos : 0 < entries.length := List.length_pos_iff.mpr hn0
  obtain ⟨E, sp, e0, hE, hD⟩ := choice_entries hw1 hw2 entries [] (make height) space hs hl (entries0 _) rfl
  rw [List.nil_append] at hE hD
  have hval : E.foldl (fun f e => Function.update f e.value e.default_) (make height).values = preset entries := preset_foldl entries E hE.vars hD
  cases E with
  | nil => have := hE.len; simp at this; omega
  | cons e E =>
    obtain ⟨e', text, he, ht, _, hok⟩ := at_ hE (k := 0) (by simpa using hpos)
    have : e' = e := (Option.some.inj he).symm
    subst this
    obtain ⟨f, hf, hfok, hfv⟩ : ∃ f, f = (if e'.text.needsScrolling then { e' with text := e'.text.toogle } else e') ∧
        EntryOk True text ((width - 16) / 6 - 6) (some 0 = some 0) 0 f.text ∧ f = { e' with text := f.text } := by
      by_cases hsn : (width - 16) / 6 - 6 < text.length
      · refine ⟨_, rfl, ?_, ?_⟩
        · rw [if_pos ((needs_iff hok.1).mpr hsn)]
          obtain ⟨x, y, _⟩ := (hok.2 trivial hsn).2 (by simp)
          exact ⟨hok.1, fun _ _ => ⟨fun _ => by simp [Text.toogle, x, y], fun hc => absurd rfl hc⟩⟩
        · split <;> rfl
      · refine ⟨_, rfl, ?_, ?_⟩
        · rw [if_neg (fun hc => hsn ((needs_iff hok.1).mp hc))]
          exact ⟨hok.1, fun _ h => absurd h hsn⟩
        · split <;> rfl
    have hset := set_entries (sel' := some 0) (age' := 0) hE he ht hfok (by
      intro j x tx hj hj1 hj2
      have := hE.ok j x tx hj1 hj2
      exact ⟨this.1, fun hi hn => ⟨fun hc => absurd (Option.some.inj hc).symm hj, fun _ => (this.2 hi hn).2 (by simp)⟩⟩)
    rw [List.set_cons_zero, ← hfv] at hset
    have hI : Inv (fun _ => True) (entries.map Prod.fst) ((width - 16) / 6 - 6) (entries.map fun e => e.2.1)
        { make height with entries := f :: E, values := preset entries, position := 0, home := 0 } ⟨entries.length, (height - 16) / 8, 0, 0, 0, []⟩ := by
      refine ⟨hset, by simp, rows_eq hh1 hh2, rfl, rfl, Nat.le_refl 0, ?_, hpos⟩
      dsimp only; omega
    obtain ⟨m, e1, i1, v1, c1, a1, r1⟩ := choice_run (by omega) (by simpa using hn) (by intro t ht; obtain ⟨x, hx, rfl⟩ := List.mem_map.mp ht; exact hl x hx) ops _ _ (by dsimp only; omega) hI
    obtain ⟨lines, m', e2, _, _, d⟩ := draw_inv (by simpa using hn) (by intro t ht; obtain ⟨x, hx, rfl⟩ := List.mem_map.mp ht; exact hl x hx) r1 i1
    refine ⟨sp, _, m, lines, m', ?_, e1, e2, i1, d, v1, by rw [c1]; exact Nat.zero_add _, by rw [a1]; rfl⟩
    unfold choice
    rw [e0]
    simp only [Option.bind_eq_bind, Option.bind_some, initialise, hval, ← hf]

/-- C191 for menus of choices, as for other menus: OK changes the value of the selected entry, RIGHT opens the next screen, and rows show the values of their entries. -/
theorem C191_choice_partial (space : Option Nat) (width height : Nat) (entries : List (List Char × Nat × Bool)) (ops : List Op) (hs : space = none ∨ space = some ((width - 16) / 6 - 6))
    (hw1 : 52 ≤ width) (hw2 : width ≤ 1587) (hh1 : 24 ≤ height) (hh2 : height ≤ 2063) (hn0 : entries ≠ []) (hn : entries.length ≤ 255) (hl : ∀ t ∈ entries, t.1.length < 2 ^ 16)
    (s0 s : Nav) (hs0 : s0 = { n := entries.length, rows := (height - 16) / 8 }) (hs1 : s = s0.ops ops)
    (values : Nat → Bool) (hv : values = s0.values (fun k => (entries.map fun e => e.2.1).getD k 0) (preset entries) ops) :
    ∃ sp m0 m lines m', choice space width height entries = some (sp, m0) ∧ run pressChoice m0 ops = some m ∧ draw m = some (lines, m') ∧
      m.values = values ∧ m.opened = ops.count (.press .right) ∧ (m.alive = false ↔ Op.press .left ∈ ops) ∧
      lines.length = min s.rows (s.n - s.home) ∧ (∃ line, lines[s.sel - s.home]? = some line ∧ line.mark = true) ∧
      ∀ i line, lines[i]? = some line → line.row = i ∧ (line.mark = true ↔ s.home + i = s.sel) ∧
        ∃ e, entries[s.home + i]? = some e ∧ line.value = values e.2.1 ∧ (e.1.length ≤ (width - 16) / 6 - 6 → line.text = some e.1) := by
  subst hs0; subst hs1; subst hv
  obtain ⟨sp, m0, m, lines, m', e0, e1, e2, i, d, v, c, a⟩ := choice_all space width height entries ops hs hw1 hw2 hh1 hh2 hn0 hn hl
  refine ⟨sp, m0, m, lines, m', e0, e1, e2, v, c, by rw [a]; simp, d.1, marked i d, ?_⟩
  intro j line hj
  obtain ⟨x, y, text, z, u, _, va, hva, hval⟩ := d.2 j line hj
  rw [List.getElem?_map, Option.map_eq_some_iff] at z hva
  obtain ⟨en, hen, rfl⟩ := z
  rw [hen] at hva
  obtain ⟨_, h1, rfl⟩ := hva
  cases h1
  exact ⟨x, y, en, hen, by rw [hval, v], u⟩

/-- C192 for menus of choices that were initialised once. -/
theorem C192_choice_partial (space : Option Nat) (width height : Nat) (entries : List (List Char × Nat × Bool)) (ops : List Op) (hs : space = none ∨ space = some ((width - 16) / 6 - 6))
    (hw1 : 52 ≤ width) (hw2 : width ≤ 1587) (hh1 : 24 ≤ height) (hh2 : height ≤ 2063) (hn0 : entries ≠ []) (hn : entries.length ≤ 255) (hl : ∀ t ∈ entries, t.1.length < 2 ^ 16)
    (s : Nav) (hs1 : s = Nav.ops { n := entries.length, rows := (height - 16) / 8 } ops) :
    ∃ sp m0 m lines m', choice space width height entries = some (sp, m0) ∧ run pressChoice m0 ops = some m ∧ draw m = some (lines, m') ∧
      ∀ i line, lines[i]? = some line → ∃ e, entries[s.home + i]? = some e ∧ line.text = some (s.text e.1 ((width - 16) / 6 - 6) (s.home + i)) := by
  subst hs1
  obtain ⟨sp, m0, m, lines, m', e0, e1, e2, i, d, v, c, a⟩ := choice_all space width height entries ops hs hw1 hw2 hh1 hh2 hn0 hn hl
  refine ⟨sp, m0, m, lines, m', e0, e1, e2, ?_⟩
  intro j line hj
  obtain ⟨x, y, text, z, u, w, _⟩ := d.2 j line hj
  rw [List.getElem?_map, Option.map_eq_some_iff] at z
  obtain ⟨en, hen, rfl⟩ := z
  exact ⟨en, hen, w trivial⟩

private def lines3 : List (List Char) := ["a".toList, "battery".toList, "charger".toList]

/-- A display of 46 by 32 pixels: two rows of five letters. -/
example : (do
      let m ← standard 46 32 lines3
      let m ← run pressStandard m [.draw, .press .down, .press .up, .press .down, .press .down, .draw, .draw, .press .right, .press .down]
      let (l, _) ← draw m
      some (m.selected, m.chosen, l)) = some ([1, 0, 1, 2], [2], [⟨0, false, some "batte".toList, false⟩, ⟨1, true, some "arger".toList, false⟩]) := by
  decide +kernel

example : ∃ m0 m lines m', standard 46 32 lines3 = some m0 ∧ run pressStandard m0 [.press .down, .draw] = some m ∧ draw m = some (lines, m') ∧
    ∀ i line, lines[i]? = some line → i ≠ 0 → ∃ text, lines3[i]? = some text ∧ line.text = some (if i = 1 then window text 5 1 else shown text 5 0) := by
  obtain ⟨m0, m, lines, m', h1, h2, h3, h4⟩ := C192_standard_partial 46 32 lines3 [.press .down, .draw] (by decide) (by decide) (by decide) (by decide) (by decide) (by decide) (by decide) _ rfl
  refine ⟨m0, m, lines, m', h1, h2, h3, fun i line hi hi0 => ?_⟩
  obtain ⟨text, ht, hx⟩ := h4 i line hi (by show 0 + i ≠ 0; omega)
  rw [show (Nav.ops { n := lines3.length, rows := (32 - 16) / 8 } [.press .down, .draw]).home = 0 from rfl, Nat.zero_add] at ht hx
  refine ⟨text, ht, ?_⟩
  rw [hx]
  unfold Nav.text
  rw [show (Nav.ops { n := lines3.length, rows := (32 - 16) / 8 } [.press .down, .draw]).sel = 1 from rfl]
  split
  · rename_i h; subst h
    cases ht; rfl
  · rfl

/-- Two entries that change the same variable, one that changes another; 82 by 32 pixels: two rows of five letters. -/
example : (do
      let (_, m) ← choice none 82 32 [("battery".toList, 5, true), ("b".toList, 6, false), ("charger".toList, 5, false)]
      let m ← run pressChoice m [.draw, .press .ok, .press .down, .draw, .press .ok, .press .ok, .press .ok, .press .right, .press .up]
      let (l, _) ← draw m
      some (m.opened, l)) = some (1, [⟨0, true, some "batte".toList, true⟩, ⟨1, false, some "b".toList, true⟩]) := by
  decide +kernel

/-- C191 is false for 256 entries: nothing is drawn; and beyond the selection starts over, with the rows elsewhere. -/
theorem C191_many_counterexample (m : Menu) (h : m.entries.length = 256) (hh : m.home ≤ 256) : draw m = some ([], m) := by
  unfold draw
  rw [if_neg (by omega), h]
  unfold drawRows
  split
  · rw [if_pos (by omega)]
  · rfl

/-- C191 is false for menus without entries: RIGHT, OK of choices, and `initialise` follow a null pointer. -/
theorem C191_empty_counterexample : pressStandard (make 64) .right = none ∧ pressChoice (make 64) .ok = none ∧ initialise (make 64) = none := ⟨rfl, rfl, rfl⟩

/-- C191 is false at either end of a menu, where `selectedEntryFunction` is not called "always after UP or DOWN". -/
theorem C191_ends_counterexample : (do
    let m ← standard 46 32 ["a".toList]
    let m ← run pressStandard m [.press .down, .press .up]
    some m.selected) = some [] := by decide +kernel

/-- C192 is false for the first entry of a `StandardMenu`: it does not scroll when it is selected, and scrolls when another one is. -/
theorem C192_first_counterexample : (do
    let m ← standard 46 32 ["battery".toList, "charger".toList]
    let (_, m) ← draw m
    let (l1, _) ← draw m
    let m ← pressStandard m .down
    let (_, m) ← draw m
    let (l2, _) ← draw m
    some (l1.map (fun l => (l.mark, l.text)), l2.map (fun l => (l.mark, l.text)))) =
    some ([(true, some "batte".toList), (false, some "charg".toList)], [(false, some "atter".toList), (true, some "harge".toList)]) := by
  decide +kernel

/-- C192 is false for a menu of choices that is initialised again: the entry that was selected goes on; when it was the first, it stops. -/
theorem C192_again_counterexample : (do
    let (_, m) ← choice none 82 32 [("battery".toList, 5, true), ("charger".toList, 6, true)]
    let m ← run pressChoice m [.press .down, .draw]
    let m ← initialise m
    let (_, m) ← draw m
    let (l, _) ← draw m
    some (l.map (fun l => (l.mark, l.text)))) = some [(true, some "atter".toList), (false, some "arger".toList)] ∧
    (do
    let (_, m) ← choice none 82 32 [("battery".toList, 5, true), ("charger".toList, 6, true)]
    let m ← initialise m
    let (_, m) ← draw m
    let (l, _) ← draw m
    some (l.map (fun l => (l.mark, l.text)))) = some [(true, some "batte".toList), (false, some "charg".toList)] := by
  constructor <;> decide +kernel

/-- C192 is false for menus of choices on a second display: texts have the space of the first one. -/
theorem C192_display_counterexample : (do
    let (sp, _) ← choice none 160 32 [("a".toList, 5, true)]
    let (_, m) ← choice sp 82 32 [("battery charger".toList, 5, true)]
    let (l, _) ← draw m
    some (l.map Line.text)) = some [some "battery charger".toList] := by
  decide +kernel

end Props.Menu
