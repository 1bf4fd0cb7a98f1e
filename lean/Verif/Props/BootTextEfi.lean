import Verif.Props.BootText
import Mathlib.Tactic.Tauto

/-!
# C64: command lines and output of `efibootmgr`
-/

namespace Rauc.BootText
open Rauc.Boot

/-- a boot entry number as `efibootmgr` prints it: four hex digits -/
def Hex4 (n : Str) : Prop := n.length = 4 ∧ ∀ c ∈ n, c ∈ c!"0123456789abcdefABCDEF"

/-- what the parser takes for a hex digit is one -/
theorem isHex_iff (c : Char) : isHex c = true ↔ c ∈ c!"0123456789abcdefABCDEF" := by
  constructor
  · intro h
    have hz : ∀ n : Nat, n < 128 → isHex (Char.ofNat n) = true → Char.ofNat n ∈ c!"0123456789abcdefABCDEF" := by decide
    have hl : c.toNat < 128 := by
      unfold isHex digitVal at h
      have e9 : ('9' : Char).toNat = 57 := rfl
      have ez : ('z' : Char).toNat = 122 := rfl
      have eZ : ('Z' : Char).toNat = 90 := rfl
      split at h
      · rename_i v hv
        split at hv
        · rename_i hc; have : c.toNat ≤ ('9' : Char).toNat := hc.2; omega
        · split at hv
          · rename_i hc; have : c.toNat ≤ ('z' : Char).toNat := hc.2; omega
          · split at hv
            · rename_i hc; have : c.toNat ≤ ('Z' : Char).toNat := hc.2; omega
            · cases hv
      · cases h
    have := hz c.toNat hl
    rw [Char.ofNat_toNat] at this
    exact this h
  · intro h
    have hd : ∀ c ∈ c!"0123456789abcdefABCDEF", isHex c = true := by decide
    exact hd c h

theorem Hex4.cases {n : Str} (h : Hex4 n) : ∃ a b c d, n = [a, b, c, d] ∧ isHex a = true ∧ isHex b = true ∧ isHex c = true ∧ isHex d = true := by
  match n, h with
  | [a, b, c, d], h => exact ⟨a, b, c, d, rfl, (isHex_iff a).2 (h.2 a (by simp)), (isHex_iff b).2 (h.2 b (by simp)), (isHex_iff c).2 (h.2 c (by simp)), (isHex_iff d).2 (h.2 d (by simp))⟩
  | [], h => exact absurd h.1 (by simp)
  | [_], h => exact absurd h.1 (by simp)
  | [_, _], h => exact absurd h.1 (by simp)
  | [_, _, _], h => exact absurd h.1 (by simp)
  | _ :: _ :: _ :: _ :: _ :: _, h => exact absurd h.1 (by simp)

/-- no character at which the parser sees a line end -/
def NoNl (s : Str) : Prop := ∀ c ∈ s, isNl c = false

/-- boot entries which can be told apart in the output: no tab and no line end in the name, no empty line -/
structure EntryOk (e : EfiVar) : Prop where
  num : Hex4 e.num
  tab : '\t' ∉ e.name
  name : NoNl e.name
  path : ∀ p, e.path = some p → NoNl p
  shown : e.name ≠ [] ∨ e.path ≠ none

structure EfiOk (v : EfiVars) : Prop where
  entries : ∀ e ∈ v.entries, EntryOk e
  order : ∀ n ∈ v.order, Hex4 n
  next : ∀ n, v.next = some n → Hex4 n
  current : ∀ n, v.current = some n → Hex4 n
  extra : ∀ l ∈ v.extra, NoNl l ∧ ¬ c!"Boot" <+: l

theorem linesAux_nonl (t : Str) (ht : NoNl t) (acc r : Str) : linesAux acc (t ++ r) = linesAux (acc ++ t) r := by
  induction t generalizing acc with
  | nil => simp
  | cons c cs ih =>
    simp only [List.cons_append, linesAux, ht c (by simp), Bool.false_eq_true, if_false]
    rw [ih (fun x hx => ht x (List.mem_cons_of_mem _ hx))]
    simp

theorem linesAux_flatten (ls : List Str) (h : ∀ l ∈ ls, NoNl l) : linesAux [] ((ls.map (· ++ c!"\n")).flatten) = ls ++ [[]] := by
  induction ls with
  | nil => rfl
  | cons l ls ih =>
    simp only [List.map_cons, List.flatten_cons, List.append_assoc]
    rw [linesAux_nonl l (h l (by simp))]
    simp only [List.cons_append, List.nil_append, linesAux, show isNl '\n' = true from by decide, if_true]
    rw [ih (fun x hx => h x (List.mem_cons_of_mem _ hx))]

theorem hex_nonl {c : Char} (h : isHex c = true) : isNl c = false ∧ c ≠ ',' ∧ BootName.isSp c = false := by
  have hd : ∀ c : Char, isNl c = true ∨ c = ',' ∨ BootName.isSp c = true → isHex c = false := by
    intro c hc
    have : c = '\n' ∨ c = '\r' ∨ c = Char.ofNat 11 ∨ c = Char.ofNat 12 ∨ c = ',' ∨ c = ' ' ∨ c = '\t' := by
      simp only [isNl, BootName.isSp, isSpace, Bool.or_eq_true, beq_iff_eq] at hc
      tauto
    rcases this with rfl | rfl | rfl | rfl | rfl | rfl | rfl <;> decide
  refine ⟨?_, ?_, ?_⟩
  · apply Bool.eq_false_iff.2; intro h'; rw [hd c (Or.inl h')] at h; cases h
  · intro h'; rw [hd c (Or.inr (Or.inl h'))] at h; cases h
  · apply Bool.eq_false_iff.2; intro h'; rw [hd c (Or.inr (Or.inr h'))] at h; cases h

theorem Hex4.nonl {n : Str} (h : Hex4 n) : NoNl n := fun c hc => (hex_nonl ((isHex_iff c).2 (h.2 c hc))).1
theorem Hex4.nocomma {n : Str} (h : Hex4 n) : ',' ∉ n := fun hm => (hex_nonl ((isHex_iff _).2 (h.2 _ hm))).2.1 rfl
theorem Hex4.ne_nil {n : Str} (h : Hex4 n) : n ≠ [] := by intro e; have := h.1; rw [e] at this; cases this

theorem NoNl.append {a b : Str} (ha : NoNl a) (hb : NoNl b) : NoNl (a ++ b) := by
  intro c hc
  rcases List.mem_append.1 hc with h | h
  · exact ha c h
  · exact hb c h

theorem nonl_of {s : Str} (h : s.all (fun c => !isNl c) = true) : NoNl s := by
  intro c hc
  have := List.all_eq_true.1 h c hc
  simpa using this

theorem join_chars {d : Char} (ts : List Str) {c : Char} (h : c ∈ join d ts) : c = d ∨ ∃ t ∈ ts, c ∈ t := by
  induction ts with
  | nil => simp [join] at h
  | cons t ts ih =>
    cases ts with
    | nil => simp only [join] at h; exact Or.inr ⟨t, by simp, h⟩
    | cons u us =>
      simp only [join, List.mem_append, List.mem_cons] at h
      rcases h with h | h | h
      · exact Or.inr ⟨t, by simp, h⟩
      · exact Or.inl h
      · rcases ih h with h | ⟨x, hx, hc⟩
        · exact Or.inl h
        · exact Or.inr ⟨x, List.mem_cons_of_mem _ hx, hc⟩

/-! ### the lines of the tool -/

def nextLines (v : EfiVars) : List Str := v.next.toList.map (c!"BootNext: " ++ ·)
def currentLines (v : EfiVars) : List Str := v.current.toList.map (c!"BootCurrent: " ++ ·)
def orderLines (v : EfiVars) : List Str := if v.order.isEmpty then [] else [c!"BootOrder: " ++ join ',' v.order]

theorem lines_eq (v : EfiVars) : v.lines = nextLines v ++ currentLines v ++ v.extra ++ orderLines v ++ v.entries.map EfiVar.line := rfl

theorem line_nonl {e : EfiVar} (h : EntryOk e) : NoNl e.line := by
  unfold EfiVar.line
  refine NoNl.append (NoNl.append (NoNl.append (NoNl.append (NoNl.append (nonl_of (by decide)) h.num.nonl) ?_) (nonl_of (by decide))) h.name) ?_
  · cases e.active <;> exact nonl_of (by decide)
  · cases hp : e.path with
    | none => exact nonl_of (by decide)
    | some p =>
      intro c hc
      rcases List.mem_cons.1 hc with rfl | hc
      · decide
      · exact h.path p hp c hc

theorem order_nonl {v : EfiVars} (h : EfiOk v) : NoNl (join ',' v.order) := by
  intro c hc
  rcases join_chars _ hc with rfl | ⟨t, ht, hc⟩
  · decide
  · exact (h.order t ht).nonl c hc

theorem lines_nonl {v : EfiVars} (h : EfiOk v) : ∀ l ∈ v.lines, NoNl l := by
  intro l hl
  rw [lines_eq] at hl
  simp only [List.mem_append] at hl
  rcases hl with (((hl | hl) | hl) | hl) | hl
  · obtain ⟨n, hn, rfl⟩ := List.mem_map.1 hl
    exact NoNl.append (nonl_of (by decide)) (h.next n (by simpa using hn)).nonl
  · obtain ⟨n, hn, rfl⟩ := List.mem_map.1 hl
    exact NoNl.append (nonl_of (by decide)) (h.current n (by simpa using hn)).nonl
  · exact (h.extra l hl).1
  · unfold orderLines at hl
    split at hl
    · cases hl
    · simp only [List.mem_singleton] at hl
      subst hl
      exact NoNl.append (nonl_of (by decide)) (order_nonl h)
  · obtain ⟨e, he, rfl⟩ := List.mem_map.1 hl
    exact line_nonl (h.entries e he)

/-! ### what the regular expressions see in them -/

theorem entryLine_entry {e : EfiVar} (h : EntryOk e) : entryLine e.line = some ⟨e.num, e.name⟩ := by
  obtain ⟨a, b, c, d, hn, ha, hb, hc, hd⟩ := h.num.cases
  have hcut : ∀ rest : Str, (e.name ++ ('\t' :: rest)).takeWhile (fun x => !(x == '\t')) = e.name := by
    intro rest
    rw [List.takeWhile_append_of_pos]
    · simp
    · intro x hx
      have : x ≠ '\t' := fun he => h.tab (he ▸ hx)
      simp [this]
  have hall : e.name.takeWhile (fun x => !(x == '\t')) = e.name := by
    have := hcut []
    rw [List.takeWhile_append] at this
    split at this
    · rename_i hl
      exact List.takeWhile_prefix _ |>.eq_of_length hl
    · exact this
  have hs : ((if e.active then ['*'] else [' ']) : Str) = [if e.active then '*' else ' '] := by cases e.active <;> rfl
  have hs2 : ((if e.active then '*' else ' ') == '*' || (if e.active then '*' else ' ') == ' ') = true := by cases e.active <;> rfl
  unfold EfiVar.line
  rw [hn, hs]
  cases hp : e.path with
  | none =>
    have hne : e.name ≠ [] := by
      rcases h.shown with h | h
      · exact h
      · exact absurd hp h
    have hie : (e.name ++ ([] : Str)).isEmpty = false := by simp [hne]
    simp only [List.cons_append, List.nil_append, entryLine, ha, hb, hc, hd, hs2, hie, Bool.and_true, Bool.not_false, if_true]
    rw [List.append_nil, hall]
  | some p =>
    have hie : (e.name ++ '\t' :: p).isEmpty = false := by simp
    simp only [List.cons_append, List.nil_append, entryLine, ha, hb, hc, hd, hs2, hie, Bool.and_true, Bool.not_false, if_true]
    rw [hcut]

theorem entryLine_next (x : Str) : entryLine (c!"BootNext: " ++ x) = none := by
  simp only [List.cons_append, List.nil_append, entryLine, show isHex 'N' = false from by decide, Bool.false_and, Bool.false_eq_true, if_false]

theorem entryLine_current (x : Str) : entryLine (c!"BootCurrent: " ++ x) = none := by
  simp [entryLine]

theorem entryLine_order (x : Str) : entryLine (c!"BootOrder: " ++ x) = none := by
  simp [entryLine]

theorem entryLine_other {l : Str} (h : ¬ c!"Boot" <+: l) : entryLine l = none := by
  unfold entryLine
  split
  · exact absurd ⟨_, rfl⟩ h
  · rfl

theorem fieldLine_other {p l : Str} (hp : c!"Boot" <+: p) (h : ¬ c!"Boot" <+: l) : fieldLine p l = none := by
  unfold fieldLine
  rw [if_neg]
  rw [List.isPrefixOf_iff_prefix]
  exact fun hh => h (hp.trans hh)

/-- the entry lines are no other lines -/
theorem fieldLine_entry {e : EfiVar} (h : EntryOk e) (x : Char) (p : Str) (hx : isHex x = false) :
    fieldLine (c!"Boot" ++ x :: p) e.line = none := by
  obtain ⟨a, b, c, d, hn, ha, _⟩ := h.num.cases
  have hne : x ≠ a := fun he => by rw [he, ha] at hx; cases hx
  unfold fieldLine EfiVar.line
  rw [hn, if_neg]
  simp only [List.cons_append, List.nil_append, List.isPrefixOf, Bool.and_eq_true, beq_iff_eq]
  tauto

theorem fieldLine_entry_cur {e : EfiVar} (h : EntryOk e) : fieldLine (c!"BootCurrent: ") e.line = none := by
  obtain ⟨a, b, c, d, hn, ha, hb, _⟩ := h.num.cases
  have hne : 'u' ≠ b := fun he => by rw [← he] at hb; exact absurd hb (by decide)
  unfold fieldLine EfiVar.line
  rw [hn, if_neg]
  simp only [List.cons_append, List.nil_append, List.isPrefixOf, Bool.and_eq_true, beq_iff_eq]
  tauto

theorem fieldLine_hit (p x : Str) : fieldLine p (p ++ x) = some x := by
  unfold fieldLine
  rw [if_pos (isPrefixOf_append p x), List.drop_left']
  rfl

theorem hex4Line_hit (p : Str) {n : Str} (h : Hex4 n) : hex4Line p (p ++ n) = some n := by
  obtain ⟨a, b, c, d, rfl, ha, hb, hc, hd⟩ := h.cases
  unfold hex4Line
  rw [fieldLine_hit]
  simp [ha, hb, hc, hd]

/-- C64: a `BootNext`/`BootCurrent` line is read exactly if what follows its label is four hex digits -/
theorem C64_efi_field (p l n : Str) : hex4Line p l = some n ↔ l = p ++ n ∧ Hex4 n := by
  constructor
  · intro h
    unfold hex4Line fieldLine at h
    split at h
    · rename_i a b c d hf
      split at hf
      · rename_i hp
        simp only [Option.some.injEq] at hf
        split at h
        · rename_i hx
          simp only [Option.some.injEq] at h
          simp only [Bool.and_eq_true] at hx
          subst h
          refine ⟨?_, rfl, ?_⟩
          · obtain ⟨t, rfl⟩ := List.isPrefixOf_iff_prefix.1 hp
            rw [List.drop_left'] at hf
            · rw [hf]
            · rfl
          · intro x hx'
            simp only [List.mem_cons, List.not_mem_nil, or_false] at hx'
            obtain ⟨⟨⟨h1, h2⟩, h3⟩, h4⟩ := hx
            rcases hx' with rfl | rfl | rfl | rfl <;> exact (isHex_iff _).1 ‹_›
        · cases h
      · cases hf
    · cases h
  · rintro ⟨rfl, h⟩
    exact hex4Line_hit p h

theorem hex4Line_none {p l : Str} (h : fieldLine p l = none) : hex4Line p l = none := by unfold hex4Line; rw [h]
theorem orderLine_none {l : Str} (h : fieldLine (c!"BootOrder: ") l = none) : orderLine l = none := by unfold orderLine; rw [h]

theorem findSome_none {α β : Type} {f : α → Option β} {l : List α} (h : ∀ x ∈ l, f x = none) : l.findSome? f = none :=
  List.findSome?_eq_none_iff.2 h

theorem filterMap_none {α β : Type} {f : α → Option β} {l : List α} (h : ∀ x ∈ l, f x = none) : l.filterMap f = [] :=
  List.filterMap_eq_nil_iff.2 h

theorem entries_of {v : EfiVars} (h : EfiOk v) : (v.lines ++ [[]]).filterMap entryLine = v.entries.map (fun e => ⟨e.num, e.name⟩) := by
  rw [lines_eq]
  simp only [List.filterMap_append]
  rw [filterMap_none (l := nextLines v), filterMap_none (l := currentLines v), filterMap_none (l := v.extra),
    filterMap_none (l := orderLines v), List.filterMap_map]
  · simp only [List.nil_append, List.filterMap_cons, List.filterMap_nil]
    have : ∀ l : List EfiVar, (∀ e ∈ l, EntryOk e) → l.filterMap (entryLine ∘ EfiVar.line) = l.map (fun e => ⟨e.num, e.name⟩) := by
      intro l hl
      induction l with
      | nil => rfl
      | cons e es ih =>
        rw [List.filterMap_cons]
        simp only [Function.comp_apply, entryLine_entry (hl e (by simp)), List.map_cons]
        rw [ih (fun x hx => hl x (List.mem_cons_of_mem _ hx))]
    rw [this _ h.entries]
    simp [entryLine]
  · intro l hl
    unfold orderLines at hl
    split at hl
    · cases hl
    · simp only [List.mem_singleton] at hl
      subst hl
      exact entryLine_order _
  · exact fun l hl => entryLine_other (h.extra l hl).2
  · intro l hl
    obtain ⟨n, _, rfl⟩ := List.mem_map.1 hl
    exact entryLine_current n
  · intro l hl
    obtain ⟨n, _, rfl⟩ := List.mem_map.1 hl
    exact entryLine_next n

theorem next_of {v : EfiVars} (h : EfiOk v) : (v.lines ++ [[]]).findSome? (hex4Line (c!"BootNext: ")) = v.next := by
  rw [lines_eq]
  simp only [List.findSome?_append]
  rw [findSome_none (l := currentLines v), findSome_none (l := v.extra), findSome_none (l := orderLines v),
    findSome_none (l := v.entries.map EfiVar.line)]
  · have : List.findSome? (hex4Line (c!"BootNext: ")) [([] : Str)] = none := by decide
    rw [this]
    unfold nextLines
    cases hn : v.next with
    | none => rfl
    | some n => simp only [Option.toList_some, List.map_cons, List.map_nil, List.findSome?_cons, hex4Line_hit _ (h.next n hn)]; rfl
  · intro l hl
    obtain ⟨e, he, rfl⟩ := List.mem_map.1 hl
    exact hex4Line_none (fieldLine_entry (h.entries e he) 'N' (c!"ext: ") (by decide))
  · intro l hl
    unfold orderLines at hl
    split at hl
    · cases hl
    · simp only [List.mem_singleton] at hl
      subst hl
      apply hex4Line_none
      simp [fieldLine, List.isPrefixOf]
  · exact fun l hl => hex4Line_none (fieldLine_other ⟨_, rfl⟩ (h.extra l hl).2)
  · intro l hl
    obtain ⟨n, _, rfl⟩ := List.mem_map.1 hl
    apply hex4Line_none
    simp [fieldLine, List.isPrefixOf]

theorem current_of {v : EfiVars} (h : EfiOk v) : (v.lines ++ [[]]).findSome? (hex4Line (c!"BootCurrent: ")) = v.current := by
  rw [lines_eq]
  simp only [List.findSome?_append]
  rw [findSome_none (l := nextLines v), findSome_none (l := v.extra), findSome_none (l := orderLines v),
    findSome_none (l := v.entries.map EfiVar.line)]
  · have : List.findSome? (hex4Line (c!"BootCurrent: ")) [([] : Str)] = none := by decide
    rw [this]
    unfold currentLines
    cases hn : v.current with
    | none => rfl
    | some n => simp only [Option.toList_some, List.map_cons, List.map_nil, List.findSome?_cons, hex4Line_hit _ (h.current n hn)]; rfl
  · intro l hl
    obtain ⟨e, he, rfl⟩ := List.mem_map.1 hl
    exact hex4Line_none (fieldLine_entry_cur (h.entries e he))
  · intro l hl
    unfold orderLines at hl
    split at hl
    · cases hl
    · simp only [List.mem_singleton] at hl
      subst hl
      apply hex4Line_none
      simp [fieldLine, List.isPrefixOf]
  · exact fun l hl => hex4Line_none (fieldLine_other ⟨_, rfl⟩ (h.extra l hl).2)
  · intro l hl
    obtain ⟨n, _, rfl⟩ := List.mem_map.1 hl
    apply hex4Line_none
    simp [fieldLine, List.isPrefixOf]

theorem join_ne_nil {ts : List Str} (h : ts ≠ []) (hn : ∀ t ∈ ts, t ≠ []) : join ',' ts ≠ [] := by
  cases ts with
  | nil => exact absurd rfl h
  | cons t us =>
    cases us with
    | nil => simpa [join] using hn t (by simp)
    | cons => simp [join]

theorem order_of {v : EfiVars} (h : EfiOk v) :
    (v.lines ++ [[]]).findSome? orderLine = if v.order = [] then none else some (join ',' v.order) := by
  rw [lines_eq]
  simp only [List.findSome?_append]
  rw [findSome_none (l := nextLines v), findSome_none (l := v.extra), findSome_none (l := currentLines v),
    findSome_none (l := v.entries.map EfiVar.line)]
  · have : List.findSome? orderLine [([] : Str)] = none := by decide
    rw [this]
    unfold orderLines
    by_cases ho : v.order = []
    · simp [ho]
    · have hv : (!(join ',' v.order).isEmpty && (join ',' v.order).all (fun c => !BootName.isSp c)) = true := by
        rw [Bool.and_eq_true]
        constructor
        · simpa using join_ne_nil ho (fun t ht => (h.order t ht).ne_nil)
        · rw [List.all_eq_true]
          intro c hc
          rcases join_chars _ hc with rfl | ⟨t, ht, hc⟩
          · decide
          · simp [(hex_nonl ((isHex_iff c).2 ((h.order t ht).2 c hc))).2.2]
      have hl : orderLine (c!"BootOrder: " ++ join ',' v.order) = some (join ',' v.order) := by
        unfold orderLine
        rw [fieldLine_hit]
        simp only [hv, if_true]
      rw [if_neg ho, if_neg (by simpa using ho)]
      simp only [List.findSome?_cons, hl]
      rfl
  · intro l hl
    obtain ⟨e, he, rfl⟩ := List.mem_map.1 hl
    exact orderLine_none (fieldLine_entry (h.entries e he) 'O' (c!"rder: ") (by decide))
  · intro l hl
    obtain ⟨n, _, rfl⟩ := List.mem_map.1 hl
    apply orderLine_none
    simp [fieldLine, List.isPrefixOf]
  · exact fun l hl => orderLine_none (fieldLine_other ⟨_, rfl⟩ (h.extra l hl).2)
  · intro l hl
    obtain ⟨n, _, rfl⟩ := List.mem_map.1 hl
    apply orderLine_none
    simp [fieldLine, List.isPrefixOf]

/-- **What RAUC understands of the output of `efibootmgr` is what the variables say.** -/
theorem efiParse_print {v : EfiVars} (h : EfiOk v) :
    efiTables (efibootmgr v) =
      if v.entries = [] ∨ v.order = [] then none
      else some { order := v.order.filterMap (efiByNum v.abs.entries)
                  all := v.abs.entries
                  next := v.next.bind (efiByNum v.abs.entries)
                  current := v.current.bind (efiByNum v.abs.entries) } := by
  unfold efiTables efibootmgr
  simp only [ne_eq, not_true_eq_false, if_false]
  rw [linesAux_flatten _ (lines_nonl h)]
  unfold efiParse
  rw [entries_of h, order_of h, next_of h, current_of h]
  by_cases he : v.entries = []
  · simp [he]
  · by_cases ho : v.order = []
    · simp [ho]
    · have hie : (v.entries.map (fun e => (⟨e.num, e.name⟩ : EfiEntry))).isEmpty = false := by simp [he]
      simp only [hie, Bool.false_eq_true, if_false, ho, he, or_self]
      rw [split_join ',' _ (fun t ht => (h.order t ht).nocomma)]
      · rfl
      · intro hh
        have := (h.order [] (by rw [hh]; simp)).1
        cases this

theorem efiQuery_eq (rd : Str → Bool) {v : EfiVars} (h : EfiOk v) :
    (efiQuery rd v).map (fun t => (t.order, t.all, t.next)) = efiGet rd v.abs := by
  unfold efiQuery runIf efiGet
  cases rd Boot.efiTool with
  | false => rfl
  | true =>
    simp only [if_true, efiParse_print h, Bool.true_and]
    by_cases he : v.entries = []
    · simp [he, EfiVars.abs]
    · by_cases ho : v.order = []
      · simp [ho, EfiVars.abs]
      · have h1 : v.abs.entries.isEmpty = false := by simp [EfiVars.abs, he]
        have h2 : v.abs.order.isEmpty = false := by simp [EfiVars.abs, ho]
        simp only [he, ho, or_self, if_false, h1, h2, Bool.not_false, Bool.and_self, if_true, Option.map_some]
        rfl

/-! ### the simulation -/

theorem efiGetStateT_eq (rd : Str → Bool) {v : EfiVars} (h : EfiOk v) (s : Slot) : efiGetStateT rd v s = efiGetState rd v.abs s := by
  unfold efiGetStateT efiGetState
  rw [← efiQuery_eq rd h]
  cases s.bootname with
  | none => rfl
  | some b => cases efiQuery rd v <;> rfl

theorem efiGetPrimaryT_eq (rd : Str → Bool) {v : EfiVars} (h : EfiOk v) (slots : List Slot) :
    efiGetPrimaryT rd slots v = efiGetPrimary rd slots v.abs := by
  unfold efiGetPrimaryT efiGetPrimary
  rw [← efiQuery_eq rd h]
  cases efiQuery rd v <;> rfl

/-- what is assumed of the tool: an entry which can be created gets a four digit number; device paths are one line -/
structure WorldOk (w : EfiWorld) : Prop where
  fresh : ∀ e d x, w.dev e d = some x → Hex4 (w.fresh e)
  path : ∀ a p, w.pathOf a = some p → NoNl p

/-- boot names without white space, including the vertical tab -/
def NoVt (slots : List Slot) : Prop := ∀ s ∈ slots, ∀ b, s.bootname = some b → Char.ofNat 11 ∉ b

theorem name_ok {slots : List Slot} (hwf : SlotsWF slots) (hv : NoVt slots) {s : Slot} (hs : s ∈ slots) {b : Str} (hb : s.bootname = some b) :
    '\t' ∉ b ∧ NoNl b ∧ b ≠ [] := by
  obtain ⟨h1, h2⟩ := hwf.bootname_ok s hs b hb
  have hvt := hv s hs b hb
  refine ⟨fun hm => absurd (h2 _ hm) (by decide), ?_, h1⟩
  intro c hc
  apply Bool.eq_false_iff.2
  intro hn
  have : c = '\n' ∨ c = '\r' ∨ c = Char.ofNat 11 ∨ c = Char.ofNat 12 := by
    simp only [isNl, Bool.or_eq_true, beq_iff_eq] at hn
    tauto
  rcases this with rfl | rfl | rfl | rfl
  · exact absurd (h2 _ hc) (by decide)
  · exact absurd (h2 _ hc) (by decide)
  · exact hvt hc
  · exact absurd (h2 _ hc) (by decide)

/-- the abstract transaction of a command line -/
def efiTx (w : EfiWorld) (v : EfiVars) (argv : List Str) : EfiTxn :=
  match argv with
  | [_, o, x] => if o = c!"--bootorder" then .setOrder (split ',' x) else .setNext x
  | [_, _, _, _, _, _, _, label, _, _, _, _] => .create ⟨w.fresh v.abs, label⟩
  | _ => .setOrder []

theorem efiTx_create (w : EfiWorld) (v : EfiVars) (bn l c : Str) (d : Str × Str) :
    efiTx w v (efiCreateArgv bn l c d) = .create ⟨w.fresh v.abs, bn⟩ := rfl

theorem split_nums {ns : List Str} (h : ∀ n ∈ ns, Hex4 n) : split ',' (join ',' ns) = ns := by
  apply split_join ',' _ (fun t ht => (h t ht).nocomma)
  intro hh
  have := (h [] (by rw [hh]; simp)).1
  cases this

theorem efiTx_order (w : EfiWorld) (v : EfiVars) {ns : List Str} (h : ∀ n ∈ ns, Hex4 n) :
    efiTx w v (efiOrderArgv ns) = .setOrder ns := by
  simp only [efiTx, efiOrderArgv, if_true, split_nums h]

theorem efiTx_next (w : EfiWorld) (v : EfiVars) (n : Str) : efiTx w v (efiNextArgv n) = .setNext n := by
  unfold efiTx efiNextArgv
  simp only
  rw [if_neg (by decide)]

theorem tool_order (w : EfiWorld) (v : EfiVars) {ns : List Str} (h : ∀ n ∈ ns, Hex4 n) :
    efiTool w.fresh w.pathOf v (efiOrderArgv ns) = { v with order := ns } := by
  simp only [efiTool, efiOrderArgv, if_true, split_nums h]

theorem tool_next (w : EfiWorld) (v : EfiVars) (n : Str) :
    efiTool w.fresh w.pathOf v (efiNextArgv n) = { v with next := some n } := by
  unfold efiTool efiNextArgv
  simp only
  rw [if_neg (by decide), if_pos trivial]

theorem tool_create (w : EfiWorld) (v : EfiVars) (bn l c : Str) (d : Str × Str) :
    efiTool w.fresh w.pathOf v (efiCreateArgv bn l c d) =
      { v with entries := v.entries ++ [{ num := w.fresh v.abs, name := bn, path := w.pathOf (efiCreateArgv bn l c d) }] } := by
  unfold efiTool
  simp only [efiCreateArgv, if_true]

theorem order_ok {v : EfiVars} (h : EfiOk v) {ns : List Str} (hn : ∀ n ∈ ns, Hex4 n) : EfiOk { v with order := ns } :=
  ⟨h.entries, hn, h.next, h.current, h.extra⟩

theorem next_ok {v : EfiVars} (h : EfiOk v) {n : Str} (hn : Hex4 n) : EfiOk { v with next := some n } :=
  ⟨h.entries, h.order, fun m hm => by simp only [Option.some.injEq] at hm; rw [← hm]; exact hn, h.current, h.extra⟩

theorem create_ok {w : EfiWorld} (hw : WorldOk w) {v : EfiVars} (h : EfiOk v) {bn : Str} (hb : '\t' ∉ bn ∧ NoNl bn ∧ bn ≠ []) (l c : Str)
    {dev : Str} {d : Str × Str} (hd : w.dev v.abs dev = some d) : EfiOk (efiTool w.fresh w.pathOf v (efiCreateArgv bn l c d)) := by
  rw [tool_create]
  refine ⟨?_, h.order, h.next, h.current, h.extra⟩
  intro e he
  rcases List.mem_append.1 he with he | he
  · exact h.entries e he
  · simp only [List.mem_singleton] at he
    subst he
    exact ⟨hw.fresh _ _ _ hd, hb.1, hb.2.1, fun p hp => hw.path _ p hp, Or.inl hb.2.2⟩

theorem create_abs (w : EfiWorld) (v : EfiVars) (bn l c : Str) (d : Str × Str) :
    (efiTool w.fresh w.pathOf v (efiCreateArgv bn l c d)).abs = efiApp v.abs (.create ⟨w.fresh v.abs, bn⟩) := by
  rw [tool_create]
  simp [EfiVars.abs, efiApp]

/-- the tables only contain entries of the variables -/
theorem efiQuery_nums {rd : Str → Bool} {v : EfiVars} (h : EfiOk v) {t : EfiTables} (hq : efiQuery rd v = some t) :
    (∀ e ∈ t.all, Hex4 e.num) ∧ ∀ e ∈ t.order, Hex4 e.num := by
  unfold efiQuery runIf at hq
  cases hr : rd Boot.efiTool with
  | false => simp [hr, efiTables] at hq
  | true =>
    simp only [hr, if_true, efiParse_print h] at hq
    split at hq
    · cases hq
    · simp only [Option.some.injEq] at hq
      subst hq
      have hall : ∀ e ∈ v.abs.entries, Hex4 e.num := by
        intro e he
        obtain ⟨x, hx, rfl⟩ := List.mem_map.1 he
        exact (h.entries x hx).num
      refine ⟨hall, ?_⟩
      intro e he
      obtain ⟨n, _, hn⟩ := List.mem_filterMap.1 he
      exact hall e (List.mem_of_find?_eq_some hn)

/-- how a successful preparation ends: the entry exists, or it was created -/
theorem efiPrepareT_cases {w : EfiWorld} (hw : WorldOk w) {rd : Str → Bool} {v : EfiVars} (h : EfiOk v) {s : Slot} {bn : Str}
    (hb : '\t' ∉ bn ∧ NoNl bn ∧ bn ≠ []) {ts : List (List Str)} {t : EfiTables} (hp : efiPrepareT w rd v s bn = some (ts, t)) :
    efiPrepare w.fresh rd v.abs s bn = some (ts.map (efiTx w v), t.order, t.all) ∧
    ((ts = [] ∧ efiQuery rd v = some t) ∨
     ∃ l c d, w.dev v.abs s.device = some d ∧ ts = [efiCreateArgv bn l c d] ∧ efiQuery rd (efiTool w.fresh w.pathOf v (efiCreateArgv bn l c d)) = some t) := by
  unfold efiPrepareT at hp
  unfold efiPrepare
  rw [← efiQuery_eq rd h]
  cases hq : efiQuery rd v with
  | none => simp [hq] at hp
  | some t0 =>
    simp only [hq, Option.map_some] at hp ⊢
    cases hn : efiByName t0.all bn with
    | some e =>
      simp only [hn, Option.some.injEq, Prod.mk.injEq] at hp
      obtain ⟨rfl, rfl⟩ := hp
      exact ⟨rfl, Or.inl ⟨rfl, rfl⟩⟩
    | none =>
      simp only [hn] at hp ⊢
      cases hl : s.efiLoader with
      | none => simp [hl] at hp
      | some l =>
        cases hc : s.efiCmdline with
        | none => simp [hl, hc] at hp
        | some c =>
          simp only [hl, hc] at hp
          cases hd : w.dev v.abs s.device with
          | none => simp [hd] at hp
          | some d =>
            simp only [hd] at hp
            cases hq2 : efiQuery rd (efiTool w.fresh w.pathOf v (efiCreateArgv bn l c d)) with
            | none => simp [hq2] at hp
            | some t1 =>
              simp only [hq2, Option.some.injEq, Prod.mk.injEq] at hp
              obtain ⟨rfl, rfl⟩ := hp
              refine ⟨?_, Or.inr ⟨l, c, d, rfl, rfl, hq2⟩⟩
              have := efiQuery_eq rd (create_ok hw h hb l c hd)
              rw [create_abs, hq2] at this
              simp only [Option.map_some] at this
              simp only [Option.isNone_some, Bool.or_self, Bool.false_eq_true, if_false, ← this, List.map_cons, List.map_nil, efiTx_create]

/-- one or two command lines: possibly the creation of the entry, then the change of order or next entry -/
theorem efi_steps {w : EfiWorld} (hw : WorldOk w) {rd : Str → Bool} {v : EfiVars} (h : EfiOk v) {s : Slot} {bn : Str}
    (hb : '\t' ∉ bn ∧ NoNl bn ∧ bn ≠ []) {ts : List (List Str)} {t : EfiTables} (hp : efiPrepareT w rd v s bn = some (ts, t))
    {last : List Str} {x : EfiTxn} (hl : efiTx w v last = x)
    (hlast : ∀ u, EfiOk u → EfiOk (efiTool w.fresh w.pathOf u last) ∧ (efiTool w.fresh w.pathOf u last).abs = efiApp u.abs x) (n : Nat) :
    EfiOk (((ts ++ [last]).take n).foldl (efiTool w.fresh w.pathOf) v) ∧
    (((ts ++ [last]).take n).foldl (efiTool w.fresh w.pathOf) v).abs =
      (((ts ++ [last]).map (efiTx w v)).take n).foldl efiApp v.abs := by
  obtain ⟨_, hc⟩ := efiPrepareT_cases hw h hb hp
  rcases hc with ⟨rfl, _⟩ | ⟨l, c, d, hd, rfl, _⟩
  · cases n with
    | zero => exact ⟨h, rfl⟩
    | succ n =>
      simp only [List.nil_append, List.take_succ_cons, List.take_nil, List.foldl_cons, List.foldl_nil, List.map_cons, List.map_nil, hl]
      exact hlast v h
  · have hcr := create_ok hw h hb l c hd
    have hca := create_abs w v bn l c d
    match n with
    | 0 => exact ⟨h, rfl⟩
    | 1 =>
      simp only [List.cons_append, List.nil_append, List.take_succ_cons, List.take_zero, List.foldl_cons, List.foldl_nil, List.map_cons, efiTx_create]
      exact ⟨hcr, hca⟩
    | n + 2 =>
      simp only [List.cons_append, List.nil_append, List.take_succ_cons, List.take_nil, List.foldl_cons, List.foldl_nil, List.map_cons,
        List.map_nil, efiTx_create, hl, ← hca]
      exact hlast _ hcr

def EfiWfT (slots : List Slot) (v : EfiVars) : Prop := NoVt slots ∧ EfiOk v

theorem erased_nums {l : List EfiEntry} (h : ∀ e ∈ l, Hex4 e.num) (p : EfiEntry → Bool) : ∀ e ∈ l.eraseP p, Hex4 e.num :=
  fun e he => h e (List.mem_of_mem_eraseP he)

/-- the changed order consists of entry numbers -/
theorem modified_nums {w : EfiWorld} (hw : WorldOk w) {rd : Str → Bool} {v : EfiVars} (h : EfiOk v) {s : Slot} {bn : Str}
    (hb : '\t' ∉ bn ∧ NoNl bn ∧ bn ≠ []) {ts : List (List Str)} {t : EfiTables} (hp : efiPrepareT w rd v s bn = some (ts, t)) :
    (∀ e ∈ t.all, Hex4 e.num) ∧ ∀ e ∈ t.order, Hex4 e.num := by
  obtain ⟨_, hc⟩ := efiPrepareT_cases hw h hb hp
  rcases hc with ⟨_, hq⟩ | ⟨l, c, d, hd, _, hq⟩
  · exact efiQuery_nums h hq
  · exact efiQuery_nums (create_ok hw h hb l c hd) hq

theorem efiModifyT_sim {w : EfiWorld} (hw : WorldOk w) {slots : List Slot} (hwf : SlotsWF slots) {v : EfiVars} (h : EfiWfT slots v)
    {rd : Str → Bool} {s : Slot} (hs : s ∈ slots) {g : Bool} {ts : List (List Str)} (hm : efiModifyT w rd v s g = some ts) :
    efiModify w.fresh rd v.abs s g = some (ts.map (efiTx w v)) ∧
    ∀ n, EfiWfT slots ((ts.take n).foldl (efiTool w.fresh w.pathOf) v) ∧
      ((ts.take n).foldl (efiTool w.fresh w.pathOf) v).abs = ((ts.map (efiTx w v)).take n).foldl efiApp v.abs := by
  unfold efiModifyT at hm
  unfold efiModify
  cases hb : s.bootname with
  | none => simp [hb] at hm
  | some bn =>
    have hbn := name_ok hwf h.1 hs hb
    simp only [hb] at hm ⊢
    cases hp : efiPrepareT w rd v s bn with
    | none => simp [hp] at hm
    | some r =>
      obtain ⟨ps, t⟩ := r
      obtain ⟨hpa, _⟩ := efiPrepareT_cases hw h.2 hbn hp
      obtain ⟨ha, ho⟩ := modified_nums hw h.2 hbn hp
      simp only [hp, hpa, Option.some.injEq] at hm ⊢
      generalize hl : (if g = true then
          (match efiByName t.all bn with
           | some e => e :: t.order.eraseP (fun e => e.name == bn)
           | none => t.order.eraseP (fun e => e.name == bn))
        else t.order.eraseP (fun e => e.name == bn)) = l at hm ⊢
      have hln : ∀ n ∈ l.map EfiEntry.num, Hex4 n := by
        have hle : ∀ e ∈ l, Hex4 e.num := by
          have her := erased_nums ho (fun e => e.name == bn)
          subst hl
          split
          · split
            · rename_i e he
              intro x hx
              rcases List.mem_cons.1 hx with rfl | hx
              · exact ha _ (List.mem_of_find?_eq_some he)
              · exact her x hx
            · exact her
          · exact her
        intro n hn
        obtain ⟨e, he, rfl⟩ := List.mem_map.1 hn
        exact hle e he
      subst hm
      refine ⟨by simp [efiTx_order w v hln], fun n => ?_⟩
      obtain ⟨h1, h2⟩ := efi_steps hw h.2 hbn hp (efiTx_order w v hln)
        (fun u hu => ⟨by rw [tool_order w u hln]; exact order_ok hu hln, by rw [tool_order w u hln]; rfl⟩) n
      exact ⟨⟨h.1, h1⟩, h2⟩

theorem efiTempT_sim {w : EfiWorld} (hw : WorldOk w) {slots : List Slot} (hwf : SlotsWF slots) {v : EfiVars} (h : EfiWfT slots v)
    {rd : Str → Bool} {s : Slot} (hs : s ∈ slots) {ts : List (List Str)} (hm : efiTempT w rd v s = some ts) :
    efiTemp w.fresh rd v.abs s = some (ts.map (efiTx w v)) ∧
    ∀ n, EfiWfT slots ((ts.take n).foldl (efiTool w.fresh w.pathOf) v) ∧
      ((ts.take n).foldl (efiTool w.fresh w.pathOf) v).abs = ((ts.map (efiTx w v)).take n).foldl efiApp v.abs := by
  unfold efiTempT at hm
  unfold efiTemp
  cases hb : s.bootname with
  | none => simp [hb] at hm
  | some bn =>
    have hbn := name_ok hwf h.1 hs hb
    simp only [hb] at hm ⊢
    cases hp : efiPrepareT w rd v s bn with
    | none => simp [hp] at hm
    | some r =>
      obtain ⟨ps, t⟩ := r
      obtain ⟨hpa, _⟩ := efiPrepareT_cases hw h.2 hbn hp
      obtain ⟨ha, _⟩ := modified_nums hw h.2 hbn hp
      simp only [hp, hpa] at hm ⊢
      cases he : efiByName t.all bn with
      | none => simp [he] at hm
      | some e =>
        simp only [he, Option.some.injEq] at hm ⊢
        have hen : Hex4 e.num := ha e (List.mem_of_find?_eq_some he)
        subst hm
        refine ⟨by simp [efiTx_next], fun n => ?_⟩
        obtain ⟨h1, h2⟩ := efi_steps hw h.2 hbn hp (efiTx_next w v e.num)
          (fun u hu => ⟨by rw [tool_next]; exact next_ok hu hen, by rw [tool_next]; rfl⟩) n
        exact ⟨⟨h.1, h1⟩, h2⟩

theorem efiT_sim {cfg : Cfg} {w : EfiWorld} (hw : WorldOk w) {slots : List Slot} (hwf : SlotsWF slots) {v : EfiVars} (h : EfiWfT slots v)
    {rd : Str → Bool} {r : Req} (hs : r.slot ∈ slots) {ts : List (List Str)} (hm : (efiT cfg w).txns rd slots v r = some ts) :
    (efi cfg w.fresh).txns rd slots v.abs r = some (ts.map (efiTx w v)) ∧
    ∀ n, EfiWfT slots ((ts.take n).foldl (efiTool w.fresh w.pathOf) v) ∧
      ((ts.take n).foldl (efiTool w.fresh w.pathOf) v).abs = ((ts.map (efiTx w v)).take n).foldl efiApp v.abs := by
  cases r with
  | setState s g => exact efiModifyT_sim hw hwf h hs hm
  | setPrimary s =>
    simp only [Backend.txns] at hm ⊢
    by_cases hc : cfg.efiUseBootnext = true
    · simp only [hc, if_true] at hm ⊢
      exact efiTempT_sim hw hwf h hs hm
    · simp only [hc, Bool.false_eq_true, if_false] at hm ⊢
      exact efiModifyT_sim hw hwf h hs hm

/-- EFI with its tool behaves as the abstract backend -/
def efiSim (cfg : Cfg) (w : EfiWorld) (hw : WorldOk w) : Sim (efiT cfg w) (efi cfg w.fresh) where
  abs := EfiVars.abs
  tx := efiTx w
  wf := EfiWfT
  getState := fun _ _ rd s h _ => efiGetStateT_eq rd h.2 s
  getPrimary := fun slots _ rd h => efiGetPrimaryT_eq rd h.2 slots
  txns := fun _ hwf _ _ _ _ h hr hm => (efiT_sim hw hwf h hr hm).1
  step := fun _ hwf _ _ _ _ n h hr hm => (efiT_sim hw hwf h hr hm).2 n

end Rauc.BootText
