import Verif.Model.StatusText
import Verif.Props.InfoText
import Verif.Props.JsonView

/-!
# C97: the readable output of `rauc status`
-/

namespace Rauc.StatusText

open Rauc.StatusView (RSlot Print RepoView ArtifactView Instance stateStr bootStr rootClasses ofClass children readableSlots)
open Rauc.InfoText (linesOf shown orNull)

/-! ## Specification: how the output is read -/

/-- a text without colours: a terminal does not show what is between ESC and the next `m` -/
def decolor : Bool → Str → Str
  | _, [] => []
  | true, c :: r => decolor (decide (c ≠ 'm')) r
  | false, c :: r => if c = '\x1B' then decolor true r else c :: decolor false r

/-- the lines that are seen -/
def screen (t : Str) : List Str := (linesOf t).map (decolor false)

/-- lines in groups: each line with `p`, and the lines that follow it -/
def cut (p : Str → Bool) : List Str → List (Str × List Str)
  | [] => []
  | l :: r => (l, r.takeWhile (fun x => !p x)) :: cut p (r.dropWhile (fun x => !p x))
termination_by l => l.length
decreasing_by
  simp only [List.length_cons]
  have := (List.dropWhile_suffix (fun x => !p x) (l := r)).length_le
  omega

/-- indented by at least so many blanks -/
def indented (n : Nat) (l : Str) : Bool := (List.replicate n ' ').isPrefixOf l

/-- the lines after a title -/
def after (title : Str) (l : List Str) : List Str := (l.dropWhile (fun x => decide (x ≠ title))).drop 1

def filled (l : List Str) : List Str := l.filter (fun x => !x.isEmpty)

def repoTitle : Str := c!"=== Artifact Repo States ==="

/-- the groups of the slots: their first lines are the lines that are not indented by six blanks -/
def slotGroups (t : Str) : List (Str × List Str) :=
  cut (fun l => !indented 6 l) (filled ((after c!"=== Slot States ===" (screen t)).takeWhile (fun x => decide (x ≠ repoTitle))))

/-- the lines that only give a heading to those below them -/
def subHeads : List Str := [c!"      slot status:", c!"          bundle:", c!"          checksum:", c!"          installed:", c!"          activated:"]

/-- lines below a heading (indented by 14 blanks) get the heading in front -/
def qualify : Str → List Str → List Str
  | _, [] => []
  | h, l :: r => if l ∈ subHeads then qualify l r else (if indented 14 l then h ++ l.drop 14 else l) :: qualify h r

/-- the sign before a slot: full for the primary one, empty for another one with a boot name -/
def marker (utf8 : Bool) (primary : Option Str) (s : RSlot) : Str :=
  if s.bootname = none then c!" "
  else match utf8, decide (primary = some s.name) with
    | true, true => c!"⏺"
    | true, false => c!"○"
    | false, true => c!"x"
    | false, false => c!"o"

def stateWord : Option Select.State → Str
  | some .booted => c!"booted"
  | some .active => c!"active"
  | some .inactive => c!"inactive"
  | none => c!"(null)"

def bootWord : Option Bool → Str
  | some true => c!"good"
  | some false => c!"bad"
  | none => c!"unknown"

/-- the first line of a slot -/
def titleText (utf8 : Bool) (primary : Option Str) (s : RSlot) : Str :=
  marker utf8 primary s ++ (if s.parent = none then c!" " else c!"   ") ++ c!"[" ++ s.name ++ c!"] (" ++ orNull s.device ++ c!", " ++ orNull s.typ ++ c!", " ++ stateWord s.state ++ c!")"

/-- what is to be shown about a slot: labels (those of the recorded data with their heading), and the text after it if there is to be one -/
def slotFields (fmt : Int → Str) (detailed : Bool) (s : RSlot) : List (Str × Option Str) :=
  let o := if detailed then s.status else none
  [(c!"      bootname: ", s.bootname), (c!"      description: ", s.description), (c!"      mounted: ", s.mountPoint),
   (c!"      boot status: ", s.bootname.map (fun _ => bootWord s.bootState)),
   (c!"          bundle:compatible=", o.map (fun st => orNull st.bundleCompatible)), (c!"          bundle:version=", o.bind (·.bundleVersion)),
   (c!"          bundle:description=", o.bind (·.bundleDescription)), (c!"          bundle:build=", o.bind (·.bundleBuild)), (c!"          bundle:hash=", o.bind (·.bundleHash)),
   (c!"          checksum:sha256=", o.bind (fun st => if st.sha256 then st.digest else none)),
   (c!"          checksum:size=", o.bind (fun st => if st.sha256 then st.digest.map (fun _ => fmt st.size) else none)),
   (c!"          installed:timestamp=", o.bind (fun st => st.installedTimestamp.map DateTime.fmt)),
   (c!"          installed:count=", o.bind (fun st => st.installedTimestamp.map (fun _ => toDec st.installedCount))),
   (c!"          installed:transaction=", o.bind (·.installedTxn)),
   (c!"          activated:timestamp=", o.bind (fun st => st.activatedTimestamp.map DateTime.fmt)),
   (c!"          activated:count=", o.bind (fun st => st.activatedTimestamp.map (fun _ => toDec st.activatedCount))),
   (c!"          status=", o.bind (·.status))]

/-- the values of the system. The booted slot is one whose state is "booted". -/
def systemFields (p : Print) : List (Str × Str) :=
  [(c!"Compatible:     ", orNull p.compatible), (c!"Variant:        ", orNull p.variant), (c!"System Version: ", orNull p.version),
   (c!"Booted from:    ", orNull ((p.slots.find? (fun s => decide (s.state = some .booted))).map (·.name)) ++ c!" (" ++ orNull p.bootslot ++ c!")"),
   (c!"Activated: ", match p.primary with
     | none => c!"none"
     | some n => n ++ c!" (" ++ orNull ((p.slots.find? (fun s => decide (s.name = n))).bind (·.bootname)) ++ c!")")]

/-- a group of lines shows a slot -/
def ShowsSlot (fmt : Int → Str) (utf8 detailed : Bool) (primary : Option Str) (s : RSlot) (g : Str × List Str) : Prop :=
  g.1 = titleText utf8 primary s ∧ ∀ e ∈ slotFields fmt detailed s, shown e.1 (qualify [] g.2) = e.2.toList

/-- the groups of the repositories: their first lines are those that are not indented -/
def repoGroups (t : Str) : List (Str × List Str) := cut (fun l => !indented 1 l) (filled (after repoTitle (screen t)))

/-- a repository as it is read: its first line, type, parent class, and the groups of its artifacts (indented by four blanks) with the groups of their instances (by six) -/
def readRepo (g : Str × List Str) : Str × List Str × List Str × List (Str × List (Str × List Str)) :=
  (g.1, shown c!"  type: " g.2, shown c!"  parent class: " g.2,
   (cut (fun l => !indented 6 l) (g.2.filter (indented 4))).map (fun a => (a.1, cut (fun l => !indented 8 l) a.2)))

/-- what is to be read: for artifacts without a parent class whether they are in use, otherwise by whom -/
def repoView (r : RepoView) : Str × List Str × List Str × List (Str × List (Str × List Str)) :=
  (c!"[" ++ r.name ++ c!"] (" ++ orNull r.path ++ c!")", r.typ.toList, r.parentClass.toList,
   r.artifacts.map (fun a => (c!"    [" ++ a.name ++ c!"]", a.instances.map (fun x => (c!"      checksum: " ++ x.checksum,
     [match r.parentClass, x.refs with
      | none, [] => c!"        inactive"
      | none, _ :: _ => c!"        active"
      | some _, [] => c!"        references: (none)"
      | some _, _ :: _ => c!"        references: '" ++ join ' ' x.refs ++ c!"'"])))))

/-- no line break and no colour -/
def Plain (s : Str) : Prop := '\n' ∉ s ∧ '\x1B' ∉ s
instance (s : Str) : Decidable (Plain s) := inferInstanceAs (Decidable (_ ∧ _))

structure PlainStatus (st : SlotStatus) : Prop where
  opts : ∀ o ∈ [st.bundleCompatible, st.bundleVersion, st.bundleDescription, st.bundleBuild, st.bundleHash, st.digest, st.installedTxn, st.status], ∀ v ∈ o, Plain v

structure PlainSlot (s : RSlot) : Prop where
  name : Plain s.name
  opts : ∀ o ∈ [s.device, s.typ, s.bootname, s.description, s.mountPoint], ∀ v ∈ o, Plain v
  status : ∀ st ∈ s.status, PlainStatus st

structure PlainRepo (r : RepoView) : Prop where
  name : Plain r.name
  path : ∃ p, r.path = some p ∧ Plain p
  opts : ∀ o ∈ [r.typ, r.parentClass], ∀ v ∈ o, Plain v
  arts : ∀ a ∈ r.artifacts, Plain a.name ∧ ∀ x ∈ a.instances, Plain x.checksum ∧ ∀ f ∈ x.refs, Plain f

/-- nothing that is shown contains line breaks or colours -/
structure PlainPrint (fmt : Int → Str) (p : Print) : Prop where
  opts : ∀ o ∈ [p.compatible, p.variant, p.version, p.bootslot, p.primary], ∀ v ∈ o, Plain v
  slots : ∀ s ∈ p.slots, PlainSlot s
  repos : ∀ r ∈ p.repos, PlainRepo r
  size : ∀ n, Plain (fmt n)

/-! ## Colours -/

theorem dec_app {a : Str} (h : '\x1B' ∉ a) (b : Str) : decolor false (a ++ b) = a ++ decolor false b := by
  induction a with
  | nil => rfl
  | cons c a ih =>
    simp only [List.mem_cons, not_or] at h
    rw [List.cons_append, decolor, if_neg (fun e => h.1 e.symm), ih h.2]
    rfl

theorem dec_plain {a : Str} (h : '\x1B' ∉ a) : decolor false a = a := by
  have := dec_app h []
  simpa [decolor] using this

theorem dec_bold (b : Str) : decolor false (InfoText.bold ++ b) = decolor false b := by simp [InfoText.bold, decolor]
theorem dec_norm (b : Str) : decolor false (InfoText.norm ++ b) = decolor false b := by simp [InfoText.norm, decolor]
theorem dec_green (b : Str) : decolor false (InfoText.green ++ b) = decolor false b := by simp [InfoText.green, decolor]
theorem dec_red (b : Str) : decolor false (red ++ b) = decolor false b := by simp [red, decolor]
theorem dec_blue (b : Str) : decolor false (blue ++ b) = decolor false b := by simp [blue, decolor]
theorem dec_ite (p : Prop) [Decidable p] (a b : Str) (h : ∀ r, decolor false (a ++ r) = decolor false r) : decolor false ((if p then a else []) ++ b) = decolor false b := by
  split
  · exact h b
  · rfl

theorem plain_pstr {o : Option Str} (h : ∀ v ∈ o, Plain v) : Plain (InfoText.pstr o) := by
  cases o with
  | none => decide
  | some v => exact h v rfl

theorem Plain.append {a b : Str} (ha : Plain a) (hb : Plain b) : Plain (a ++ b) := by
  unfold Plain at *
  simp only [List.mem_append, not_or]
  exact ⟨⟨ha.1, hb.1⟩, ha.2, hb.2⟩

theorem digitChar_plain (n : Nat) : digitChar n ≠ '\n' ∧ digitChar n ≠ '\x1B' := by
  have key : ∀ k : Nat, 28 ≤ k → Char.ofNat k ≠ '\n' ∧ Char.ofNat k ≠ '\x1B' := by
    intro k hk
    have hn : (Char.ofNat k).toNat = k ∨ (Char.ofNat k).toNat = 0 := by
      unfold Char.ofNat
      split
      · exact .inl rfl
      · exact .inr rfl
    constructor
    · intro e
      rw [e] at hn
      have h2 : ('\n' : Char).toNat = 10 := rfl
      rw [h2] at hn
      omega
    · intro e
      rw [e] at hn
      have h2 : ('\x1B' : Char).toNat = 27 := rfl
      rw [h2] at hn
      omega
  unfold digitChar
  split
  · exact key _ (by omega)
  · exact key _ (by omega)

theorem toDec_plain (n : Nat) : Plain (toDec n) := by
  have : ∀ c ∈ toDec n, ∃ d, c = digitChar d := by
    intro c hc
    obtain ⟨d, -, rfl⟩ := toBase_chars 10 (by omega) n c hc
    exact ⟨d, rfl⟩
  constructor
  · intro h; obtain ⟨d, hd⟩ := this _ h; exact (digitChar_plain d).1 hd.symm
  · intro h; obtain ⟨d, hd⟩ := this _ h; exact (digitChar_plain d).2 hd.symm

theorem fmt_plain (d : DateTime) : Plain d.fmt := by
  have d2 : ∀ n, Plain (dec2 n) := by
    intro n
    unfold Plain dec2
    simp only [List.mem_cons, List.not_mem_nil, or_false, not_or]
    exact ⟨⟨fun e => (digitChar_plain _).1 e.symm, fun e => (digitChar_plain _).1 e.symm⟩, fun e => (digitChar_plain _).2 e.symm, fun e => (digitChar_plain _).2 e.symm⟩
  have ch : ∀ (c : Char) (s : Str), c ≠ '\n' → c ≠ '\x1B' → Plain s → Plain (c :: s) := by
    intro c s h1 h2 h
    unfold Plain at *
    simp only [List.mem_cons, not_or]
    exact ⟨⟨h1.symm, h.1⟩, h2.symm, h.2⟩
  unfold DateTime.fmt
  simp only [List.append_assoc, List.cons_append]
  repeat' first
    | exact toDec_plain _
    | exact d2 _
    | apply Plain.append
    | refine ch _ _ (by decide) (by decide) ?_
  all_goals decide

/-! ## Groups of lines -/

theorem cut_flatMap {α : Type} (p : Str → Bool) (f : α → Str) (g : α → List Str) (l : List α) (hf : ∀ x ∈ l, p (f x) = true) (hg : ∀ x ∈ l, ∀ y ∈ g x, p y = false) :
    cut p (l.flatMap (fun x => f x :: g x)) = l.map (fun x => (f x, g x)) := by
  induction l with
  | nil => rw [List.flatMap_nil, cut]; rfl
  | cons x l ih =>
    have ih' := ih (fun y hy => hf y (List.mem_cons_of_mem _ hy)) (fun y hy => hg y (List.mem_cons_of_mem _ hy))
    have hrest : ∀ r : List Str, (∀ y ∈ r, p y = false) → (r ++ l.flatMap (fun x => f x :: g x)).takeWhile (fun y => !p y) = r ∧
        (r ++ l.flatMap (fun x => f x :: g x)).dropWhile (fun y => !p y) = l.flatMap (fun x => f x :: g x) := by
      intro r
      induction r with
      | nil =>
        intro _
        cases l with
        | nil => exact ⟨rfl, rfl⟩
        | cons z l =>
          have hz := hf z (by simp)
          simp [List.flatMap_cons, List.takeWhile_cons, List.dropWhile_cons, hz]
      | cons y r ihr =>
        intro hr
        have hy := hr y (by simp)
        obtain ⟨i1, i2⟩ := ihr (fun z hz => hr z (List.mem_cons_of_mem _ hz))
        constructor
        · rw [List.cons_append, List.takeWhile_cons, if_pos (by rw [hy]; rfl), i1]
        · rw [List.cons_append, List.dropWhile_cons, if_pos (by rw [hy]; rfl), i2]
    obtain ⟨h1, h2⟩ := hrest (g x) (hg x (by simp))
    rw [List.flatMap_cons, List.cons_append, cut, h1, h2, ih']
    rfl

theorem after_app {t : Str} {a : List Str} (b : List Str) (h : ∀ x ∈ a, x ≠ t) : after t (a ++ t :: b) = b := by
  unfold after
  induction a with
  | nil => simp
  | cons x a ih =>
    have hx : decide (x ≠ t) = true := decide_eq_true (h x (by simp))
    rw [List.cons_append, List.dropWhile_cons, if_pos hx]
    exact ih (fun y hy => h y (List.mem_cons_of_mem _ hy))

theorem takeWhile_ne {t : Str} {a b : List Str} (h : ∀ x ∈ a, x ≠ t) (hb : b = [] ∨ ∃ r, b = t :: r) : (a ++ b).takeWhile (fun x => decide (x ≠ t)) = a := by
  induction a with
  | nil => rcases hb with rfl | ⟨r, rfl⟩ <;> simp
  | cons x a ih =>
    have hx : decide (x ≠ t) = true := decide_eq_true (h x (by simp))
    rw [List.cons_append, List.takeWhile_cons, if_pos hx, ih (fun y hy => h y (List.mem_cons_of_mem _ hy))]

/-! ## A slot -/

theorem dec_title {utf8 : Bool} {primary : Option Str} {s : RSlot} (h : PlainSlot s) : decolor false (slotTitle utf8 primary s) = titleText utf8 primary s := by
  have ho := h.opts
  simp only [List.mem_cons, List.not_mem_nil, or_false, forall_eq_or_imp, forall_eq] at ho
  obtain ⟨h1, h2, -⟩ := ho
  have hm : ∀ r, decolor false ((if s.bootname.isSome then dot utf8 (decide (primary = some s.name)) else c!" ") ++ r) = marker utf8 primary s ++ decolor false r := by
    intro r
    unfold marker dot
    cases s.bootname with
    | none => exact dec_app (a := c!" ") (by decide) r
    | some b =>
      simp only [Option.isSome_some, if_true, reduceCtorEq, if_false]
      cases utf8 <;> cases decide (primary = some s.name)
      · exact dec_app (by decide) r
      · simp only [Bool.false_eq_true, if_false, if_true, List.append_assoc]
        rw [dec_bold, dec_app (by decide), dec_norm]
      · exact dec_app (by decide) r
      · exact dec_app (by decide) r
  have hs : stateStr s.state = none ∨ '\x1B' ∉ InfoText.pstr (stateStr s.state) := by
    cases s.state with
    | none => exact .inl rfl
    | some x => cases x <;> exact .inr (by decide)
  have hs2 : Plain (InfoText.pstr (stateStr s.state)) ∧ InfoText.pstr (stateStr s.state) = stateWord s.state := by
    cases s.state with
    | none => exact ⟨by decide, rfl⟩
    | some x => cases x <;> exact ⟨by decide, rfl⟩
  have hp : (if s.parent.isSome then c!"   " else c!" ") = (if s.parent = none then c!" " else c!"   ") := by cases s.parent <;> rfl
  unfold slotTitle titleText
  simp only [List.append_assoc]
  rw [hm, hp, dec_app (by split <;> decide), dec_ite _ _ _ dec_green, dec_ite _ _ _ dec_green, dec_bold, dec_app (by decide), dec_app h.name.2, dec_app (by decide), dec_norm, dec_app (by decide),
    dec_app (plain_pstr h1).2, dec_app (by decide), dec_app (plain_pstr h2).2, dec_app (by decide), dec_ite _ _ _ dec_bold, dec_app hs2.1.2, dec_norm, hs2.2, InfoText.pstr_eq, InfoText.pstr_eq]
  rfl

theorem dec_opt {o : Option Str} (L : Str) (hL : '\x1B' ∉ L) (h : ∀ v ∈ o, Plain v) : ((o.map (L ++ ·)).toList).map (decolor false) = (o.map (L ++ ·)).toList := by
  cases o with
  | none => rfl
  | some v =>
    simp only [Option.map_some, Option.toList_some, List.map_cons, List.map_nil]
    rw [dec_app hL, dec_plain (h v rfl).2]

/-- the recorded data contains no colours -/
theorem dec_detail {fmt : Int → Str} (hf : ∀ n, Plain (fmt n)) {st : SlotStatus} (h : PlainStatus st) : (detailLines fmt st).map (decolor false) = detailLines fmt st := by
  have ho := h.opts
  simp only [List.mem_cons, List.not_mem_nil, or_false, forall_eq_or_imp, forall_eq] at ho
  obtain ⟨h1, h2, h3, h4, h5, h6, h7, h8⟩ := ho
  have e : ∀ l ∈ detailLines fmt st, '\x1B' ∉ l := by
    have app : ∀ {a b : Str}, '\x1B' ∉ a → Plain b → '\x1B' ∉ a ++ b := by
      intro a b ha hb
      simp only [List.mem_append, not_or]
      exact ⟨ha, hb.2⟩
    intro l hl
    simp only [detailLines, List.mem_append, List.mem_cons, List.not_mem_nil, or_false, Option.mem_toList, Option.mem_def, Option.map_eq_some_iff] at hl
    rcases hl with ((((((((((((hl | hl) | hl) | hl) | hl) | hl) | hl) | hl) | hl) | hl) | hl) | hl) | hl) | hl
    · rcases hl with rfl | rfl | rfl
      · decide
      · decide
      · exact app (by decide) (plain_pstr h1)
    · obtain ⟨v, e, rfl⟩ := hl; exact app (by decide) (h2 v e)
    · obtain ⟨v, e, rfl⟩ := hl; exact app (by decide) (h3 v e)
    · obtain ⟨v, e, rfl⟩ := hl; exact app (by decide) (h4 v e)
    · obtain ⟨v, e, rfl⟩ := hl; exact app (by decide) (h5 v e)
    · split at hl
      · simp only [List.mem_cons, List.not_mem_nil, or_false] at hl
        rcases hl with rfl | rfl | rfl
        · decide
        · exact app (by decide) (plain_pstr h6)
        · exact app (by decide) (hf _)
      · cases hl
    · subst hl; decide
    · obtain ⟨v, e, rfl⟩ := hl; exact app (by decide) (fmt_plain v)
    · obtain ⟨v, e, rfl⟩ := hl; exact app (by decide) (toDec_plain _)
    · obtain ⟨v, e, rfl⟩ := hl; exact app (by decide) (h7 v e)
    · split at hl
      · rw [List.mem_singleton.1 hl]; decide
      · cases hl
    · obtain ⟨v, e, rfl⟩ := hl; exact app (by decide) (fmt_plain v)
    · obtain ⟨v, e, rfl⟩ := hl; exact app (by decide) (toDec_plain _)
    · obtain ⟨v, e, rfl⟩ := hl; exact app (by decide) (h8 v e)
  conv_rhs => rw [← List.map_id (detailLines fmt st)]
  exact List.map_congr_left fun l hl => dec_plain (e l hl)

/-- the lines after the first without colours -/
def restText (fmt : Int → Str) (detailed : Bool) (s : RSlot) : List Str :=
  (s.bootname.map (c!"      bootname: " ++ ·)).toList ++ (s.description.map (c!"      description: " ++ ·)).toList ++ (s.mountPoint.map (c!"      mounted: " ++ ·)).toList ++
  ((s.bootname.map (fun _ => bootWord s.bootState)).map (c!"      boot status: " ++ ·)).toList ++ (if detailed then s.status.toList.flatMap (detailLines fmt) else [])

theorem dec_rest {fmt : Int → Str} (hf : ∀ n, Plain (fmt n)) {detailed : Bool} {s : RSlot} (h : PlainSlot s) : (slotRest fmt detailed s).map (decolor false) = restText fmt detailed s := by
  have ho := h.opts
  simp only [List.mem_cons, List.not_mem_nil, or_false, forall_eq_or_imp, forall_eq] at ho
  obtain ⟨-, -, h3, h4, h5⟩ := ho
  unfold slotRest restText
  simp only [List.map_append]
  congr 1
  · congr 1
    · rw [dec_opt _ (by decide) h4, dec_opt _ (by decide) h5]
      congr 2
      cases hb : s.bootname with
      | none => rfl
      | some b =>
        simp only [Option.map_some, Option.toList_some, List.map_cons, List.map_nil, List.append_assoc]
        rw [dec_app (by decide), dec_blue, dec_app (h3 b hb).2]
        simp [InfoText.norm, decolor]
    · cases hb : s.bootname with
      | none => rfl
      | some b =>
        simp only [Option.map_some, Option.toList_some, List.map_cons, List.map_nil, List.append_assoc]
        have hc : ∀ r, decolor false ((if s.bootState = some true then InfoText.green else red) ++ r) = decolor false r := by
          intro r; split
          · exact dec_green r
          · exact dec_red r
        have hw : '\x1B' ∉ bootStr s.bootState ∧ bootStr s.bootState = bootWord s.bootState := by
          cases s.bootState with
          | none => exact ⟨by decide, rfl⟩
          | some x => cases x <;> exact ⟨by decide, rfl⟩
        rw [dec_app (by decide), hc, dec_app hw.1, hw.2]
        simp [InfoText.norm, decolor]
  · cases detailed with
    | false => rfl
    | true =>
      simp only [if_true]
      cases hst : s.status with
      | none => rfl
      | some st =>
        simp only [Option.toList_some, List.flatMap_cons, List.flatMap_nil, List.append_nil]
        exact dec_detail hf (h.status st hst)

/-! ### Headings -/

theorem qualify_top (h : Str) (o : Option Str) (L : Str) (r : List Str) (h1 : ∀ x ∈ subHeads, L.isPrefixOf x = false) (h2 : InfoText.Incomp L (List.replicate 14 ' ')) :
    qualify h ((o.map (L ++ ·)).toList ++ r) = (o.map (L ++ ·)).toList ++ qualify h r := by
  cases o with
  | none => rfl
  | some v =>
    simp only [Option.map_some, Option.toList_some, List.singleton_append]
    rw [qualify, if_neg, if_neg]
    · intro hi
      rcases List.prefix_or_prefix_of_prefix (List.prefix_append L v) (List.isPrefixOf_iff_prefix.1 hi) with h3 | h3
      · have := List.isPrefixOf_iff_prefix.2 h3; rw [h2.1] at this; cases this
      · have := List.isPrefixOf_iff_prefix.2 h3; rw [h2.2] at this; cases this
    · intro hm
      have := h1 _ hm
      rw [List.isPrefixOf_iff_prefix.2 (List.prefix_append L v)] at this
      cases this

theorem qualify_sub (h : Str) (o : Option Str) (L : Str) (r : List Str) :
    qualify h ((o.map ((c!"              " ++ L) ++ ·)).toList ++ r) = (o.map ((h ++ L) ++ ·)).toList ++ qualify h r := by
  cases o with
  | none => rfl
  | some v =>
    simp only [Option.map_some, Option.toList_some, List.singleton_append]
    have hi : indented 14 (c!"              " ++ L ++ v) = true := List.isPrefixOf_iff_prefix.2 ⟨L ++ v, by simp⟩
    rw [qualify, if_neg, if_pos hi]
    · congr 1
      simp
    · intro hm
      have hd : ∀ x ∈ subHeads, indented 14 x = false := by decide
      rw [hd _ hm] at hi
      cases hi

theorem qualify_subf {α : Type} (h : Str) (o : Option α) (f : α → Str) (L : Str) (r : List Str) :
    qualify h ((o.map (fun t => (c!"              " ++ L) ++ f t)).toList ++ r) = (o.map (fun t => (h ++ L) ++ f t)).toList ++ qualify h r := by
  have := qualify_sub h (o.map f) L r
  rw [Option.map_map, Option.map_map] at this
  exact this

theorem qualify_head (h : Str) (x : Str) (r : List Str) (hx : x ∈ subHeads) : qualify h (x :: r) = qualify x r := by rw [qualify, if_pos hx]

theorem qualify_detail (fmt : Int → Str) (st : SlotStatus) :
    qualify [] (detailLines fmt st) = InfoText.pieceLines
      [(c!"          bundle:compatible=", some (orNull st.bundleCompatible)), (c!"          bundle:version=", st.bundleVersion),
       (c!"          bundle:description=", st.bundleDescription), (c!"          bundle:build=", st.bundleBuild), (c!"          bundle:hash=", st.bundleHash),
       (c!"          checksum:sha256=", if st.sha256 then st.digest else none), (c!"          checksum:size=", if st.sha256 then st.digest.map (fun _ => fmt st.size) else none),
       (c!"          installed:timestamp=", st.installedTimestamp.map DateTime.fmt), (c!"          installed:count=", st.installedTimestamp.map (fun _ => toDec st.installedCount)),
       (c!"          installed:transaction=", st.installedTxn),
       (c!"          activated:timestamp=", st.activatedTimestamp.map DateTime.fmt), (c!"          activated:count=", st.activatedTimestamp.map (fun _ => toDec st.activatedCount)),
       (c!"          status=", st.status)] := by
  have tl : ∀ (o : Option Str) (L : Str), (o.map (L ++ ·)).toList = (o.map (L ++ ·)).toList ++ [] := fun _ _ => (List.append_nil _).symm
  have act : ∀ h : Str, qualify h ((if st.activatedTimestamp.isSome then [c!"          activated:"] else []) ++ ((st.activatedTimestamp.map (fun t => c!"              timestamp=" ++ t.fmt)).toList ++
      ((st.activatedTimestamp.map (fun _ => c!"              count=" ++ toDec st.activatedCount)).toList ++ (st.status.map (c!"          status=" ++ ·)).toList))) =
      InfoText.pieceLines [(c!"          activated:timestamp=", st.activatedTimestamp.map DateTime.fmt), (c!"          activated:count=", st.activatedTimestamp.map (fun _ => toDec st.activatedCount)),
       (c!"          status=", st.status)] := by
    intro h
    have hs : ∀ h, qualify h (st.status.map (c!"          status=" ++ ·)).toList = (st.status.map (c!"          status=" ++ ·)).toList := by
      intro h
      have := qualify_top h st.status c!"          status=" [] (by decide) (by decide)
      simpa [qualify] using this
    cases ha : st.activatedTimestamp with
    | none => simpa [InfoText.pieceLines] using hs h
    | some t =>
      have e1 := qualify_sub c!"          activated:" (some t.fmt) c!"timestamp=" ((some (c!"              count=" ++ toDec st.activatedCount)).toList ++ (st.status.map (c!"          status=" ++ ·)).toList)
      have e2 := qualify_sub c!"          activated:" (some (toDec st.activatedCount)) c!"count=" (st.status.map (c!"          status=" ++ ·)).toList
      simp only [Option.isSome_some, if_true, Option.map_some, List.singleton_append]
      rw [qualify_head _ _ _ (by decide)]
      refine Eq.trans e1 ?_
      rw [show (some (c!"              count=" ++ toDec st.activatedCount)).toList = (Option.map (fun x => c!"              " ++ c!"count=" ++ x) (some (toDec st.activatedCount))).toList from rfl, e2, hs]
      simp [InfoText.pieceLines]
  have inst : ∀ (h : Str) (r : List Str) (q : List Str), (∀ h, qualify h r = q) →
      qualify h ([c!"          installed:"] ++ ((st.installedTimestamp.map (fun t => c!"              timestamp=" ++ t.fmt)).toList ++
        ((st.installedTimestamp.map (fun _ => c!"              count=" ++ toDec st.installedCount)).toList ++ ((st.installedTxn.map (c!"              transaction=" ++ ·)).toList ++ r)))) =
      (st.installedTimestamp.map (fun t => c!"          installed:timestamp=" ++ t.fmt)).toList ++
        ((st.installedTimestamp.map (fun _ => c!"          installed:count=" ++ toDec st.installedCount)).toList ++ ((st.installedTxn.map (c!"          installed:transaction=" ++ ·)).toList ++ q)) := by
    intro h r q hq
    rw [List.singleton_append, qualify_head _ _ _ (by decide)]
    refine (qualify_subf c!"          installed:" st.installedTimestamp DateTime.fmt c!"timestamp=" _).trans ?_
    refine congrArg _ ((qualify_subf c!"          installed:" st.installedTimestamp (fun _ => toDec st.installedCount) c!"count=" _).trans ?_)
    refine congrArg _ ((qualify_subf c!"          installed:" st.installedTxn id c!"transaction=" _).trans ?_)
    rw [hq]
    rfl
  have chk : ∀ (h : Str) (r : List Str) (q : List Str), (∀ h, qualify h r = q) →
      qualify h ((if st.digest.isSome ∧ st.sha256 then [c!"          checksum:", c!"              sha256=" ++ InfoText.pstr st.digest, c!"              size=" ++ fmt st.size] else []) ++ r) =
      ((if st.sha256 then st.digest else none).map (c!"          checksum:sha256=" ++ ·)).toList ++ (((if st.sha256 then st.digest.map (fun _ => fmt st.size) else none).map (c!"          checksum:size=" ++ ·)).toList ++ q) := by
    intro h r q hq
    cases hd : st.digest with
    | none => simp [hq]
    | some d =>
      cases hs : st.sha256 with
      | false => simp [hq]
      | true =>
        simp only [Option.isSome_some, and_self, if_true, Option.map_some, Option.toList_some, List.cons_append, List.nil_append]
        rw [qualify_head _ _ _ (by decide)]
        refine (qualify_subf c!"          checksum:" (some d) id c!"sha256=" _).trans ?_
        refine congrArg _ ((qualify_subf c!"          checksum:" (some (fmt st.size)) id c!"size=" _).trans ?_)
        rw [hq]
        rfl
  have e1 := fun h => inst h _ _ act
  have e2 := fun h => chk h _ _ e1
  unfold detailLines
  simp only [List.append_assoc]
  refine (qualify_head [] c!"      slot status:" _ (by decide)).trans ?_
  refine (qualify_head _ c!"          bundle:" _ (by decide)).trans ?_
  refine (qualify_subf c!"          bundle:" (some (InfoText.pstr st.bundleCompatible)) id c!"compatible=" _).trans ?_
  have hb : ∀ (a b c d : Option Str) (r q : List Str), (∀ h, qualify h r = q) →
      qualify c!"          bundle:" ((a.map (c!"              version=" ++ ·)).toList ++ ((b.map (c!"              description=" ++ ·)).toList ++
        ((c.map (c!"              build=" ++ ·)).toList ++ ((d.map (c!"              hash=" ++ ·)).toList ++ r)))) =
      (a.map (c!"          bundle:version=" ++ ·)).toList ++ ((b.map (c!"          bundle:description=" ++ ·)).toList ++
        ((c.map (c!"          bundle:build=" ++ ·)).toList ++ ((d.map (c!"          bundle:hash=" ++ ·)).toList ++ q))) := by
    intro a b c d r q hq
    refine (qualify_subf c!"          bundle:" a id c!"version=" _).trans ?_
    refine congrArg _ ((qualify_subf c!"          bundle:" b id c!"description=" _).trans ?_)
    refine congrArg _ ((qualify_subf c!"          bundle:" c id c!"build=" _).trans ?_)
    refine congrArg _ ((qualify_subf c!"          bundle:" d id c!"hash=" _).trans ?_)
    rw [hq]
    rfl
  have e3 := hb st.bundleVersion st.bundleDescription st.bundleBuild st.bundleHash _ _ e2
  refine (congrArg _ e3).trans ?_
  rw [InfoText.pstr_eq]
  simp only [InfoText.pieceLines, List.flatMap_cons, List.flatMap_nil, List.append_nil, Option.map_map, List.append_assoc, Option.map_some, Option.toList_some]
  rfl

theorem qualify_rest (fmt : Int → Str) (detailed : Bool) (s : RSlot) : qualify [] (restText fmt detailed s) = InfoText.pieceLines (slotFields fmt detailed s) := by
  have top : ∀ (a b c d : Option Str) (r q : List Str), qualify [] r = q →
      qualify [] ((a.map (c!"      bootname: " ++ ·)).toList ++ ((b.map (c!"      description: " ++ ·)).toList ++ ((c.map (c!"      mounted: " ++ ·)).toList ++ ((d.map (c!"      boot status: " ++ ·)).toList ++ r)))) =
      (a.map (c!"      bootname: " ++ ·)).toList ++ ((b.map (c!"      description: " ++ ·)).toList ++ ((c.map (c!"      mounted: " ++ ·)).toList ++ ((d.map (c!"      boot status: " ++ ·)).toList ++ q))) := by
    intro a b c d r q hq
    rw [qualify_top _ _ _ _ (by decide) (by decide), qualify_top _ _ _ _ (by decide) (by decide), qualify_top _ _ _ _ (by decide) (by decide), qualify_top _ _ _ _ (by decide) (by decide), hq]
  unfold restText
  simp only [List.append_assoc]
  cases detailed with
  | false =>
    rw [if_neg (by decide), top _ _ _ _ [] [] rfl]
    simp only [InfoText.pieceLines, slotFields, List.flatMap_cons, List.flatMap_nil, List.append_nil, Bool.false_eq_true, if_false, Option.map_none, Option.bind_none, Option.toList_none]
  | true =>
    rw [if_pos rfl]
    cases hs : s.status with
    | none =>
      rw [Option.toList_none, List.flatMap_nil, top _ _ _ _ [] [] rfl]
      simp only [InfoText.pieceLines, slotFields, hs, List.flatMap_cons, List.flatMap_nil, List.append_nil, if_true, Option.map_none, Option.bind_none, Option.toList_none]
    | some st =>
      rw [Option.toList_some, List.flatMap_cons, List.flatMap_nil, List.append_nil, top _ _ _ _ _ _ (qualify_detail fmt st)]
      simp only [InfoText.pieceLines, slotFields, hs, List.flatMap_cons, List.flatMap_nil, List.append_nil, if_true, Option.map_some, Option.bind_some, List.append_assoc]

theorem shown_rest (fmt : Int → Str) (detailed : Bool) (s : RSlot) : ∀ e ∈ slotFields fmt detailed s, shown e.1 (qualify [] (restText fmt detailed s)) = e.2.toList := by
  rw [qualify_rest]
  refine InfoText.shown_pieces _ ?_
  change List.Pairwise InfoText.Incomp [c!"      bootname: ", c!"      description: ", c!"      mounted: ", c!"      boot status: ", c!"          bundle:compatible=", c!"          bundle:version=",
    c!"          bundle:description=", c!"          bundle:build=", c!"          bundle:hash=", c!"          checksum:sha256=", c!"          checksum:size=", c!"          installed:timestamp=",
    c!"          installed:count=", c!"          installed:transaction=", c!"          activated:timestamp=", c!"          activated:count=", c!"          status="]
  decide +kernel

/-- all lines after the first are indented by six blanks -/
theorem rest_indented (fmt : Int → Str) (detailed : Bool) (s : RSlot) : ∀ l ∈ restText fmt detailed s, indented 6 l = true := by
  have pre : ∀ L v : Str, indented 6 L = true → indented 6 (L ++ v) = true := by
    intro L v h
    exact List.isPrefixOf_iff_prefix.2 ((List.isPrefixOf_iff_prefix.1 h).trans (List.prefix_append L v))
  have opt : ∀ {α : Type} (o : Option α) (L : Str) (f : α → Str), indented 6 L = true → ∀ l, l ∈ (o.map (fun x => L ++ f x)).toList → indented 6 l = true := by
    intro α o L f hL l hl
    simp only [Option.mem_toList, Option.mem_def, Option.map_eq_some_iff] at hl
    obtain ⟨v, -, rfl⟩ := hl
    exact pre _ _ hL
  intro l hl
  simp only [restText, List.mem_append] at hl
  rcases hl with (((hl | hl) | hl) | hl) | hl
  · exact opt _ c!"      bootname: " id (by decide) l hl
  · exact opt _ c!"      description: " id (by decide) l hl
  · exact opt _ c!"      mounted: " id (by decide) l hl
  · exact opt _ c!"      boot status: " id (by decide) l hl
  · split at hl
    · obtain ⟨st, -, hl⟩ := List.mem_flatMap.1 hl
      simp only [detailLines, List.mem_append] at hl
      rcases hl with ((((((((((((hl | hl) | hl) | hl) | hl) | hl) | hl) | hl) | hl) | hl) | hl) | hl) | hl) | hl
      · simp only [List.mem_cons, List.not_mem_nil, or_false] at hl
        rcases hl with rfl | rfl | rfl
        · decide
        · decide
        · exact pre _ _ (by decide)
      · exact opt _ c!"              version=" id (by decide) l hl
      · exact opt _ c!"              description=" id (by decide) l hl
      · exact opt _ c!"              build=" id (by decide) l hl
      · exact opt _ c!"              hash=" id (by decide) l hl
      · split at hl
        · simp only [List.mem_cons, List.not_mem_nil, or_false] at hl
          rcases hl with rfl | rfl | rfl
          · decide
          · exact pre _ _ (by decide)
          · exact pre _ _ (by decide)
        · cases hl
      · rw [List.mem_singleton.1 hl]; decide
      · exact opt _ c!"              timestamp=" _ (by decide) l hl
      · exact opt _ c!"              count=" _ (by decide) l hl
      · exact opt _ c!"              transaction=" id (by decide) l hl
      · split at hl
        · rw [List.mem_singleton.1 hl]; decide
        · cases hl
      · exact opt _ c!"              timestamp=" _ (by decide) l hl
      · exact opt _ c!"              count=" _ (by decide) l hl
      · exact opt _ c!"          status=" id (by decide) l hl
    · cases hl

theorem title_shape (utf8 : Bool) (primary : Option Str) (s : RSlot) : ∃ c d r, titleText utf8 primary s = c :: d :: r ∧ c ≠ '=' ∧ indented 6 (c :: d :: r) = false := by
  have hm : ∃ c, marker utf8 primary s = [c] ∧ c ≠ '=' := by
    unfold marker
    split
    · exact ⟨_, rfl, by decide⟩
    · cases utf8 <;> cases decide (primary = some s.name) <;> exact ⟨_, rfl, by decide⟩
  obtain ⟨c, hc, hne⟩ := hm
  unfold titleText
  rw [hc]
  split
  · exact ⟨c, ' ', _, rfl, hne, by simp [indented, List.replicate, List.isPrefixOf]⟩
  · exact ⟨c, ' ', _, rfl, hne, by simp [indented, List.replicate, List.isPrefixOf]⟩

/-! ## No line breaks in the lines -/

theorem nonl_lab {α : Type} {o : Option α} {L : Str} {f : α → Str} (hL : '\n' ∉ L) (h : ∀ v ∈ o, '\n' ∉ f v) : ∀ l, l ∈ (o.map (fun x => L ++ f x)).toList → '\n' ∉ l := by
  intro l hl
  simp only [Option.mem_toList, Option.mem_def, Option.map_eq_some_iff] at hl
  obtain ⟨v, hv, rfl⟩ := hl
  exact InfoText.nonl_app hL (h v hv)

theorem nonl_detail {fmt : Int → Str} (hf : ∀ n, Plain (fmt n)) {st : SlotStatus} (h : PlainStatus st) : ∀ l ∈ detailLines fmt st, '\n' ∉ l := by
  have ho := h.opts
  simp only [List.mem_cons, List.not_mem_nil, or_false, forall_eq_or_imp, forall_eq] at ho
  obtain ⟨h1, h2, h3, h4, h5, h6, h7, h8⟩ := ho
  intro l hl
  simp only [detailLines, List.mem_append] at hl
  rcases hl with ((((((((((((hl | hl) | hl) | hl) | hl) | hl) | hl) | hl) | hl) | hl) | hl) | hl) | hl) | hl
  · simp only [List.mem_cons, List.not_mem_nil, or_false] at hl
    rcases hl with rfl | rfl | rfl
    · decide
    · decide
    · exact InfoText.nonl_app (by decide) (plain_pstr h1).1
  · exact nonl_lab (f := id) (by decide) (fun v hv => (h2 v hv).1) l hl
  · exact nonl_lab (f := id) (by decide) (fun v hv => (h3 v hv).1) l hl
  · exact nonl_lab (f := id) (by decide) (fun v hv => (h4 v hv).1) l hl
  · exact nonl_lab (f := id) (by decide) (fun v hv => (h5 v hv).1) l hl
  · split at hl
    · simp only [List.mem_cons, List.not_mem_nil, or_false] at hl
      rcases hl with rfl | rfl | rfl
      · decide
      · exact InfoText.nonl_app (by decide) (plain_pstr h6).1
      · exact InfoText.nonl_app (by decide) (hf _).1
    · cases hl
  · rw [List.mem_singleton.1 hl]; decide
  · exact nonl_lab (by decide) (fun v _ => (fmt_plain v).1) l hl
  · exact nonl_lab (by decide) (fun v _ => (toDec_plain _).1) l hl
  · exact nonl_lab (f := id) (by decide) (fun v hv => (h7 v hv).1) l hl
  · split at hl
    · rw [List.mem_singleton.1 hl]; decide
    · cases hl
  · exact nonl_lab (by decide) (fun v _ => (fmt_plain v).1) l hl
  · exact nonl_lab (by decide) (fun v _ => (toDec_plain _).1) l hl
  · exact nonl_lab (f := id) (by decide) (fun v hv => (h8 v hv).1) l hl

theorem nonl_slot {fmt : Int → Str} (hf : ∀ n, Plain (fmt n)) {utf8 detailed : Bool} {primary : Option Str} {s : RSlot} (h : PlainSlot s) :
    ∀ l ∈ slotLines fmt utf8 detailed primary s, '\n' ∉ l := by
  have ho := h.opts
  simp only [List.mem_cons, List.not_mem_nil, or_false, forall_eq_or_imp, forall_eq] at ho
  obtain ⟨h1, h2, h3, h4, h5⟩ := ho
  intro l hl
  rcases List.mem_cons.1 hl with rfl | hl
  · unfold slotTitle
    repeat' apply InfoText.nonl_app
    all_goals first
      | decide
      | exact h.name.1
      | exact (plain_pstr h1).1
      | exact (plain_pstr h2).1
      | (cases s.state with
         | none => decide
         | some x => cases x <;> decide)
      | (split
         · unfold dot; cases utf8 <;> cases decide (primary = some s.name) <;> decide
         · decide)
      | (split <;> decide)
  · simp only [slotRest, List.mem_append] at hl
    rcases hl with (((hl | hl) | hl) | hl) | hl
    · simp only [Option.mem_toList, Option.mem_def, Option.map_eq_some_iff] at hl
      obtain ⟨b, hb, rfl⟩ := hl
      exact InfoText.nonl_app (InfoText.nonl_app (by decide) (h3 b hb).1) (by decide)
    · exact nonl_lab (f := id) (by decide) (fun v hv => (h4 v hv).1) l hl
    · exact nonl_lab (f := id) (by decide) (fun v hv => (h5 v hv).1) l hl
    · simp only [Option.mem_toList, Option.mem_def, Option.map_eq_some_iff] at hl
      obtain ⟨b, hb, rfl⟩ := hl
      refine InfoText.nonl_app (InfoText.nonl_app (InfoText.nonl_app (by decide) ?_) ?_) (by decide)
      · split <;> decide
      · cases s.bootState with
        | none => decide
        | some x => cases x <;> decide
    · split at hl
      · obtain ⟨st, hst, hl⟩ := List.mem_flatMap.1 hl
        exact nonl_detail hf (h.status st (by simpa using hst)) l hl
      · cases hl

/-! ## A repository -/

/-- the lines of a repository -/
def repoLines (r : RepoView) : List Str := (InfoText.bold ++ c!"[" ++ r.name ++ c!"]" ++ InfoText.norm ++ c!" (" ++ orNull r.path ++ c!")") :: repoRest r

theorem repoText_eq {r : RepoView} (h : PlainRepo r) : repoText r = (repoLines r).flatMap InfoText.ln := by
  obtain ⟨p, hp, -⟩ := h.path
  unfold repoText repoLines
  rw [hp]
  simp [InfoText.ln, orNull]

theorem plain_join {l : List Str} (h : ∀ v ∈ l, Plain v) : Plain (join ' ' l) := by
  refine ⟨InfoText.nonl_join fun v hv => (h v hv).1, ?_⟩
  induction l with
  | nil => simp [join]
  | cons a l ih =>
    cases l with
    | nil => exact (h a (by simp)).2
    | cons b l =>
      rw [join]
      · have := ih (fun v hv => h v (List.mem_cons_of_mem _ hv))
        have ha := (h a (by simp)).2
        simp only [List.mem_append, List.mem_cons, not_or]
        exact ⟨ha, by decide, this⟩
      · simp

theorem plain_inst {hasParent : Bool} {x : Instance} (h : Plain x.checksum ∧ ∀ f ∈ x.refs, Plain f) : ∀ l ∈ instLines hasParent x, Plain l := by
  intro l hl
  simp only [instLines, List.mem_cons, List.not_mem_nil, or_false] at hl
  rcases hl with rfl | rfl
  · exact Plain.append (by decide) h.1
  · split
    · split
      · decide
      · exact Plain.append (Plain.append (by decide) (plain_join h.2)) (by decide)
    · split <;> decide

/-- the lines of a repository without colours -/
def repoRest0 (r : RepoView) : List Str :=
  (r.typ.map (c!"  type: " ++ ·)).toList ++ (r.parentClass.map (c!"  parent class: " ++ ·)).toList ++ [if r.artifacts.isEmpty then c!"  artifacts: (none)" else c!"  artifacts:"] ++
  r.artifacts.flatMap (fun a => (c!"    [" ++ a.name ++ c!"]") :: a.instances.flatMap (instLines r.parentClass.isSome))

theorem dec_repo {r : RepoView} (h : PlainRepo r) : (repoLines r).map (decolor false) = (c!"[" ++ r.name ++ c!"] (" ++ orNull r.path ++ c!")") :: repoRest0 r := by
  obtain ⟨p, hp, hpp⟩ := h.path
  have ho := h.opts
  simp only [List.mem_cons, List.not_mem_nil, or_false, forall_eq_or_imp, forall_eq] at ho
  unfold repoLines repoRest repoRest0
  rw [List.map_cons, List.map_append, List.map_append, List.map_append, dec_opt _ (by decide) ho.1, dec_opt _ (by decide) ho.2, List.map_flatMap]
  have hpe : '\x1B' ∉ orNull r.path := by rw [hp]; exact hpp.2
  congr 1
  · simp only [List.append_assoc]
    rw [dec_bold, dec_app (by decide), dec_app h.name.2, dec_app (by decide), dec_norm, dec_app (by decide), dec_app hpe]
    rfl
  · congr 1
    · congr 1
      rw [List.map_cons, List.map_nil, dec_plain (by split <;> decide)]
    · refine List.flatMap_congr fun a ha => ?_
      obtain ⟨a1, a2⟩ := h.arts a ha
      unfold artLines
      rw [List.map_cons, List.map_flatMap]
      congr 1
      · simp only [List.append_assoc]
        rw [dec_app (by decide), dec_bold, dec_app (by decide), dec_app a1.2, dec_app (by decide)]
        simp [InfoText.norm, decolor]
      · refine List.flatMap_congr fun x hx => ?_
        conv_rhs => rw [← List.map_id (instLines r.parentClass.isSome x)]
        exact List.map_congr_left fun l hl => dec_plain (plain_inst (a2 x hx) l hl).2

theorem nonl_repo {r : RepoView} (h : PlainRepo r) : ∀ l ∈ repoLines r, '\n' ∉ l := by
  obtain ⟨p, hp, hpp⟩ := h.path
  have ho := h.opts
  simp only [List.mem_cons, List.not_mem_nil, or_false, forall_eq_or_imp, forall_eq] at ho
  intro l hl
  rcases List.mem_cons.1 hl with rfl | hl
  · rw [hp]
    exact InfoText.nonl_app (InfoText.nonl_app (InfoText.nonl_app (InfoText.nonl_app (InfoText.nonl_app (InfoText.nonl_app (by decide) (by decide)) h.name.1) (by decide)) (by decide)) (by decide)) hpp.1 |> fun q =>
      InfoText.nonl_app q (by decide)
  · simp only [repoRest, List.mem_append] at hl
    rcases hl with ((hl | hl) | hl) | hl
    · exact nonl_lab (f := id) (by decide) (fun v hv => (ho.1 v hv).1) l hl
    · exact nonl_lab (f := id) (by decide) (fun v hv => (ho.2 v hv).1) l hl
    · rw [List.mem_singleton.1 hl]; split <;> decide
    · obtain ⟨a, ha, hl⟩ := List.mem_flatMap.1 hl
      obtain ⟨a1, a2⟩ := h.arts a ha
      rcases List.mem_cons.1 hl with rfl | hl
      · exact InfoText.nonl_app (InfoText.nonl_app (InfoText.nonl_app (by decide) a1.1) (by decide)) (by decide)
      · obtain ⟨x, hx, hl⟩ := List.mem_flatMap.1 hl
        exact (plain_inst (a2 x hx) l hl).1

theorem ind_app {n : Nat} {L : Str} (v : Str) (h : indented n L = true) : indented n (L ++ v) = true :=
  List.isPrefixOf_iff_prefix.2 ((List.isPrefixOf_iff_prefix.1 h).trans (List.prefix_append L v))

theorem notInd_app {n : Nat} {L : Str} (v : Str) (h : InfoText.Incomp L (List.replicate n ' ')) : indented n (L ++ v) = false := by
  rw [Bool.eq_false_iff]
  intro hi
  rcases List.prefix_or_prefix_of_prefix (List.prefix_append L v) (List.isPrefixOf_iff_prefix.1 hi) with h3 | h3
  · have := List.isPrefixOf_iff_prefix.2 h3; rw [h.1] at this; cases this
  · have := List.isPrefixOf_iff_prefix.2 h3; rw [h.2] at this; cases this

theorem inst_ind (hp : Bool) (x : Instance) : ∀ l ∈ instLines hp x, indented 6 l = true := by
  intro l hl
  simp only [instLines, List.mem_cons, List.not_mem_nil, or_false] at hl
  rcases hl with rfl | rfl
  · exact ind_app _ (by decide)
  · split
    · split
      · decide
      · exact ind_app _ (ind_app _ (by decide))
    · split <;> decide

theorem shown_none {lab : Str} {l : List Str} (h : ∀ x ∈ l, ∃ L v, x = L ++ v ∧ InfoText.Incomp lab L) : shown lab l = [] := by
  unfold shown
  rw [List.filterMap_eq_nil_iff]
  intro x hx
  obtain ⟨L, v, rfl, hi⟩ := h x hx
  exact InfoText.strip_diff hi v

theorem rest0_ind (r : RepoView) : ∀ l ∈ repoRest0 r, indented 1 l = true := by
  intro l hl
  simp only [repoRest0, List.mem_append, Option.mem_toList, Option.mem_def, Option.map_eq_some_iff] at hl
  rcases hl with ((hl | hl) | hl) | hl
  · obtain ⟨v, -, rfl⟩ := hl; exact ind_app _ (by decide)
  · obtain ⟨v, -, rfl⟩ := hl; exact ind_app _ (by decide)
  · rw [List.mem_singleton.1 hl]; split <;> decide
  · obtain ⟨a, -, hl⟩ := List.mem_flatMap.1 hl
    rcases List.mem_cons.1 hl with rfl | hl
    · exact ind_app _ (ind_app _ (by decide))
    · obtain ⟨x, -, hl⟩ := List.mem_flatMap.1 hl
      have := inst_ind _ _ l hl
      exact List.isPrefixOf_iff_prefix.2 (List.IsPrefix.trans (by decide : List.replicate 1 ' ' <+: List.replicate 6 ' ') (List.isPrefixOf_iff_prefix.1 this))

theorem readRepo_eq (r : RepoView) : readRepo (c!"[" ++ r.name ++ c!"] (" ++ orNull r.path ++ c!")", repoRest0 r) = repoView r := by
  have harts : ∀ l ∈ r.artifacts.flatMap (fun a => (c!"    [" ++ a.name ++ c!"]") :: a.instances.flatMap (instLines r.parentClass.isSome)), indented 4 l = true := by
    intro l hl
    obtain ⟨a, -, hl⟩ := List.mem_flatMap.1 hl
    rcases List.mem_cons.1 hl with rfl | hl
    · exact ind_app _ (ind_app _ (by decide))
    · obtain ⟨x, -, hl⟩ := List.mem_flatMap.1 hl
      have := inst_ind _ _ l hl
      exact List.isPrefixOf_iff_prefix.2 (List.IsPrefix.trans (by decide : List.replicate 4 ' ' <+: List.replicate 6 ' ') (List.isPrefixOf_iff_prefix.1 this))
  have hart4 : ∀ l ∈ r.artifacts.flatMap (fun a => (c!"    [" ++ a.name ++ c!"]") :: a.instances.flatMap (instLines r.parentClass.isSome)), ∃ v, l = c!"    " ++ v := by
    intro l hl
    obtain ⟨v, hv⟩ := List.isPrefixOf_iff_prefix.1 (harts l hl)
    exact ⟨v, hv.symm⟩
  have hmid : ∀ q : Str, q = (if r.artifacts.isEmpty then c!"  artifacts: (none)" else c!"  artifacts:") → ∃ v, q = c!"  artifacts:" ++ v := by
    intro q hq
    rw [hq]
    split
    · exact ⟨c!" (none)", rfl⟩
    · exact ⟨[], rfl⟩
  have sh : ∀ lab : Str, shown lab (repoRest0 r) = shown lab (r.typ.map (c!"  type: " ++ ·)).toList ++ shown lab (r.parentClass.map (c!"  parent class: " ++ ·)).toList ++
      shown lab [if r.artifacts.isEmpty then c!"  artifacts: (none)" else c!"  artifacts:"] ++ shown lab (r.artifacts.flatMap (fun a => (c!"    [" ++ a.name ++ c!"]") :: a.instances.flatMap (instLines r.parentClass.isSome))) := by
    intro lab
    simp only [shown, repoRest0, List.filterMap_append]
  have s1 : ∀ (o : Option Str) (L : Str), shown L (o.map (L ++ ·)).toList = o.toList := by
    intro o L; cases o with
    | none => rfl
    | some v => simp [shown, InfoText.strip_same]
  have s2 : ∀ (o : Option Str) (L lab : Str), InfoText.Incomp lab L → shown lab (o.map (L ++ ·)).toList = [] := by
    intro o L lab hi
    cases o with
    | none => rfl
    | some v => simp [shown, InfoText.strip_diff hi]
  unfold readRepo repoView
  congr 1
  refine Prod.ext ?_ (Prod.ext ?_ ?_)
  · change shown c!"  type: " (repoRest0 r) = r.typ.toList
    rw [sh, s1, s2 _ _ _ (by decide), shown_none (fun x hx => ?_), shown_none (fun x hx => ?_), List.append_nil, List.append_nil, List.append_nil]
    · obtain ⟨v, rfl⟩ := hart4 x hx
      exact ⟨_, v, rfl, by decide⟩
    · obtain ⟨v, rfl⟩ := hmid x (List.mem_singleton.1 hx)
      exact ⟨_, v, rfl, by decide⟩
  · change shown c!"  parent class: " (repoRest0 r) = r.parentClass.toList
    rw [sh, s1, s2 _ _ _ (by decide), shown_none (fun x hx => ?_), shown_none (fun x hx => ?_), List.append_nil, List.append_nil, List.nil_append]
    · obtain ⟨v, rfl⟩ := hart4 x hx
      exact ⟨_, v, rfl, by decide⟩
    · obtain ⟨v, rfl⟩ := hmid x (List.mem_singleton.1 hx)
      exact ⟨_, v, rfl, by decide⟩
  · change (cut (fun l => !indented 6 l) ((repoRest0 r).filter (indented 4))).map (fun a => (a.1, cut (fun l => !indented 8 l) a.2)) = _
    have f1 : ∀ (o : Option Str) (L : Str), InfoText.Incomp L (List.replicate 4 ' ') → ((o.map (L ++ ·)).toList).filter (indented 4) = [] := by
      intro o L hi
      cases o with
      | none => rfl
      | some v => simp [notInd_app v hi]
    have f2 : [if r.artifacts.isEmpty then c!"  artifacts: (none)" else c!"  artifacts:"].filter (indented 4) = [] := by split <;> decide
    have f3 : (r.artifacts.flatMap (fun a => (c!"    [" ++ a.name ++ c!"]") :: a.instances.flatMap (instLines r.parentClass.isSome))).filter (indented 4) =
        r.artifacts.flatMap (fun a => (c!"    [" ++ a.name ++ c!"]") :: a.instances.flatMap (instLines r.parentClass.isSome)) := List.filter_eq_self.2 harts
    unfold repoRest0
    rw [List.filter_append, List.filter_append, List.filter_append, f1 _ _ (by decide), f1 _ _ (by decide), f2, f3, List.nil_append, List.nil_append, List.nil_append, cut_flatMap, List.map_map]
    · refine List.map_congr_left fun a _ => ?_
      simp only [Function.comp]
      congr 1
      have e : a.instances.flatMap (instLines r.parentClass.isSome) = a.instances.flatMap (fun x => (c!"      checksum: " ++ x.checksum) ::
          [if r.parentClass.isSome then (if x.refs.isEmpty then c!"        references: (none)" else c!"        references: '" ++ join ' ' x.refs ++ c!"'")
            else (if x.refs.isEmpty then c!"        inactive" else c!"        active")]) := rfl
      rw [e, cut_flatMap]
      · refine List.map_congr_left fun x _ => ?_
        congr 2
        cases r.parentClass <;> cases x.refs <;> rfl
      · intro x _
        rw [notInd_app _ (by decide)]; rfl
      · intro x _ y hy
        rw [List.mem_singleton.1 hy]
        have : indented 8 (if r.parentClass.isSome then (if x.refs.isEmpty then c!"        references: (none)" else c!"        references: '" ++ join ' ' x.refs ++ c!"'")
            else (if x.refs.isEmpty then c!"        inactive" else c!"        active")) = true := by
          split
          · split
            · decide
            · exact ind_app _ (ind_app _ (by decide))
          · split <;> decide
        rw [this]; rfl
    · intro a _
      rw [List.append_assoc, notInd_app _ (by decide)]; rfl
    · intro a _ y hy
      obtain ⟨x, -, hy⟩ := List.mem_flatMap.1 hy
      rw [inst_ind _ _ y hy]; rfl

/-! ## The whole output -/

/-- the part after the slots -/
def reposLines (p : Print) : List Str := if p.repos.isEmpty then [] else repoTitle :: p.repos.flatMap (fun r => repoLines r ++ [[]])

theorem mem_children {slots : List RSlot} {k : Option Str} {s x : RSlot} (hs : s ∈ ofClass slots k) (hx : x ∈ s :: children slots s) : x ∈ slots := by
  rcases List.mem_cons.1 hx with rfl | hx
  · exact (List.mem_filter.1 hs).1
  · exact (List.mem_filter.1 hx).1

theorem screen_eq {fmt : Int → Str} {utf8 detailed : Bool} {p : Print} {t : Str} (h : PlainPrint fmt p) (ht : statusReadable fmt utf8 detailed p = some t) :
    screen t = headLines p ++ (slotsLines fmt utf8 detailed p).map (decolor false) ++ (reposLines p).map (decolor false) := by
  have ho := h.opts
  simp only [List.mem_cons, List.not_mem_nil, or_false, forall_eq_or_imp, forall_eq] at ho
  obtain ⟨h1, h2, h3, h4, h5⟩ := ho
  have hb : ∀ v ∈ bootedName p.slots, Plain v := by
    intro v hv
    simp only [bootedName, Option.mem_def, Option.map_eq_some_iff] at hv
    obtain ⟨s, hs, rfl⟩ := hv
    exact (h.slots s (List.mem_of_find?_eq_some hs)).name
  have hpb : ∀ v ∈ (p.slots.find? (fun s => decide (p.primary = some s.name))).bind (·.bootname), Plain v := by
    intro v hv
    obtain ⟨s, hs, hv⟩ := Option.bind_eq_some_iff.1 hv
    have := (h.slots s (List.mem_of_find?_eq_some hs)).opts
    exact this s.bootname (by simp) v hv
  have hhead : ∀ l ∈ headLines p, Plain l := by
    intro l hl
    simp only [headLines, List.mem_cons, List.not_mem_nil, or_false] at hl
    rcases hl with rfl | rfl | rfl | rfl | rfl | rfl | rfl | rfl | rfl | rfl
    · decide
    · exact Plain.append (by decide) (plain_pstr h1)
    · exact Plain.append (by decide) (plain_pstr h2)
    · exact Plain.append (by decide) (plain_pstr h3)
    · exact Plain.append (Plain.append (Plain.append (Plain.append (by decide) (plain_pstr hb)) (by decide)) (plain_pstr h4)) (by decide)
    · decide
    · decide
    · split
      · decide
      · exact Plain.append (Plain.append (Plain.append (Plain.append (by decide) (plain_pstr h5)) (by decide)) (plain_pstr hpb)) (by decide)
    · decide
    · decide
  have hr : reposText p = (reposLines p).flatMap InfoText.ln := by
    unfold reposText reposLines
    split
    · rfl
    · rw [List.flatMap_cons, List.flatMap_assoc]
      refine congrArg _ (List.flatMap_congr fun r hr => ?_)
      rw [List.flatMap_append, repoText_eq (h.repos r hr)]
      rfl
  unfold statusReadable at ht
  split at ht
  · cases ht
  · injection ht with ht
    rw [← ht, hr, ← List.flatMap_append]
    unfold screen
    rw [InfoText.linesOf_flatMap, List.map_append, List.map_append]
    · congr 2
      conv_rhs => rw [← List.map_id (headLines p)]
      exact List.map_congr_left fun l hl => dec_plain (hhead l hl).2
    · intro l hl
      simp only [List.mem_append] at hl
      rcases hl with (hl | hl) | hl
      · exact (hhead l hl).1
      · obtain ⟨k, -, hl⟩ := List.mem_flatMap.1 hl
        obtain ⟨s, hs, hl⟩ := List.mem_flatMap.1 hl
        rcases List.mem_append.1 hl with hl | hl
        · obtain ⟨x, hx, hl⟩ := List.mem_flatMap.1 hl
          exact nonl_slot h.size (h.slots x (mem_children hs hx)) l hl
        · rw [List.mem_singleton.1 hl]; simp
      · unfold reposLines at hl
        split at hl
        · cases hl
        · rcases List.mem_cons.1 hl with rfl | hl
          · decide
          · obtain ⟨r, hr, hl⟩ := List.mem_flatMap.1 hl
            rcases List.mem_append.1 hl with hl | hl
            · exact nonl_repo (h.repos r hr) l hl
            · rw [List.mem_singleton.1 hl]; simp

/-- the lines of the slots without colours -/
theorem slots_dec {fmt : Int → Str} {utf8 detailed : Bool} {p : Print} (h : PlainPrint fmt p) :
    (slotsLines fmt utf8 detailed p).map (decolor false) = (rootClasses p.slots).flatMap (fun k => (ofClass p.slots k).flatMap (fun s =>
      (s :: children p.slots s).flatMap (fun x => titleText utf8 p.primary x :: restText fmt detailed x) ++ [[]])) := by
  unfold slotsLines
  rw [List.map_flatMap]
  refine List.flatMap_congr fun k _ => ?_
  rw [List.map_flatMap]
  refine List.flatMap_congr fun s hs => ?_
  rw [List.map_append, List.map_flatMap]
  have e : ∀ x ∈ s :: children p.slots s, (slotLines fmt utf8 detailed p.primary x).map (decolor false) = titleText utf8 p.primary x :: restText fmt detailed x := by
    intro x hx
    have := h.slots x (mem_children hs hx)
    unfold slotLines
    rw [List.map_cons, dec_title this, dec_rest h.size this]
  rw [List.flatMap_congr e]
  rfl

theorem slots_filled {fmt : Int → Str} {utf8 detailed : Bool} {p : Print} (h : PlainPrint fmt p) :
    filled ((slotsLines fmt utf8 detailed p).map (decolor false)) = (readableSlots p.slots).flatMap (fun x => titleText utf8 p.primary x :: restText fmt detailed x) := by
  rw [slots_dec h]
  unfold filled readableSlots
  rw [List.filter_flatMap, List.flatMap_assoc]
  refine List.flatMap_congr fun k _ => ?_
  rw [List.filter_flatMap, List.flatMap_assoc]
  refine List.flatMap_congr fun s _ => ?_
  rw [List.filter_append]
  have e : List.filter (fun x : Str => !x.isEmpty) [[]] = [] := rfl
  rw [e, List.append_nil]
  refine List.filter_eq_self.2 fun l hl => ?_
  obtain ⟨x, -, hl⟩ := List.mem_flatMap.1 hl
  rcases List.mem_cons.1 hl with rfl | hl
  · obtain ⟨c, d, r, hc, -⟩ := title_shape utf8 p.primary x
    rw [hc]; rfl
  · have := rest_indented _ _ _ l hl
    cases l with
    | nil => cases this
    | cons c r => rfl

theorem slots_noTitle {fmt : Int → Str} {utf8 detailed : Bool} {p : Print} (h : PlainPrint fmt p) : ∀ l ∈ (slotsLines fmt utf8 detailed p).map (decolor false), l ≠ repoTitle := by
  rw [slots_dec h]
  intro l hl
  obtain ⟨k, -, hl⟩ := List.mem_flatMap.1 hl
  obtain ⟨s, hs, hl⟩ := List.mem_flatMap.1 hl
  rcases List.mem_append.1 hl with hl | hl
  · obtain ⟨x, -, hl⟩ := List.mem_flatMap.1 hl
    rcases List.mem_cons.1 hl with rfl | hl
    · obtain ⟨c, d, r, hc, hne, -⟩ := title_shape utf8 p.primary x
      rw [hc]
      intro e
      injection e with e
      exact hne e
    · intro e
      have := rest_indented _ _ _ l hl
      rw [e] at this
      revert this; decide
  · rw [List.mem_singleton.1 hl]; decide

/-- **C97.** After the line "=== Slot States ===" the output has exactly one group of lines for each slot that is shown (see C69: each slot exactly once), which starts with the line of
its name, device, type and state, marked as primary or not, and shows every further value of the slot exactly once, after its label and below its heading, and exactly as it is. -/
theorem C97_slots {fmt : Int → Str} {utf8 detailed : Bool} {p : Print} {t : Str} (h : PlainPrint fmt p) (ht : statusReadable fmt utf8 detailed p = some t) :
    List.Forall₂ (ShowsSlot fmt utf8 detailed p.primary) (readableSlots p.slots) (slotGroups t) := by
  have e : headLines p = (headLines p).dropLast ++ [c!"=== Slot States ==="] := rfl
  have hh : ∀ x ∈ (headLines p).dropLast, x ≠ c!"=== Slot States ===" := by
    intro x hx
    have : x ∈ [c!"=== System Info ===",
      c!"Compatible:     " ++ InfoText.pstr p.compatible, c!"Variant:        " ++ InfoText.pstr p.variant, c!"System Version: " ++ InfoText.pstr p.version,
      c!"Booted from:    " ++ InfoText.pstr (bootedName p.slots) ++ c!" (" ++ InfoText.pstr p.bootslot ++ c!")", [],
      c!"=== Bootloader ===",
      (if p.primary.isNone then c!"Activated: none"
       else c!"Activated: " ++ InfoText.pstr p.primary ++ c!" (" ++ InfoText.pstr ((p.slots.find? (fun s => decide (p.primary = some s.name))).bind (·.bootname)) ++ c!")"), []] := hx
    simp only [List.mem_cons, List.not_mem_nil, or_false] at this
    rcases this with rfl | rfl | rfl | rfl | rfl | rfl | rfl | rfl | rfl
    all_goals first
      | decide
      | simp
    split <;> simp
  have hg : slotGroups t = (readableSlots p.slots).map (fun x => (titleText utf8 p.primary x, restText fmt detailed x)) := by
    unfold slotGroups
    rw [screen_eq h ht, e, List.append_assoc, List.append_assoc, List.singleton_append, after_app _ hh, takeWhile_ne (slots_noTitle h), slots_filled h, cut_flatMap]
    · intro x _
      obtain ⟨c, d, r, hc, -, hi⟩ := title_shape utf8 p.primary x
      rw [hc, hi]; rfl
    · intro x _ y hy
      rw [rest_indented _ _ _ y hy]; rfl
    · unfold reposLines
      split
      · exact .inl rfl
      · exact .inr ⟨_, rfl⟩
  rw [hg, List.forall₂_map_right_iff]
  exact List.forall₂_same.2 (fun x _ => ⟨rfl, shown_rest fmt detailed x⟩)

/-- **C97.** The output names the values of the system, the booted slot with its boot name, and the activated slot, each exactly once. -/
theorem C97_system {fmt : Int → Str} {utf8 detailed : Bool} {p : Print} {t : Str} (h : PlainPrint fmt p) (ht : statusReadable fmt utf8 detailed p = some t) :
    ∀ e ∈ systemFields p, shown e.1 (screen t) = [e.2] := by
  have hs : ∀ lab : Str, (∀ c ∈ lab.head?, c ∉ c!" =xo⏺○[") → lab ≠ [] →
      shown lab ((slotsLines fmt utf8 detailed p).map (decolor false)) = [] ∧ shown lab ((reposLines p).map (decolor false)) = [] := by
    intro lab hl hne
    obtain ⟨c, lab, rfl⟩ := List.exists_cons_of_ne_nil hne
    have hc := hl c rfl
    have strip0 : ∀ (d : Char) (r : Str), d ∈ c!" =xo⏺○[" → InfoText.strip (c :: lab) (d :: r) = none := by
      intro d r hd
      unfold InfoText.strip
      rw [if_neg]
      intro hp
      simp only [List.isPrefixOf, Bool.and_eq_true, beq_iff_eq] at hp
      rw [hp.1] at hc
      exact hc hd
    have strip1 : InfoText.strip (c :: lab) [] = none := rfl
    constructor
    · rw [slots_dec h]
      unfold shown
      rw [List.filterMap_eq_nil_iff]
      intro l hl
      obtain ⟨k, -, hl⟩ := List.mem_flatMap.1 hl
      obtain ⟨s, hs, hl⟩ := List.mem_flatMap.1 hl
      rcases List.mem_append.1 hl with hl | hl
      · obtain ⟨x, -, hl⟩ := List.mem_flatMap.1 hl
        rcases List.mem_cons.1 hl with rfl | hl
        · have hm : ∃ d, marker utf8 p.primary x = [d] ∧ d ∈ c!" =xo⏺○[" := by
            unfold marker
            split
            · exact ⟨_, rfl, by decide⟩
            · cases utf8 <;> cases decide (p.primary = some x.name) <;> exact ⟨_, rfl, by decide⟩
          obtain ⟨d, hd, hd2⟩ := hm
          unfold titleText
          rw [hd]
          exact strip0 d _ hd2
        · have := rest_indented _ _ _ l hl
          cases l with
          | nil => rfl
          | cons d r =>
            have : d = ' ' := by
              simp only [indented, List.replicate, List.isPrefixOf, Bool.and_eq_true, beq_iff_eq] at this
              exact this.1.symm
            subst this
            exact strip0 _ _ (by decide)
      · rw [List.mem_singleton.1 hl]; rfl
    · unfold reposLines shown
      split
      · rfl
      · rw [List.filterMap_eq_nil_iff]
        intro l hl
        rw [List.map_cons] at hl
        rcases List.mem_cons.1 hl with rfl | hl
        · exact strip0 '=' _ (by decide)
        · rw [List.map_flatMap] at hl
          obtain ⟨r, hr, hl⟩ := List.mem_flatMap.1 hl
          rw [List.map_append, dec_repo (h.repos r hr)] at hl
          rcases List.mem_append.1 hl with hl | hl
          · rcases List.mem_cons.1 hl with rfl | hl
            · exact strip0 '[' _ (by decide)
            · have : indented 1 l = true := rest0_ind r l hl
              cases l with
              | nil => rfl
              | cons d r =>
                have : d = ' ' := by
                  simp only [indented, List.replicate, List.isPrefixOf, Bool.and_eq_true, beq_iff_eq] at this
                  exact this.1.symm
                subst this
                exact strip0 _ _ (by decide)
          · rw [List.mem_singleton.1 hl]; rfl
  intro e he
  rw [screen_eq h ht]
  have hsplit : shown e.1 (headLines p ++ (slotsLines fmt utf8 detailed p).map (decolor false) ++ (reposLines p).map (decolor false)) =
      shown e.1 (headLines p) ++ shown e.1 ((slotsLines fmt utf8 detailed p).map (decolor false)) ++ shown e.1 ((reposLines p).map (decolor false)) := by
    simp only [shown, List.filterMap_append]
  simp only [systemFields, List.mem_cons, List.not_mem_nil, or_false] at he
  have hlab : (∀ c ∈ e.1.head?, c ∉ c!" =xo⏺○[") ∧ e.1 ≠ [] := by
    rcases he with rfl | rfl | rfl | rfl | rfl <;> (dsimp only; exact ⟨by decide, by simp⟩)
  obtain ⟨s1, s2⟩ := hs e.1 hlab.1 hlab.2
  rw [hsplit, s1, s2, List.append_nil, List.append_nil]
  unfold headLines
  simp only [InfoText.pstr_eq]
  have hfind : ∀ n, p.primary = some n → (fun s : RSlot => decide (p.primary = some s.name)) = fun s => decide (s.name = n) := by
    intro n hn; funext s; rw [hn]; simp [eq_comm]
  rcases he with rfl | rfl | rfl | rfl | rfl
  · simp [shown, InfoText.strip]; split <;> simp
  · simp [shown, InfoText.strip]; split <;> simp
  · simp [shown, InfoText.strip]; split <;> simp
  · simp [shown, InfoText.strip, bootedName]; split <;> simp
  · cases hp : p.primary with
    | none => simp [shown, InfoText.strip]
    | some n =>
      have := hfind n hp
      rw [hp] at this
      rw [this]
      simp [shown, InfoText.strip, orNull]

/-- **C97.** The repositories are read back: each one once with its artifacts, their instances and what uses them. -/
theorem C97_repos {fmt : Int → Str} {utf8 detailed : Bool} {p : Print} {t : Str} (h : PlainPrint fmt p) (ht : statusReadable fmt utf8 detailed p = some t) :
    (repoGroups t).map readRepo = p.repos.map repoView := by
  have hh : ∀ x ∈ headLines p, x ≠ repoTitle := by
    intro x hx
    simp only [headLines, List.mem_cons, List.not_mem_nil, or_false] at hx
    rcases hx with rfl | rfl | rfl | rfl | rfl | rfl | rfl | rfl | rfl | rfl
    all_goals first
      | decide
      | simp [repoTitle]
    split <;> simp
  have hpre : ∀ x ∈ headLines p ++ (slotsLines fmt utf8 detailed p).map (decolor false), x ≠ repoTitle := by
    intro x hx
    rcases List.mem_append.1 hx with hx | hx
    · exact hh x hx
    · exact slots_noTitle h x hx
  unfold repoGroups
  rw [screen_eq h ht]
  unfold reposLines
  split
  · rename_i he
    have hn : p.repos = [] := List.isEmpty_iff.1 he
    rw [hn, List.map_nil, List.append_nil]
    have : after repoTitle (headLines p ++ (slotsLines fmt utf8 detailed p).map (decolor false)) = [] := by
      unfold after
      have dw : ∀ l : List Str, (∀ x ∈ l, x ≠ repoTitle) → l.dropWhile (fun x => decide (x ≠ repoTitle)) = [] := by
        intro l hl
        induction l with
        | nil => rfl
        | cons x l ih =>
          rw [List.dropWhile_cons, if_pos (decide_eq_true (hl x (by simp)))]
          exact ih (fun y hy => hl y (List.mem_cons_of_mem _ hy))
      rw [dw _ hpre]
      rfl
    rw [this]
    rw [show filled [] = [] from rfl, cut]
    rfl
  · rw [List.map_cons, show decolor false repoTitle = repoTitle from by decide, after_app _ hpre, List.map_flatMap]
    have e : filled (p.repos.flatMap (fun r => (repoLines r ++ [[]]).map (decolor false))) = p.repos.flatMap (fun r => (c!"[" ++ r.name ++ c!"] (" ++ orNull r.path ++ c!")") :: repoRest0 r) := by
      unfold filled
      rw [List.filter_flatMap]
      refine List.flatMap_congr fun r hr => ?_
      rw [List.map_append, List.filter_append, dec_repo (h.repos r hr)]
      have e0 : List.filter (fun x : Str => !x.isEmpty) ([[]].map (decolor false)) = [] := rfl
      rw [e0, List.append_nil]
      refine List.filter_eq_self.2 fun l hl => ?_
      rcases List.mem_cons.1 hl with rfl | hl
      · rfl
      · have : indented 1 l = true := rest0_ind r l hl
        cases l with
        | nil => cases this
        | cons c r => rfl
    rw [e, cut_flatMap, List.map_map]
    · exact List.map_congr_left fun r _ => readRepo_eq r
    · intro r _; rfl
    · intro r _ y hy
      rw [rest0_ind r y hy]; rfl

/-- **C97.** The full mark is at the line of the activated slot (if it has a boot name), and at no other. -/
theorem C97_mark (utf8 : Bool) (primary : Option Str) (s : RSlot) :
    (titleText utf8 primary s).head? = some (if utf8 then '⏺' else 'x') ↔ s.bootname ≠ none ∧ primary = some s.name := by
  unfold titleText marker
  by_cases hb : s.bootname = none
  · rw [if_pos hb]
    cases utf8 <;> simp [hb]
  · rw [if_neg hb]
    by_cases hp : primary = some s.name
    · rw [decide_eq_true hp]
      cases utf8 <;> simp [hb, hp]
    · rw [decide_eq_false hp]
      cases utf8 <;> simp [hp]

/-- **C97.** If a state is unknown the program aborts and nothing is shown. -/
theorem C97_abort (fmt : Int → Str) (utf8 detailed : Bool) (p : Print) : statusReadable fmt utf8 detailed p = none ↔ ∃ s ∈ p.slots, s.state = none := by
  unfold statusReadable
  constructor
  · intro h
    split at h
    · rename_i hc
      obtain ⟨s, h1, h2⟩ := List.any_eq_true.1 hc
      exact ⟨s, h1, of_decide_eq_true h2⟩
    · cases h
  · rintro ⟨s, h1, h2⟩
    rw [if_pos (List.any_eq_true.2 ⟨s, h1, decide_eq_true h2⟩)]

/-! ## With the service -/

/-- nothing that the service sends contains line breaks or colours -/
structure PlainServer (fmt : Int → Str) (S : StatusView.Server) : Prop where
  opts : ∀ o ∈ [S.compatible, S.variant, S.version, S.bootslot, S.primary], ∀ v ∈ o, Plain v
  slots : ∀ s ∈ S.slots, Plain s.name ∧ (∀ o ∈ [s.device, s.typ, s.bootname, s.description, s.mountPoint, s.extMountPoint], ∀ v ∈ o, Plain v) ∧ PlainStatus (S.load s)
  repos : ∀ r ∈ S.repos, PlainRepo r
  size : ∀ n, Plain (fmt n)

theorem plain_received {fmt : Int → Str} {d : Bool} {S : StatusView.Server} {P : Print} (h : PlainServer fmt S) (r : StatusView.Received d S P) : PlainPrint fmt P := by
  have ho := h.opts
  simp only [List.mem_cons, List.not_mem_nil, or_false, forall_eq_or_imp, forall_eq] at ho
  obtain ⟨h1, h2, h3, h4, h5⟩ := ho
  have gd : ∀ {o : Option Str}, (∀ v ∈ o, Plain v) → ∀ v ∈ some (o.getD []), Plain v := by
    intro o ho v hv
    cases o with
    | none => cases hv; decide
    | some x => cases hv; exact ho x rfl
  refine ⟨?_, ?_, by rw [r.repos]; exact h.repos, h.size⟩
  · simp only [List.mem_cons, List.not_mem_nil, or_false, forall_eq_or_imp, forall_eq]
    rw [r.compatible, r.variant, r.version, r.bootslot, r.primary]
    exact ⟨gd h1, gd h2, gd h3, gd h4, h5⟩
  · intro c hc
    obtain ⟨n, hn⟩ := List.getElem?_of_mem hc
    obtain ⟨s, hs, sh⟩ := r.only n c hn
    obtain ⟨p1, p2, p3⟩ := h.slots s hs
    simp only [List.mem_cons, List.not_mem_nil, or_false, forall_eq_or_imp, forall_eq] at p2
    obtain ⟨q1, q2, q3, q4, q5, q6⟩ := p2
    refine ⟨by rw [sh.name]; exact p1, ?_, ?_⟩
    · simp only [List.mem_cons, List.not_mem_nil, or_false, forall_eq_or_imp, forall_eq]
      rw [sh.device, sh.typ, sh.bootname, sh.description, sh.mounted]
      refine ⟨q1, q2, q3, q4, ?_⟩
      split
      · exact q5
      · exact q6
    · intro st hst
      cases d with
      | false => rw [sh.noStatus rfl] at hst; cases hst
      | true =>
        obtain ⟨x, hx, ss⟩ := sh.status rfl
        rw [hx] at hst
        cases hst
        have := p3.opts
        refine ⟨?_⟩
        rw [ss.compatible, ss.version, ss.description, ss.build, ss.hash, ss.digest, ss.transaction, ss.status]
        exact this

/-- **C97.** `rauc status` with a service: every slot of the service is shown in exactly one group of lines, and the values of the system and the repositories are those of the service. -/
theorem C97_status_partial (iso : Str → Option DateTime) (ord : List RSlot → List RSlot) (fmt : Int → Str) (utf8 d : Bool) (S : StatusView.Server) (ho : ∀ l, (ord l).Perm l)
    (h : StatusView.TableOk S.slots) (hl : ∀ s ∈ S.slots, StatusView.Sendable (S.load s)) (hs : ∀ s ∈ S.slots, s.state ≠ none)
    (hp : ∀ q, S.primary = some q → q ∈ S.slots.map (·.name)) (hpl : PlainServer fmt S) (hpar : StatusView.ParentsOk S.slots) (hcls : StatusView.ClassesOk S.slots) :
    ∃ t P, raucStatusReadable iso ord fmt utf8 d S = some t ∧ StatusView.Received d S P ∧
      (∃ l : List RSlot, l.Perm P.slots ∧ List.Forall₂ (ShowsSlot fmt utf8 d S.primary) l (slotGroups t)) ∧
      (∀ e ∈ systemFields P, shown e.1 (screen t) = [e.2]) ∧ (repoGroups t).map readRepo = S.repos.map repoView := by
  obtain ⟨P, e0, r⟩ := StatusView.received iso ord d S ho h hl hp
  have pl := plain_received hpl r
  have hne : ¬ ∃ s ∈ P.slots, s.state = none := fun ⟨s, h1, h2⟩ => r.states hs s h1 h2
  obtain ⟨t, ht⟩ := Option.ne_none_iff_exists'.1 (fun e => hne ((C97_abort fmt utf8 d P).1 e))
  have hall : ∀ s ∈ S.slots, ∃ c ∈ P.slots, StatusView.Shows d c s (S.load s) := by
    intro s hs
    obtain ⟨n, c, hn, sh⟩ := r.all s hs
    exact ⟨c, List.mem_of_getElem? hn, sh⟩
  have honly : ∀ c ∈ P.slots, ∃ s ∈ S.slots, StatusView.Shows d c s (S.load s) := by
    intro c hc
    obtain ⟨n, hn⟩ := List.getElem?_of_mem hc
    exact r.only n c hn
  refine ⟨t, P, ?_, r, ⟨readableSlots P.slots, StatusView.C69_readable_partial P.slots r.names ?_ ?_, ?_⟩, C97_system pl ht, ?_⟩
  · unfold raucStatusReadable
    rw [e0]
    exact ht
  · intro c hc q hq
    obtain ⟨s, hs1, sh⟩ := honly c hc
    obtain ⟨q', hq1, hq2, hq3⟩ := hpar s hs1 q (by rw [← sh.parent]; exact hq)
    obtain ⟨c', hc1, sh'⟩ := hall q' hq1
    exact ⟨c', hc1, by rw [sh'.name, hq2], by rw [sh'.parent, hq3]⟩
  · intro a ha b hb hab hn
    obtain ⟨s, hs1, sh⟩ := honly a ha
    obtain ⟨s', hs2, sh'⟩ := honly b hb
    rw [sh'.parent]
    exact hcls s hs1 s' hs2 (by rw [← sh.sclass, ← sh'.sclass]; exact hab) (by rw [← sh.parent]; exact hn)
  · have := C97_slots pl ht
    rw [r.primary] at this
    exact this
  · rw [C97_repos pl ht, r.repos]

/-! ## Findings -/

/-- **C97, finding.** Line breaks are printed as they are: the description of an installed bundle (which comes from its manifest) can add lines that look like the status of the slot. -/
theorem C97_finding_forged : ∃ p t, statusReadable (fun _ => []) true true p = some t ∧ shown c!"          status=" (screen t) = [c!"ok", c!"failed"] :=
  ⟨{ compatible := some c!"x", variant := none, version := none, bootslot := none, primary := none,
     slots := [{ name := c!"a.0", sclass := some c!"a", state := some .inactive, status := some { bundleDescription := some c!"y\n          status=ok", status := some c!"failed" } }] }, _, rfl, by decide +kernel⟩

/-- **C97, finding.** A missing value cannot be told from the text "(null)". -/
theorem C97_finding_null : ∃ a b : Print, a ≠ b ∧ ∀ fmt utf8 d, statusReadable fmt utf8 d a = statusReadable fmt utf8 d b :=
  ⟨{ compatible := some c!"(null)", variant := none, version := none, bootslot := none, primary := none, slots := [] },
   { compatible := none, variant := none, version := none, bootslot := none, primary := none, slots := [] }, by decide, fun _ _ _ => rfl⟩

/-! ## Non-vacuity -/

def exServer : StatusView.Server :=
  { compatible := some c!"board", variant := none, version := some c!"1", bootslot := some c!"A", primary := some c!"rootfs.1"
    slots := [{ name := c!"rootfs.0", sclass := some c!"rootfs", device := some c!"/dev/a", typ := some c!"ext4", bootname := some c!"A", state := some .booted, bootState := some true },
      { name := c!"rootfs.1", sclass := some c!"rootfs", device := some c!"/dev/b", typ := some c!"ext4", bootname := some c!"B", state := some .inactive, bootState := some false },
      { name := c!"app.0", sclass := some c!"app", device := some c!"/dev/c", typ := some c!"raw", parent := some c!"rootfs.0", state := some .active }]
    load := fun s => if s.name = c!"app.0" then { bundleCompatible := some c!"board", status := some c!"ok" } else {}
    repos := [{ name := c!"add", path := some c!"/data", typ := some c!"files", artifacts := [{ name := c!"x", instances := [⟨c!"12", [c!"l"]⟩, ⟨c!"34", []⟩] }] }] }

/-- the conditions hold for the example -/
example : StatusView.TableOk exServer.slots ∧ (∀ s ∈ exServer.slots, StatusView.Sendable (exServer.load s)) ∧ (∀ s ∈ exServer.slots, s.state ≠ none) ∧
    (∀ q, exServer.primary = some q → q ∈ exServer.slots.map (·.name)) ∧ PlainServer (fun n => StatusView.decInt n) exServer ∧ StatusView.ParentsOk exServer.slots ∧ StatusView.ClassesOk exServer.slots := by
  have all : ∀ (P : RSlot → Prop), (∀ s ∈ exServer.slots, P s) ↔ P (exServer.slots[0]) ∧ P (exServer.slots[1]) ∧ P (exServer.slots[2]) := by
    intro P
    simp [exServer]
  refine ⟨⟨by decide, by decide⟩, ?_, by decide, by decide, ⟨by decide, ?_, ?_, ?_⟩, ?_, ?_⟩
  · rw [all]
    refine ⟨⟨?_, ?_, ?_, ?_⟩, ⟨?_, ?_, ?_, ?_⟩, ⟨?_, ?_, ?_, ?_⟩⟩ <;> first
      | decide
      | (rintro d (h | h) <;> cases h)
  · rw [all]
    exact ⟨⟨by decide, by decide, ⟨by decide⟩⟩, ⟨by decide, by decide, ⟨by decide⟩⟩, ⟨by decide, by decide, ⟨by decide⟩⟩⟩
  · intro r hr
    simp only [exServer, List.mem_singleton] at hr
    subst hr
    exact ⟨by decide, ⟨_, rfl, by decide⟩, by decide, by decide⟩
  · intro n
    cases n with
    | ofNat n => exact toDec_plain n
    | negSucc n => exact Plain.append (a := ['-']) (by decide) (toDec_plain _)
  · unfold StatusView.ParentsOk
    rw [all]
    refine ⟨fun p hp => (by cases hp), fun p hp => (by cases hp), fun p hp => ?_⟩
    cases hp
    exact ⟨exServer.slots[0], by simp, rfl, rfl⟩
  · unfold StatusView.ClassesOk
    rw [all]
    refine ⟨?_, ?_, ?_⟩ <;> (rw [all]; decide)

/-- a part of the output of the example -/
example : (raucStatusReadable (fun _ => none) id (fun n => StatusView.decInt n) true true exServer).map (fun t => (screen t).drop 6 |>.take 9) =
    some [c!"=== Bootloader ===", c!"Activated: rootfs.1 (B)", c!"", c!"=== Slot States ===", c!"○ [rootfs.0] (/dev/a, ext4, booted)", c!"      bootname: A", c!"      boot status: good", c!"      slot status:", c!"          bundle:"] := by
  decide +kernel

end Rauc.StatusText
