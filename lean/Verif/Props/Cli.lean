import Verif.Model.Cli
import Verif.Props.Bundle
import Verif.Props.Handlers
import Verif.Props.InstallCrash

/-!
# C80: what the bundle tools verify, and what their exit status tells. C81: write-slot
-/

namespace Rauc.Cli

open Context (Cmd)
open Bundle (Params)
open Handlers (Handler acceptedImages)

/-! ## Specification -/

/-- an option is on the command line -/
def On (g : Given) (n : Str) : Prop := ∃ v, (n, v) ∈ g

/-- the result of a call -/
def result (O : Ops) : Call → Bool
  | .check path p => (O.check path p).isSome
  | .create out inp => O.create out inp
  | .resign b out a => O.resign b out a
  | .replaceSig b sig out p => O.replaceSig b sig out p
  | .extractSig b out => O.extractSig b out
  | .extract b dir => O.extract b dir
  | .convert b out ig => O.convert b out ig
  | .encrypt b out => O.encrypt b out
  | .show b => O.manifest b
  | .mount b => O.mount b
  | .write h img s => O.write h img s

/-- the bundle a call works on -/
def bundleOf : Call → Option Bundle.Bundle
  | .resign b _ _ | .replaceSig b _ _ _ | .extractSig b _ | .extract b _ | .convert b _ _ | .encrypt b _ | .show b | .mount b => some b
  | .check .. | .create .. | .write .. => none

/-- what the user asked for: the arguments as given on the command line -/
inductive Asked (g : Given) : List Str → Call → Prop
  | bundle (i o : Str) : Asked g [c!"bundle", i, o] (.create o i)
  | resign (i o : Str) (b a) (ha : a = true ↔ On g c!"append") : Asked g [c!"resign", i, o] (.resign b o a)
  | replaceSig (i s o : Str) (b p) : Asked g [c!"replace-signature", i, s, o] (.replaceSig b s o p)
  | extractSig (i o : Str) (b) : Asked g [c!"extract-signature", i, o] (.extractSig b o)
  | extract (i o d : Str) (b) (hd : d = o ∨ o = d ++ ['/']) : Asked g [c!"extract", i, o] (.extract b d)
  | convert (i o : Str) (b ig) (hi : ∀ x, x ∈ ig ↔ (c!"ignore-image", some x) ∈ g) : Asked g [c!"convert", i, o] (.convert b o ig)
  | encrypt (i o : Str) (b) : Asked g [c!"encrypt", i, o] (.encrypt b o)
  | info (a : Str) (b) : Asked g [c!"info", a] (.show b)
  | mount (a : Str) (b) : Asked g [c!"mount", a] (.mount b)
  | write (n f : Str) (h) (img : Image) (s : Slot) (hs : s.name = n) (hf : img.filename = some f) : Asked g [c!"write-slot", n, f] (.write h img s)

/-- the file of the bundle -/
def Names (O : Ops) (pos : List Str) (path : Str) : Prop :=
  ∃ c a l, pos = c :: a :: l ∧ if c = c!"info" ∨ c = c!"mount" then O.resolve a = some path else a = path

/-- the user asked for help or the version only -/
def AsksHelp (g : Given) (pos : List Str) : Prop := On g c!"help" ∨ (pos = [] ∧ On g c!"version") ∨ pos.head? = some c!"help"

/-! ## Proofs -/

theorem has_iff {g : Given} {n : Str} : has g n = true ↔ On g n := by
  unfold has On
  simp only [List.any_eq_true, beq_iff_eq]
  constructor
  · rintro ⟨⟨a, v⟩, h, rfl⟩; exact ⟨v, h⟩
  · rintro ⟨v, h⟩; exact ⟨_, h, rfl⟩

theorem values_mem {g : Given} {n x : Str} : x ∈ values g n ↔ (n, some x) ∈ g := by
  unfold values
  simp only [List.mem_filterMap, List.mem_filter, beq_iff_eq]
  constructor
  · rintro ⟨⟨a, v⟩, ⟨h, rfl⟩, e⟩; simp only at e; subst e; exact h
  · intro h; exact ⟨_, ⟨h, rfl⟩, rfl⟩

theorem stripSlash_spec (o : Str) : stripSlash o = o ∨ o = stripSlash o ++ ['/'] := by
  unfold stripSlash
  split
  · rename_i h
    right
    obtain ⟨hne, e⟩ := List.getLast?_eq_some_iff.1 h
    subst e; simp
  · exact .inl rfl

/-- how the parameters of the check follow from the options -/
structure Relaxed (g : Given) (p : Params) : Prop where
  noVerify : p.noVerify = true ↔ On g c!"no-verify"
  noCheckTime : p.noCheckTime = true ↔ On g c!"no-check-time"
  trustEnv : p.trustEnv = true ↔ On g c!"trust-environment"

/-- the two names of the option for the type of the image -/
def TypeOption (n : Str) : Prop := n = c!"image-type" ∨ n = c!"image-type-compat"

/-- the value of the last such option -/
def LastType (g : Given) (t : Str) : Prop := ∃ pre n post, g = pre ++ (n, some t) :: post ∧ TypeOption n ∧ ∀ o ∈ post, ¬ TypeOption o.1

/-- the type of the image: the last option, or else the one that follows from the name of the file -/
def TypeIs (g : Given) (f t : Str) : Prop := LastType g t ∨ ((¬ ∃ t', LastType g t') ∧ Handlers.deriveType f = some t)

/-- when `write-slot` writes, and what -/
def WriteOk (O : Ops) (g : Given) (n f : Str) (h : Handler) (img : Image) (s : Slot) : Prop :=
  O.slots.find? (fun s => s.name == n) = some s ∧ s.readonly = false ∧ (∃ size t, O.imageSize f = some size ∧ TypeIs g f t ∧ img.size = size ∧
    img.typ = some t ∧ t ∈ acceptedImages s.typ) ∧ img.filename = some f ∧ img.hooks = {} ∧ Handlers.getUpdateHandler img s.typ = some h

/-- what must be given for a call -/
def Needs (O : Ops) (g : Given) (pos : List Str) : Call → Prop
  | .create o i => On g c!"cert" ∧ On g c!"key" ∧ O.isDir (absPath O.cwd i) = true ∧ inside O.cwd i o = false
  | .resign .. | .convert .. => On g c!"cert" ∧ On g c!"key"
  | .encrypt .. => On g c!"to"
  | .write h img s => ∃ n f, pos = [c!"write-slot", n, f] ∧ WriteOk O g n f h img s
  | _ => True

/-- the shape of what a command does -/
inductive Shape (O : Ops) (g : Given) (pos : List Str) : List Call → Nat → Prop
  | none : Shape O g pos [] 1
  | one (op : Call) (h1 : bundleOf op = none) (hc : ∀ path p, op ≠ .check path p) (h2 : Asked g pos op) (hd : Needs O g pos op) : Shape O g pos [op] (if result O op then 0 else 1)
  | bad (path : Str) (p : Params) (hn : Names O pos path) (h : O.check path p = Option.none) (hp : Relaxed g p) : Shape O g pos [.check path p] 1
  | two (path : Str) (p : Params) (op : Call) (b : Bundle.Bundle) (hn : Names O pos path) (h : O.check path p = some b) (hb : bundleOf op = some b)
    (h2 : Asked g pos op) (hd : Needs O g pos op) (hp : Relaxed g p) : Shape O g pos [.check path p, op] (if result O op then 0 else 1)

theorem withBundle_shape {O : Ops} {g : Given} {pos : List Str} {path : Str} {p : Params} {k : Bundle.Bundle → Call} {ok : Bundle.Bundle → Bool}
    (hn : Names O pos path) (hb : ∀ b, bundleOf (k b) = some b) (hr : ∀ b, result O (k b) = ok b) (h2 : ∀ b, Asked g pos (k b)) (hp : Relaxed g p) (hd : ∀ b, Needs O g pos (k b)) :
    Shape O g pos (withBundle O path p k ok).1 (withBundle O path p k ok).2 := by
  unfold withBundle
  cases h : O.check path p with
  | none => exact .bad path p hn h hp
  | some b => simp only; rw [← hr]; exact .two path p (k b) b hn h (hb b) (h2 b) (hd b) hp

/-- only known options were given -/
def Accepted (B : Build) (c : Cmd) (g : Given) : Prop := ∀ o ∈ g, o.1 ∈ mainEntries ∨ o.1 ∈ groupEntries B c

theorem not_on {B : Build} {c : Cmd} {g : Given} (h : Accepted B c g) {n : Str} (hn : ¬ (n ∈ mainEntries ∨ n ∈ groupEntries B c)) : ¬ On g n := by
  rintro ⟨v, hv⟩; exact hn (h _ hv)

theorem unk {B : Build} {c : Cmd} {n : Str} (h : ∀ a b d f, ¬ (n ∈ mainEntries ∨ n ∈ groupEntries ⟨a, b, d, f⟩ c)) :
    ¬ (n ∈ mainEntries ∨ n ∈ groupEntries B c) := h B.service B.create B.streaming B.json

/-- the names of the commands -/
def nameOf : Cmd → Str
  | .help => c!"help" | .install => c!"install" | .bundle => c!"bundle" | .resign => c!"resign" | .convert => c!"convert" | .encrypt => c!"encrypt"
  | .replaceSig => c!"replace-signature" | .extractSig => c!"extract-signature" | .extract => c!"extract" | .info => c!"info" | .status => c!"status"
  | .writeSlot => c!"write-slot" | .service => c!"service" | .mount => c!"mount"

theorem command_name {B : Build} {n : Str} {c : Cmd} (h : (n, c) ∈ commands B) : n = nameOf c := by
  have key : ∀ a b d f, ∀ x ∈ commands ⟨a, b, d, f⟩, x.1 = nameOf x.2 := by decide
  exact key B.service B.create B.streaming B.json _ h

theorem relaxed_mk {B : Build} {c : Cmd} {g : Given} (h : Accepted B c g) (p : Params)
    (h1 : p.noVerify = has g c!"no-verify" ∨ (p.noVerify = false ∧ ¬ (c!"no-verify" ∈ mainEntries ∨ c!"no-verify" ∈ groupEntries B c)))
    (h2 : p.noCheckTime = has g c!"no-check-time" ∨ (p.noCheckTime = false ∧ ¬ (c!"no-check-time" ∈ mainEntries ∨ c!"no-check-time" ∈ groupEntries B c)))
    (h3 : p.trustEnv = has g c!"trust-environment" ∨ (p.trustEnv = false ∧ ¬ (c!"trust-environment" ∈ mainEntries ∨ c!"trust-environment" ∈ groupEntries B c))) :
    Relaxed g p := by
  have key : ∀ {x : Bool} {n : Str}, (x = has g n ∨ (x = false ∧ ¬ (n ∈ mainEntries ∨ n ∈ groupEntries B c))) → (x = true ↔ On g n) := by
    intro x n hx
    rcases hx with rfl | ⟨rfl, hn⟩
    · exact has_iff
    · exact ⟨fun h => absurd h (by simp), fun ho => absurd ho (not_on h hn)⟩
  exact ⟨key h1, key h2, key h3⟩

theorem on2 {g : Given} {a b : Str} (h : ¬ (!(has g a && has g b)) = true) : On g a ∧ On g b := by
  simp only [Bool.not_eq_true', Bool.not_eq_false, Bool.and_eq_true, has_iff] at h; exact h

theorem bundle_shape (O : Ops) (g : Given) (l : List Str) :
    Shape O g (c!"bundle" :: l) (bundleStart O g (c!"bundle" :: l)).1 (bundleStart O g (c!"bundle" :: l)).2 := by
  unfold bundleStart
  split
  · rename_i x i o e
    cases e
    split
    · exact .none
    rename_i h1
    split
    · exact .none
    rename_i h2
    split
    · exact .none
    rename_i h3
    · exact .one (.create o i) rfl (by intros; simp) (.bundle i o) ⟨on2 h1 |>.1, on2 h1 |>.2, by simpa using h2, by simpa using h3⟩
  · exact .none

theorem resign_shape {B : Build} (O : Ops) {g : Given} (ha : Accepted B .resign g) (l : List Str) :
    Shape O g (c!"resign" :: l) (resignStart O g (c!"resign" :: l)).1 (resignStart O g (c!"resign" :: l)).2 := by
  unfold resignStart
  split
  · rename_i x i o e
    cases e
    split
    · exact .none
    · rename_i hk
      refine withBundle_shape ⟨_, _, _, rfl, ?_⟩ (fun _ => rfl) (fun _ => rfl) (fun b => .resign i o b _ has_iff) (relaxed_mk ha _ (.inl rfl) (.inl rfl) (.inr ⟨rfl, unk (by decide)⟩)) (fun _ => on2 hk)
      rw [if_neg (by decide)]
  · exact .none

theorem replace_shape {B : Build} (O : Ops) {g : Given} (ha : Accepted B .replaceSig g) (l : List Str) :
    Shape O g (c!"replace-signature" :: l) (replaceStart O g (c!"replace-signature" :: l)).1 (replaceStart O g (c!"replace-signature" :: l)).2 := by
  unfold replaceStart
  split
  · rename_i x i s o e
    cases e
    refine withBundle_shape ⟨_, _, _, rfl, ?_⟩ (fun _ => rfl) (fun _ => rfl) (fun b => .replaceSig i s o b _) (relaxed_mk ha _ (.inl rfl) (.inr ⟨rfl, unk (by decide)⟩) (.inl rfl)) (fun _ => trivial)
    rw [if_neg (by decide)]
  · exact .none

theorem extractSig_shape {B : Build} (O : Ops) {g : Given} (ha : Accepted B .extractSig g) (l : List Str) :
    Shape O g (c!"extract-signature" :: l) (extractSigStart O g (c!"extract-signature" :: l)).1 (extractSigStart O g (c!"extract-signature" :: l)).2 := by
  unfold extractSigStart
  split
  · rename_i x i o e
    cases e
    refine withBundle_shape ⟨_, _, _, rfl, ?_⟩ (fun _ => rfl) (fun _ => rfl) (fun b => .extractSig i o b) (relaxed_mk ha _ (.inr ⟨rfl, unk (by decide)⟩) (.inr ⟨rfl, unk (by decide)⟩) (.inl rfl)) (fun _ => trivial)
    rw [if_neg (by decide)]
  · exact .none

theorem extract_shape {B : Build} (O : Ops) {g : Given} (ha : Accepted B .extract g) (l : List Str) :
    Shape O g (c!"extract" :: l) (extractStart O g (c!"extract" :: l)).1 (extractStart O g (c!"extract" :: l)).2 := by
  unfold extractStart
  split
  · rename_i x i o e
    cases e
    refine withBundle_shape ⟨_, _, _, rfl, ?_⟩ (fun _ => rfl) (fun _ => rfl) (fun b => .extract i o _ b (stripSlash_spec o)) (relaxed_mk ha _ (.inr ⟨rfl, unk (by decide)⟩) (.inr ⟨rfl, unk (by decide)⟩) (.inl rfl)) (fun _ => trivial)
    rw [if_neg (by decide)]
  · exact .none

theorem convert_shape {B : Build} (O : Ops) {g : Given} (ha : Accepted B .convert g) (l : List Str) :
    Shape O g (c!"convert" :: l) (convertStart O g (c!"convert" :: l)).1 (convertStart O g (c!"convert" :: l)).2 := by
  unfold convertStart
  split
  · exact .none
  rename_i hk
  split
  · rename_i x i o e
    cases e
    refine withBundle_shape ⟨_, _, _, rfl, ?_⟩ (fun _ => rfl) (fun _ => rfl) (fun b => .convert i o b _ (fun _ => values_mem)) (relaxed_mk ha _ (.inl rfl) (.inr ⟨rfl, unk (by decide)⟩) (.inl rfl)) (fun _ => on2 hk)
    rw [if_neg (by decide)]
  · exact .none

theorem encrypt_shape {B : Build} (O : Ops) {g : Given} (ha : Accepted B .encrypt g) (l : List Str) :
    Shape O g (c!"encrypt" :: l) (encryptStart O g (c!"encrypt" :: l)).1 (encryptStart O g (c!"encrypt" :: l)).2 := by
  unfold encryptStart
  split
  · exact .none
  rename_i hk
  have hk : On g c!"to" := by simpa only [Bool.not_eq_true', Bool.not_eq_false, has_iff] using hk
  split
  · rename_i x i o e
    cases e
    refine withBundle_shape ⟨_, _, _, rfl, ?_⟩ (fun _ => rfl) (fun _ => rfl) (fun b => .encrypt i o b) (relaxed_mk ha _ (.inr ⟨rfl, unk (by decide)⟩) (.inr ⟨rfl, unk (by decide)⟩) (.inr ⟨rfl, unk (by decide)⟩)) (fun _ => hk)
    rw [if_neg (by decide)]
  · exact .none

theorem info_shape {B : Build} (O : Ops) {g : Given} (ha : Accepted B .info g) (l : List Str) :
    Shape O g (c!"info" :: l) (infoStart B O g (c!"info" :: l)).1 (infoStart B O g (c!"info" :: l)).2 := by
  unfold infoStart
  split
  · rename_i x a e
    cases e
    split
    · exact .none
    · cases hr : O.resolve a with
      | none => exact .none
      | some path =>
        refine withBundle_shape ⟨_, _, _, rfl, ?_⟩ (fun _ => rfl) (fun _ => rfl) (fun b => .info a b) (relaxed_mk ha _ (.inl rfl) (.inl rfl) (.inr ⟨rfl, unk (by decide)⟩)) (fun _ => trivial)
        rw [if_pos (by decide)]; exact hr
  · exact .none

theorem mount_shape {B : Build} (O : Ops) {g : Given} (ha : Accepted B .mount g) (l : List Str) :
    Shape O g (c!"mount" :: l) (mountStart O (c!"mount" :: l)).1 (mountStart O (c!"mount" :: l)).2 := by
  unfold mountStart
  split
  · rename_i x a e
    cases e
    cases hr : O.resolve a with
    | none => exact .none
    | some path =>
      refine withBundle_shape ⟨_, _, _, rfl, ?_⟩ (fun _ => rfl) (fun _ => rfl) (fun b => .mount a b) (relaxed_mk ha _ (.inr ⟨rfl, unk (by decide)⟩) (.inr ⟨rfl, unk (by decide)⟩) (.inr ⟨rfl, unk (by decide)⟩)) (fun _ => trivial)
      rw [if_pos (by decide)]; exact hr
  · exact .none

theorem imageType_iff (g : Given) (f t : Str) : imageType g f = some t ↔ TypeIs g f t := by
  have hlast : ∀ t, (g.reverse.find? (fun o => o.1 == c!"image-type" || o.1 == c!"image-type-compat")).bind (·.2) = some t ↔ LastType g t := by
    intro t
    constructor
    · intro h
      obtain ⟨o, h1, h2⟩ := Option.bind_eq_some_iff.1 h
      obtain ⟨hp, as, bs, h3, h4⟩ := List.find?_eq_some_iff_append.1 h1
      obtain ⟨n, v⟩ := o
      simp only at h2
      subst h2
      refine ⟨bs.reverse, n, as.reverse, ?_, by simpa [TypeOption] using hp, ?_⟩
      · rw [← List.reverse_reverse g, h3]; simp
      · intro x hx
        have := h4 x (by simpa using hx)
        simpa [TypeOption] using this
    · rintro ⟨pre, n, post, rfl, hn, hpost⟩
      have : (pre ++ (n, some t) :: post).reverse.find? (fun o => o.1 == c!"image-type" || o.1 == c!"image-type-compat") = some (n, some t) := by
        rw [List.find?_eq_some_iff_append]
        refine ⟨by simpa [TypeOption] using hn, post.reverse, pre.reverse, by simp, ?_⟩
        intro x hx
        have := hpost x (by simpa using hx)
        simpa [TypeOption] using this
      rw [this]; rfl
  unfold imageType TypeIs
  cases hb : (g.reverse.find? (fun o => o.1 == c!"image-type" || o.1 == c!"image-type-compat")).bind (·.2) with
  | some u =>
    have hu := (hlast u).1 hb
    constructor
    · intro e; cases e; exact .inl hu
    · rintro (h | ⟨h, -⟩)
      · have := (hlast t).2 h; rw [hb] at this; exact this
      · exact absurd ⟨u, hu⟩ h
  | none =>
    have hno : ¬ ∃ t', LastType g t' := by
      rintro ⟨t', h⟩
      have := (hlast t').2 h; rw [hb] at this; cases this
    exact ⟨fun e => .inr ⟨hno, e⟩, fun h => h.elim (fun h => absurd ⟨t, h⟩ hno) (·.2)⟩

theorem write_cases (O : Ops) (g : Given) (n f : Str) :
    ((writeSlotStart O g [c!"write-slot", n, f]) = ([], 1) ∧ ∀ h img s, ¬ WriteOk O g n f h img s) ∨
    ∃ h img s, WriteOk O g n f h img s ∧ writeSlotStart O g [c!"write-slot", n, f] = ([.write h img s], if O.write h img s then 0 else 1) := by
  unfold writeSlotStart WriteOk
  simp only [← imageType_iff]
  cases h1 : O.imageSize f with
  | none => left; exact ⟨rfl, by rintro _ _ _ ⟨-, -, ⟨_, _, e, -⟩, -⟩; cases e⟩
  | some size =>
    cases h2 : imageType g f with
    | none => left; exact ⟨rfl, by rintro _ _ _ ⟨-, -, ⟨_, _, -, e, -⟩, -⟩; cases e⟩
    | some t =>
      dsimp only
      split
      · rename_i hs
        left
        refine ⟨rfl, ?_⟩
        rintro h img s ⟨-, -, ⟨_, t', -, e, -, -, hm⟩, -⟩
        cases e
        rw [(Handlers.C48_supported_iff t).2 ⟨_, hm⟩] at hs
        simp at hs
      · cases h3 : O.slots.find? (fun s => s.name == n) with
        | none => left; exact ⟨rfl, by rintro _ _ _ ⟨e, -⟩; cases e⟩
        | some s =>
          dsimp only
          split
          · rename_i hr
            left
            refine ⟨rfl, ?_⟩
            rintro _ _ _ ⟨e, hr', -⟩
            cases e; rw [hr] at hr'; cases hr'
          · rename_i hr
            have hfound := Handlers.C48_found_iff { slotclass := [], size := size, filename := some f, typ := some t } s.typ
            cases h4 : Handlers.getUpdateHandler { slotclass := [], size := size, filename := some f, typ := some t } s.typ with
            | none =>
              left
              refine ⟨rfl, ?_⟩
              rintro h img s' ⟨e, -, ⟨_, t', -, e', -, ht, hm⟩, -, hh, hg⟩
              cases e; cases e'
              rw [h4] at hfound
              have := hfound.2 (.inr ⟨t, rfl, hm⟩)
              simp at this
            | some h =>
              right
              rw [h4] at hfound
              refine ⟨h, _, s, ⟨rfl, by simpa using hr, ⟨size, t, rfl, rfl, rfl, rfl, ?_⟩, rfl, rfl, h4⟩, rfl⟩
              rcases hfound.1 rfl with e | ⟨t', e, hm⟩
              · exact absurd e (by simp)
              · cases e; exact hm

theorem write_shape (O : Ops) (g : Given) (l : List Str) :
    Shape O g (c!"write-slot" :: l) (writeSlotStart O g (c!"write-slot" :: l)).1 (writeSlotStart O g (c!"write-slot" :: l)).2 := by
  by_cases hl : ∃ n f, l = [n, f]
  · obtain ⟨n, f, rfl⟩ := hl
    rcases write_cases O g n f with ⟨h, -⟩ | ⟨h, img, s, hw, e⟩
    · rw [h]; exact .none
    · rw [e]
      obtain ⟨hf, -, -, hn, -⟩ := id hw
      have hs := List.find?_some hf
      exact .one (.write h img s) rfl (by intros; simp) (.write n f h img s (by simpa using hs) hn) ⟨n, f, rfl, hw⟩
  · unfold writeSlotStart
    split
    · rename_i e
      injection e with _ e
      exact absurd ⟨_, _, e⟩ hl
    · exact .none

/-- what `run` does -/
theorem run_inv {B : Build} {O : Ops} {g : Given} {pos : List Str} {calls : List Call} {e : Nat} (h : run B O g pos = .done calls e) :
    (calls = [] ∧ e = 0 ∧ AsksHelp g pos) ∨
    (Shape O g pos calls e ∧ (calls = [] ∨ ∃ c l, pos = nameOf c :: l ∧ Accepted B c g)) := by
  unfold run at h
  cases pos with
  | nil =>
    simp only [Out.done.injEq] at h
    obtain ⟨rfl, rfl⟩ := h
    by_cases hv : (has g c!"version" || has g c!"help") = true
    · left
      refine ⟨rfl, if_pos hv, ?_⟩
      simp only [Bool.or_eq_true, has_iff] at hv
      rcases hv with hv | hv
      · exact .inr (.inl ⟨rfl, hv⟩)
      · exact .inl hv
    · right
      rw [if_neg hv]; exact ⟨.none, .inl rfl⟩
  | cons name l =>
    simp only at h
    cases hf : (commands B).find? (fun c => c.1 == name) with
    | none =>
      rw [hf] at h; cases h
      exact .inr ⟨.none, .inl rfl⟩
    | some nc =>
      obtain ⟨n, c⟩ := nc
      rw [hf] at h
      dsimp only at h
      have hn := command_name (List.mem_of_find?_eq_some hf)
      have hnn := List.find?_some hf
      simp only [beq_iff_eq] at hnn
      subst hnn
      split at h
      · cases h; exact .inr ⟨.none, .inl rfl⟩
      · rename_i hacc
        have ha : Accepted B c g := by
          intro o ho
          have hacc' : g.all (fun o => mainEntries.contains o.1 || (groupEntries B c).contains o.1) = true := by
            simpa only [Bool.not_eq_true', Bool.not_eq_false] using hacc
          have := List.all_eq_true.1 hacc' o ho
          simpa only [Bool.or_eq_true, List.contains_iff_mem] using this
        split at h
        · rename_i hh
          cases h
          exact .inl ⟨rfl, rfl, .inl (has_iff.1 hh)⟩
        · split at h
          · cases h; exact .inr ⟨.none, .inl rfl⟩
          · subst hn
            cases c <;> simp only [Out.done.injEq, reduceCtorEq] at h <;> obtain ⟨rfl, rfl⟩ := h
            · exact .inl ⟨rfl, rfl, .inr (.inr rfl)⟩
            · exact .inr ⟨bundle_shape O g l, .inr ⟨.bundle, l, rfl, ha⟩⟩
            · exact .inr ⟨resign_shape O ha l, .inr ⟨.resign, l, rfl, ha⟩⟩
            · exact .inr ⟨convert_shape O ha l, .inr ⟨.convert, l, rfl, ha⟩⟩
            · exact .inr ⟨encrypt_shape O ha l, .inr ⟨.encrypt, l, rfl, ha⟩⟩
            · exact .inr ⟨replace_shape O ha l, .inr ⟨.replaceSig, l, rfl, ha⟩⟩
            · exact .inr ⟨extractSig_shape O ha l, .inr ⟨.extractSig, l, rfl, ha⟩⟩
            · exact .inr ⟨extract_shape O ha l, .inr ⟨.extract, l, rfl, ha⟩⟩
            · exact .inr ⟨info_shape O ha l, .inr ⟨.info, l, rfl, ha⟩⟩
            · exact .inr ⟨write_shape O g l, .inr ⟨.writeSlot, l, rfl, ha⟩⟩
            · exact .inr ⟨mount_shape O ha l, .inr ⟨.mount, l, rfl, ha⟩⟩

/-! ## C80 -/

/-- **C80** The exit status is 0 exactly if help or the version was asked for and nothing was done, or everything that was begun succeeded and the
last thing done is what the command line asked for. It is never anything but 0 or 1. -/
theorem C80_exit {B : Build} {O : Ops} {g : Given} {pos : List Str} {calls : List Call} {e : Nat} (h : run B O g pos = .done calls e) :
    (e = 0 ∨ e = 1) ∧
    (e = 0 → (calls = [] ∧ AsksHelp g pos) ∨ ∃ op, calls.getLast? = some op ∧ Asked g pos op ∧ ∀ x ∈ calls, result O x = true) ∧
    (e = 1 → calls = [] ∨ ∃ x ∈ calls, result O x = false) := by
  rcases run_inv h with ⟨rfl, rfl, hh⟩ | ⟨hs, -⟩
  · exact ⟨.inl rfl, fun _ => .inl ⟨rfl, hh⟩, fun h => absurd h (by decide)⟩
  · cases hs with
    | none => exact ⟨.inr rfl, fun h => absurd h (by decide), fun _ => .inl rfl⟩
    | one op h1 _ h2 _ =>
      cases hr : result O op
      · exact ⟨.inr rfl, fun h => absurd h (by decide), fun _ => .inr ⟨op, by simp, hr⟩⟩
      · refine ⟨.inl rfl, fun _ => .inr ⟨op, rfl, h2, by simpa using hr⟩, fun h => absurd h (by decide)⟩
    | bad path p hn hc hp =>
      exact ⟨.inr rfl, fun h => absurd h (by decide), fun _ => .inr ⟨.check path p, List.mem_singleton.2 rfl, by simp [result, hc]⟩⟩
    | two path p op b hn hc hb h2 _ hp =>
      cases hr : result O op
      · exact ⟨.inr rfl, fun h => absurd h (by decide), fun _ => .inr ⟨op, by simp, hr⟩⟩
      · refine ⟨.inl rfl, fun _ => .inr ⟨op, rfl, h2, ?_⟩, fun h => absurd h (by decide)⟩
        intro x hx
        simp only [List.mem_cons, List.not_mem_nil, or_false] at hx
        rcases hx with rfl | rfl
        · simp [result, hc]
        · exact hr

/-- **C80** Each check of a bundle is relaxed exactly by the options given for it, and these are accepted only by the commands that are
documented to have them; `install`, `mount`, `encrypt`, `bundle` and `service` have none. -/
theorem C80_options {B : Build} {O : Ops} {g : Given} {pos : List Str} {calls : List Call} {e : Nat} (h : run B O g pos = .done calls e)
    {path : Str} {p : Params} (hc : .check path p ∈ calls) :
    (p.noVerify = true ↔ On g c!"no-verify") ∧ (p.noCheckTime = true ↔ On g c!"no-check-time") ∧ (p.trustEnv = true ↔ On g c!"trust-environment") ∧
    (p.noVerify = true → pos.head? ∈ [some c!"info", some c!"resign", some c!"convert", some c!"replace-signature"]) ∧
    (p.noCheckTime = true → pos.head? ∈ [some c!"info", some c!"resign"]) ∧
    (p.trustEnv = true → pos.head? ∈ [some c!"convert", some c!"replace-signature", some c!"extract-signature", some c!"extract"]) ∧
    Names O pos path := by
  rcases run_inv h with ⟨rfl, -, -⟩ | ⟨hs, hacc⟩
  · cases hc
  have key : Relaxed g p ∧ Names O pos path := by
    cases hs with
    | none => cases hc
    | one op h1 hne h2 _ =>
      simp only [List.mem_singleton] at hc
      exact absurd hc.symm (hne path p)
    | bad path' p' hn _ hp =>
      simp only [List.mem_singleton, Call.check.injEq] at hc
      obtain ⟨rfl, rfl⟩ := hc
      exact ⟨hp, hn⟩
    | two path' p' op b hn _ hb h2 _ hp =>
      simp only [List.mem_cons, Call.check.injEq, List.not_mem_nil, or_false] at hc
      rcases hc with ⟨rfl, rfl⟩ | rfl
      · exact ⟨hp, hn⟩
      · cases hb
  obtain ⟨⟨k1, k2, k3⟩, hn⟩ := key
  rcases hacc with rfl | ⟨c, l, rfl, ha⟩
  · cases hc
  have hgroup : ∀ n, On g n → n ∈ mainEntries ∨ n ∈ groupEntries B c := by
    rintro n ⟨v, hv⟩; exact ha _ hv
  have k4 : ∀ a b d f c, (c!"no-verify" ∈ mainEntries ∨ c!"no-verify" ∈ groupEntries ⟨a, b, d, f⟩ c) →
      some (nameOf c) ∈ [some c!"info", some c!"resign", some c!"convert", some c!"replace-signature"] := by
    intro a b d f c; revert a b d f; cases c <;> decide
  have k5 : ∀ a b d f c, (c!"no-check-time" ∈ mainEntries ∨ c!"no-check-time" ∈ groupEntries ⟨a, b, d, f⟩ c) →
      some (nameOf c) ∈ [some c!"info", some c!"resign"] := by
    intro a b d f c; revert a b d f; cases c <;> decide
  have k6 : ∀ a b d f c, (c!"trust-environment" ∈ mainEntries ∨ c!"trust-environment" ∈ groupEntries ⟨a, b, d, f⟩ c) →
      some (nameOf c) ∈ [some c!"convert", some c!"replace-signature", some c!"extract-signature", some c!"extract"] := by
    intro a b d f c; revert a b d f; cases c <;> decide
  exact ⟨k1, k2, k3, fun hx => k4 B.service B.create B.streaming B.json c (hgroup _ (k1.1 hx)),
    fun hx => k5 B.service B.create B.streaming B.json c (hgroup _ (k2.1 hx)),
    fun hx => k6 B.service B.create B.streaming B.json c (hgroup _ (k3.1 hx)), hn⟩

/-- **C80** No command works on a bundle that it did not check before: the check comes first, was successful, was of the file named on the command
line, and returned this bundle. -/
theorem C80_checked {B : Build} {O : Ops} {g : Given} {pos : List Str} {calls : List Call} {e : Nat} (h : run B O g pos = .done calls e)
    {op : Call} (ho : op ∈ calls) {b : Bundle.Bundle} (hb : bundleOf op = some b) :
    ∃ path p, calls = [.check path p, op] ∧ O.check path p = some b ∧ Names O pos path ∧ Asked g pos op := by
  rcases run_inv h with ⟨rfl, -, -⟩ | ⟨hs, -⟩
  · cases ho
  cases hs with
  | none => cases ho
  | one op' h1 _ h2 hd =>
    simp only [List.mem_singleton] at ho
    subst ho; rw [h1] at hb; cases hb
  | bad path p hn hc hp =>
    simp only [List.mem_singleton] at ho
    subst ho; cases hb
  | two path p op' b' hn hc hb' h2 hd hp =>
    simp only [List.mem_cons, List.not_mem_nil, or_false] at ho
    rcases ho with rfl | rfl
    · cases hb
    · rw [hb'] at hb; cases hb
      exact ⟨path, p, rfl, hc, hn, h2⟩

/-- **C80** Without `--no-verify`, a command works only on authentic bundles (see C33): with `check_bundle` in place of the abstract check, whatever
the cryptographic library, the file system and the server answer. -/
theorem C80_authentic {B : Build} {O : Ops} {g : Given} {pos : List Str} {calls : List Call} {e : Nat} (h : run B O g pos = .done calls e)
    (K : Bundle.Crypto) (cfg : Bundle.Config) (load : Bytes → Option Manifest) (acc : Bundle.AccessResults) (src : Str → Bundle.Source)
    (hO : ∀ path p, O.check path p = Bundle.checkBundle K cfg load p acc (src path)) (hv : ¬ On g c!"no-verify")
    {op : Call} (ho : op ∈ calls) {b : Bundle.Bundle} (hb : bundleOf op = some b) :
    ∃ path p, Names O pos path ∧ Bundle.Authentic K cfg load p acc (src path) b ∧ (p.noCheckTime = true ↔ On g c!"no-check-time") ∧
      (p.trustEnv = true ↔ On g c!"trust-environment") := by
  obtain ⟨path, p, hc, hch, hn, -⟩ := C80_checked h ho hb
  obtain ⟨h1, h2, h3, -⟩ := C80_options h (path := path) (p := p) (by rw [hc]; simp)
  refine ⟨path, p, hn, ?_, h2, h3⟩
  rw [hO] at hch
  have hnv : p.noVerify = false := by
    cases hp : p.noVerify
    · rfl
    · exact absurd (h1.1 hp) hv
  exact Bundle.C33_check_bundle K cfg load p acc (src path) b hnv hch

theorem needs_of {B : Build} {O : Ops} {g : Given} {pos : List Str} {calls : List Call} {e : Nat} (h : run B O g pos = .done calls e) {op : Call}
    (ho : op ∈ calls) : Needs O g pos op := by
  rcases run_inv h with ⟨rfl, -, -⟩ | ⟨hs, -⟩
  · cases ho
  cases hs with
  | none => cases ho
  | one op' h1 _ h2 hd => simp only [List.mem_singleton] at ho; subst ho; exact hd
  | bad path p hn hc hp => simp only [List.mem_singleton] at ho; subst ho; trivial
  | two path p op' b' hn hc hb' h2 hd hp =>
    simp only [List.mem_cons, List.not_mem_nil, or_false] at ho
    rcases ho with rfl | rfl
    · trivial
    · exact hd

/-- **C80** Bundles are created, signed and converted only with a certificate and a key, encrypted only with recipients, and created only from a
directory. -/
theorem C80_needs {B : Build} {O : Ops} {g : Given} {pos : List Str} {calls : List Call} {e : Nat} (h : run B O g pos = .done calls e) :
    (∀ o i, .create o i ∈ calls → On g c!"cert" ∧ On g c!"key" ∧ O.isDir (absPath O.cwd i) = true) ∧
    (∀ b o a, .resign b o a ∈ calls → On g c!"cert" ∧ On g c!"key") ∧
    (∀ b o a, .convert b o a ∈ calls → On g c!"cert" ∧ On g c!"key") ∧
    (∀ b o, .encrypt b o ∈ calls → On g c!"to") := by
  refine ⟨?_, ?_, ?_, ?_⟩
  · intro o i ho; obtain ⟨a, b, c, -⟩ := needs_of h ho; exact ⟨a, b, c⟩
  · intro b o a ho; exact needs_of h ho
  · intro b o a ho; exact needs_of h ho
  · intro b o ho; exact needs_of h ho

/-- the value of the last of several options of this name -/
def LastValue (g : Given) (n : Str) (o : Option Str) : Prop := (¬ On g n ∧ o = none) ∨ ∃ pre post, g = pre ++ (n, o) :: post ∧ ¬ On post n

theorem value_iff (g : Given) (n : Str) (o : Option Str) : LastValue g n o ↔ value g n = o := by
  unfold value
  constructor
  · rintro (⟨h, rfl⟩ | ⟨pre, post, rfl, h⟩)
    · have : g.reverse.find? (fun o => o.1 == n) = none := by
        rw [List.find?_eq_none]
        intro x hx
        simp only [beq_iff_eq]
        rintro rfl
        exact h ⟨x.2, by simpa using hx⟩
      rw [this]; rfl
    · have : (pre ++ (n, o) :: post).reverse.find? (fun o => o.1 == n) = some (n, o) := by
        rw [List.find?_eq_some_iff_append]
        refine ⟨by simp, post.reverse, pre.reverse, by simp, ?_⟩
        intro x hx
        simp only [List.mem_reverse] at hx
        simp only [Bool.not_eq_true', beq_eq_false_iff_ne, ne_eq]
        rintro rfl
        exact h ⟨x.2, hx⟩
      rw [this]; rfl
  · intro h
    cases hf : g.reverse.find? (fun o => o.1 == n) with
    | none =>
      rw [hf] at h
      refine Or.inl ⟨?_, h.symm⟩
      rintro ⟨v, hv⟩
      have := List.find?_eq_none.1 hf (n, v) (by simpa using hv)
      simp at this
    | some x =>
      rw [hf] at h
      obtain ⟨hp, as, bs, h3, h4⟩ := List.find?_eq_some_iff_append.1 hf
      obtain ⟨m, v⟩ := x
      simp only [beq_iff_eq] at hp
      subst hp
      simp only [Option.bind_some] at h
      subst h
      refine Or.inr ⟨bs.reverse, as.reverse, ?_, ?_⟩
      · rw [← List.reverse_reverse g, h3]; simp
      · rintro ⟨w, hw⟩
        have := h4 (m, w) (by simpa using hw)
        simp at this

/-- the output format is known: none is given, or the last one is one of these -/
def FormatOk (B : Build) (g : Given) : Prop :=
  ∃ o, LastValue g c!"output-format" o ∧ (o = none ∨ o = some c!"readable" ∨ o = some c!"shell" ∨ B.json = true ∧ o ∈ [some c!"json", some c!"json-pretty", some c!"json-2"])

theorem knownFormat_iff (B : Build) (g : Given) : knownFormat B (value g c!"output-format") = true ↔ FormatOk B g := by
  unfold FormatOk
  constructor
  · intro h
    refine ⟨_, (value_iff g _ _).2 rfl, ?_⟩
    cases hv : value g c!"output-format" with
    | none => exact Or.inl rfl
    | some f =>
      rw [hv] at h
      simp only [knownFormat, Bool.or_eq_true, Bool.and_eq_true, beq_iff_eq] at h
      rcases h with (h | h) | ⟨hj, h⟩
      · right; left; rw [h]
      · right; right; left; rw [h]
      · right; right; right; refine ⟨hj, ?_⟩; rcases h with (h | h) | h <;> simp [h]
  · rintro ⟨o, ho, h⟩
    rw [(value_iff g _ _).1 ho]
    rcases h with e | e | e | ⟨hj, e⟩
    · rw [e]; rfl
    · rw [e]; rfl
    · rw [e]; rfl
    · simp only [List.mem_cons, List.not_mem_nil, or_false] at e
      rcases e with e | e | e <;> rw [e] <;> simp [knownFormat, hj]

/-- **C80** `rauc info` does nothing for an unknown output format. -/
theorem C80_format {B : Build} {O : Ops} {g : Given} {l : List Str} {calls : List Call} {e : Nat} (h : run B O g (c!"info" :: l) = .done calls e) (hc : calls ≠ []) : FormatOk B g := by
  rw [← knownFormat_iff]
  have hfind : ∀ a b d f, (commands ⟨a, b, d, f⟩).find? (fun c => c.1 == c!"info") = some (c!"info", .info) := by decide
  unfold run at h
  simp only [show (commands B).find? (fun c => c.1 == c!"info") = some (c!"info", .info) from hfind B.service B.create B.streaming B.json] at h
  split at h
  · cases h; exact absurd rfl hc
  · split at h
    · cases h; exact absurd rfl hc
    · split at h
      · cases h; exact absurd rfl hc
      · cases hk : knownFormat B (value g c!"output-format") with
        | true => rfl
        | false =>
          unfold infoStart at h
          split at h
          · simp only [hk, Bool.not_false, if_true] at h
            cases h; exact absurd rfl hc
          · cases h; exact absurd rfl hc

example : FormatOk {} [(c!"output-format", some c!"xml"), (c!"output-format", some c!"shell")] := ⟨_, Or.inr ⟨[(c!"output-format", some c!"xml")], [], rfl, by rintro ⟨v, hv⟩; cases hv⟩, Or.inr (Or.inr (Or.inl rfl))⟩

/-- the arguments are complete and what the command needs is there -/
inductive Ready (B : Build) (O : Ops) (g : Given) : Cmd → List Str → Prop
  | bundle (i o : Str) (h1 : On g c!"cert") (h2 : On g c!"key") (h3 : O.isDir (absPath O.cwd i) = true) (h4 : inside O.cwd i o = false) : Ready B O g .bundle [c!"bundle", i, o]
  | resign (i o : Str) (h1 : On g c!"cert") (h2 : On g c!"key") : Ready B O g .resign [c!"resign", i, o]
  | convert (i o : Str) (h1 : On g c!"cert") (h2 : On g c!"key") : Ready B O g .convert [c!"convert", i, o]
  | encrypt (i o : Str) (h : On g c!"to") : Ready B O g .encrypt [c!"encrypt", i, o]
  | replaceSig (i s o : Str) : Ready B O g .replaceSig [c!"replace-signature", i, s, o]
  | extractSig (i o : Str) : Ready B O g .extractSig [c!"extract-signature", i, o]
  | extract (i o : Str) : Ready B O g .extract [c!"extract", i, o]
  | info (a p : Str) (h : O.resolve a = some p)
      (hf : FormatOk B g) : Ready B O g .info [c!"info", a]
  | mount (a p : Str) (h : O.resolve a = some p) : Ready B O g .mount [c!"mount", a]

theorem withBundle_ne {O : Ops} {path : Str} {p : Params} {k : Bundle.Bundle → Call} {ok : Bundle.Bundle → Bool} : (withBundle O path p k ok).1 ≠ [] := by
  unfold withBundle
  cases O.check path p <;> simp

/-- Specification: the options, and the commands that have them. -/
def optionTable : List (List Str × (Build → Cmd → Bool)) :=
  let only (l : List Cmd) : Build → Cmd → Bool := fun _ c => decide (c ∈ l)
  [([c!"conf", c!"confopt", c!"debug", c!"version", c!"help", c!"mount"], fun _ _ => true),
    -- also global options, for compatibility
    ([c!"cert", c!"key", c!"keyring", c!"intermediate"], fun _ _ => true),
    ([c!"ignore-compatible", c!"ignore-version-limit", c!"transaction-id", c!"require-manifest-hash"], only [.install]),
    ([c!"progress"], fun B c => decide (c = .install) && B.service),
    ([c!"handler-args"], fun B c => decide (c = .service) || decide (c = .install) && !B.service),
    ([c!"override-boot-slot"], fun B c => decide (c = .service) || decide (c ∈ [Cmd.install, .status]) && !B.service),
    ([c!"tls-cert", c!"tls-key", c!"tls-ca", c!"tls-no-verify", c!"http-header"], fun B c => decide (c ∈ [Cmd.install, .info]) && B.streaming),
    ([c!"mksquashfs-args"], only [.bundle, .convert]),
    ([c!"casync-args", c!"ignore-image"], only [.convert]),
    ([c!"signing-keyring"], only [.bundle, .resign, .convert, .replaceSig]),
    ([c!"append"], only [.resign]),
    ([c!"to"], only [.encrypt]),
    ([c!"no-verify"], only [.resign, .replaceSig, .convert, .info]),
    ([c!"no-check-time"], only [.resign, .info]),
    ([c!"trust-environment"], only [.replaceSig, .convert, .extractSig, .extract]),
    ([c!"output-format"], only [.info, .status]),
    ([c!"dump-cert", c!"dump-recipients"], only [.info]),
    ([c!"detailed"], only [.status]),
    ([c!"image-type", c!"image-type-compat"], only [.writeSlot])]

def documented (B : Build) (o : Str) (c : Cmd) : Prop := ∃ r ∈ optionTable, o ∈ r.1 ∧ r.2 B c = true

theorem documented_iff (B : Build) (o : Str) (c : Cmd) : documented B o c ↔ o ∈ mainEntries ∨ o ∈ groupEntries B c := by
  have h1 : documented B o c ↔ o ∈ (optionTable.filter (fun r => r.2 B c)).flatMap (·.1) := by
    unfold documented
    simp only [List.mem_flatMap, List.mem_filter]
    constructor
    · rintro ⟨r, h1, h2, h3⟩; exact ⟨r, ⟨h1, h3⟩, h2⟩
    · rintro ⟨r, ⟨h1, h3⟩, h2⟩; exact ⟨r, h1, h2, h3⟩
  rw [h1, ← List.mem_append]
  have k1 : ∀ a b d f c, ∀ o ∈ (optionTable.filter (fun r => r.2 ⟨a, b, d, f⟩ c)).flatMap (·.1), o ∈ mainEntries ++ groupEntries ⟨a, b, d, f⟩ c := by
    intro a b d f c; cases a <;> cases b <;> cases d <;> cases f <;> cases c <;> decide +kernel
  have k2 : ∀ a b d f c, ∀ o ∈ mainEntries ++ groupEntries ⟨a, b, d, f⟩ c, o ∈ (optionTable.filter (fun r => r.2 ⟨a, b, d, f⟩ c)).flatMap (·.1) := by
    intro a b d f c; cases a <;> cases b <;> cases d <;> cases f <;> cases c <;> decide +kernel
  exact ⟨k1 B.service B.create B.streaming B.json c o, k2 B.service B.create B.streaming B.json c o⟩

/-- **C80** Nothing is refused without a reason: with known options, the right number of arguments and what the command needs, the check of the bundle (or
its creation) is begun. Together with `C80_exit` the exit status is 0 exactly if it and the operation succeed. -/
theorem C80_complete {B : Build} {O : Ops} {g : Given} {c : Cmd} {pos : List Str} (hr : Ready B O g c pos) (hb : (nameOf c, c) ∈ commands B)
    (ha : ∀ o ∈ g, documented B o.1 c) (hh : ¬ On g c!"help") (hc : O.configured = true) :
    ∃ calls e, run B O g pos = .done calls e ∧ calls ≠ [] := by
  replace ha : ∀ o ∈ g, o.1 ∈ mainEntries ∨ o.1 ∈ groupEntries B c := fun o ho => (documented_iff B o.1 c).1 (ha o ho)
  have hfind : (commands B).find? (fun x => x.1 == nameOf c) = some (nameOf c, c) := by
    have key : ∀ a b d f c, (nameOf c, c) ∈ commands ⟨a, b, d, f⟩ → (commands ⟨a, b, d, f⟩).find? (fun x => x.1 == nameOf c) = some (nameOf c, c) := by
      intro a b d f c; revert a b d f; cases c <;> decide
    exact key B.service B.create B.streaming B.json c hb
  have hall : g.all (fun o => mainEntries.contains o.1 || (groupEntries B c).contains o.1) = true := by
    rw [List.all_eq_true]
    intro o ho
    simpa only [Bool.or_eq_true, List.contains_iff_mem] using ha o ho
  have hno : has g c!"help" = false := by
    cases hx : has g c!"help"
    · rfl
    · exact absurd (has_iff.1 hx) hh
  have hrun : ∀ l, run B O g (nameOf c :: l) = _ := fun l => by
    unfold run
    simp only [hfind]
    rw [hall, hno, hc]
  cases hr with
  | bundle i o h1 h2 h3 h4 =>
    refine ⟨_, _, hrun _, ?_⟩
    simp only [bundleStart, has_iff.2 h1, has_iff.2 h2, h3, h4]
    simp
  | resign i o h1 h2 =>
    refine ⟨_, _, hrun _, ?_⟩
    simp only [resignStart, has_iff.2 h1, has_iff.2 h2]
    exact withBundle_ne
  | convert i o h1 h2 =>
    refine ⟨_, _, hrun _, ?_⟩
    simp only [convertStart, has_iff.2 h1, has_iff.2 h2]
    exact withBundle_ne
  | encrypt i o h =>
    refine ⟨_, _, hrun _, ?_⟩
    simp only [encryptStart, has_iff.2 h]
    exact withBundle_ne
  | replaceSig i s o => exact ⟨_, _, hrun _, withBundle_ne⟩
  | extractSig i o => exact ⟨_, _, hrun _, withBundle_ne⟩
  | extract i o => exact ⟨_, _, hrun _, withBundle_ne⟩
  | info a p h hf =>
    refine ⟨_, _, hrun _, ?_⟩
    have hk := (knownFormat_iff B g).2 hf
    simp only [infoStart, hk, h]
    exact withBundle_ne
  | mount a p h =>
    refine ⟨_, _, hrun _, ?_⟩
    simp only [mountStart, h]
    exact withBundle_ne

/-! ### The output must not be inside the input directory -/

/-- the absolute path with the given components -/
def path (cs : List Str) : Str := cs.flatMap (fun c => '/' :: c)

/-- components of paths -/
def Comps (cs : List Str) : Prop := ∀ c ∈ cs, c ≠ [] ∧ '/' ∉ c

theorem dirname_path {co : List Str} {f : Str} (hf : '/' ∉ f) (hc : Comps co) : dirname (path (co ++ [f])) = if co = [] then ['/'] else path co := by
  have e : path (co ++ [f]) = path co ++ '/' :: f := by simp [path]
  unfold dirname
  rw [e, if_pos (by simp)]
  have h1 : ((path co ++ '/' :: f).reverse.dropWhile (fun c => c != '/')) = '/' :: (path co).reverse := by
    rw [List.reverse_append, List.reverse_cons, List.append_assoc, List.dropWhile_append_of_pos]
    · simp
    · intro a ha
      simp only [List.mem_reverse] at ha
      simp only [bne_iff_ne, ne_eq]
      rintro rfl; exact hf ha
  rw [h1]
  simp only [List.dropWhile_cons, beq_self_eq_true, if_true]
  rcases List.eq_nil_or_concat co with rfl | ⟨cs, c, rfl⟩
  · rfl
  · have hc' := hc c (by simp)
    have e2 : (path (cs.concat c)).reverse = c.reverse ++ '/' :: (path cs).reverse := by simp [path]
    have hd : (path (cs.concat c)).reverse.dropWhile (fun c => c == '/') = (path (cs.concat c)).reverse := by
      rw [e2]
      cases hr : c.reverse with
      | nil => exact absurd (List.reverse_eq_nil_iff.1 hr) hc'.1
      | cons a l =>
        rw [List.cons_append, List.dropWhile_cons_of_neg]
        have : a ∈ c := by rw [← List.mem_reverse, hr]; simp
        simp only [beq_iff_eq]
        rintro rfl; exact hc'.2 this
    rw [hd, if_neg (by simp)]
    cases hr : (path (cs.concat c)).reverse with
    | nil => rw [e2] at hr; simp at hr
    | cons a l => simp only; rw [← hr, List.reverse_reverse]

theorem absPath_path (cwd : Str) {cs : List Str} (h : cs ≠ []) (t : Str) : absPath cwd (path cs ++ t) = path cs ++ t := by
  cases cs with
  | nil => exact absurd rfl h
  | cons c cs => simp [absPath, path, Stream.isAbs]

theorem strip_path {cs : List Str} (h : cs ≠ []) (hc : Comps cs) : stripSlash (path cs) = path cs := by
  unfold stripSlash
  rcases List.eq_nil_or_concat cs with rfl | ⟨cs, c, rfl⟩
  · exact absurd rfl h
  · rw [if_neg]
    have hc' := hc c (by simp)
    have : path (cs.concat c) = path cs ++ '/' :: c := by simp [path]
    rw [this, List.getLast?_append, List.getLast?_cons]
    cases hl : c.getLast? with
    | none => exact absurd (List.getLast?_eq_none_iff.1 hl) hc'.1
    | some x =>
      simp only [Option.getD_some, Option.some_or, Option.some.injEq]
      rintro rfl
      exact hc'.2 (List.mem_of_getLast? hl)

/-- **C80** An option that the command does not have is refused: nothing is done, and the exit status is 1. -/
theorem C80_unknown {B : Build} {O : Ops} {g : Given} {c : Cmd} {l : List Str} (hb : (nameOf c, c) ∈ commands B) {o : Str × Option Str} (ho : o ∈ g)
    (hn : ¬ documented B o.1 c) : run B O g (nameOf c :: l) = .done [] 1 := by
  have hfind : (commands B).find? (fun x => x.1 == nameOf c) = some (nameOf c, c) := by
    have key : ∀ a b d f c, (nameOf c, c) ∈ commands ⟨a, b, d, f⟩ → (commands ⟨a, b, d, f⟩).find? (fun x => x.1 == nameOf c) = some (nameOf c, c) := by
      intro a b d f c; revert a b d f; cases c <;> decide
    exact key B.service B.create B.streaming B.json c hb
  have hall : g.all (fun o => mainEntries.contains o.1 || (groupEntries B c).contains o.1) = false := by
    rw [List.all_eq_false]
    refine ⟨o, ho, ?_⟩
    rw [documented_iff] at hn
    simpa only [Bool.or_eq_true, List.contains_iff_mem] using hn
  unfold run
  simp only [hfind]
  rw [hall]
  rfl

example : (nameOf .extract, Cmd.extract) ∈ commands {} ∧ ¬ documented {} c!"no-verify" .extract ∧ documented {} c!"no-verify" .info := by
  refine ⟨by decide, fun h => ?_, (documented_iff _ _ _).2 (by decide)⟩
  rw [documented_iff] at h
  revert h; decide

/-- **C80** A bundle is never created inside its input directory, if both are given as absolute paths without `.`, `..`, empty components (except for one
slash at the end) and symbolic links. -/
theorem C80_outside_partial {B : Build} {O : Ops} {g : Given} {pos : List Str} {calls : List Call} {e : Nat} (h : run B O g pos = .done calls e)
    {i o : Str} (hcall : .create o i ∈ calls) {ci co : List Str} {f : Str} (hi : i = path ci ∧ ci ≠ [] ∨ i = path ci ++ ['/']) (ho : o = path (co ++ [f]))
    (hci : Comps ci) (hco : Comps (co ++ [f])) : ¬ ci <+: co := by
  rintro ⟨r, rfl⟩
  obtain ⟨-, -, -, hin⟩ := needs_of h hcall
  have hf := hco f (by simp)
  have hco' : Comps (ci ++ r) := fun c hc => hco c (by simp only [List.mem_append] at hc ⊢; exact .inl hc)
  have hout : dirname (absPath O.cwd o) = if ci ++ r = [] then ['/'] else path (ci ++ r) := by
    have := absPath_path O.cwd (cs := ci ++ r ++ [f]) (by simp) []
    simp only [List.append_nil] at this
    rw [ho, this, dirname_path hf.2 hco']
  have hinp : stripSlash (absPath O.cwd i) = path ci := by
    rcases hi with ⟨rfl, hne⟩ | rfl
    · have := absPath_path O.cwd hne []
      simp only [List.append_nil] at this
      rw [this, strip_path hne hci]
    · have : absPath O.cwd (path ci ++ ['/']) = path ci ++ ['/'] := by
        cases ci with
        | nil => rfl
        | cons c cs => exact absPath_path O.cwd (by simp) _
      rw [this, stripSlash, if_pos (by simp)]
      simp
  unfold inside at hin
  rw [hinp, hout] at hin
  have : path ci <+: if ci ++ r = [] then ['/'] else path (ci ++ r) := by
    split
    · rename_i e
      simp only [List.append_eq_nil_iff] at e
      rw [e.1]; exact List.nil_prefix
    · exact ⟨path r, by simp [path]⟩
  rw [← List.isPrefixOf_iff_prefix] at this
  rw [this] at hin
  cases hin

/-- Finding: with the input directory given as `.` the check does nothing: the bundle is created inside. The same with two slashes at the end, or
`..` in a path. -/
theorem C80_finding_inside : inside c!"/home/me" c!"." c!"out.raucb" = false ∧ inside c!"/" c!"/content//" c!"/content/out.raucb" = false ∧
    inside c!"/" c!"/content" c!"/x/../content/out.raucb" = false := by decide

/-- Finding: a sibling whose name continues the name of the input directory is refused. -/
theorem C80_finding_sibling : inside c!"/" c!"/tmp/content" c!"/tmp/content-out/x.raucb" = true := by decide

/-! ## C81 -/

/-- **C81** `write-slot` writes exactly if the image can be read, its type is given or follows from its name, the named slot exists, is not read-only and
accepts images of this type; then it runs the handler an installation would choose, on this slot and this image, without hooks. -/
theorem C81_write {B : Build} {O : Ops} {g : Given} {n f : Str} (hg : ∀ o ∈ g, documented B o.1 .writeSlot) (hh : ¬ On g c!"help") (hc : O.configured = true) :
    (∃ h img s, WriteOk O g n f h img s ∧ run B O g [c!"write-slot", n, f] = .done [.write h img s] (if O.write h img s then 0 else 1)) ∨
    ((∀ h img s, ¬ WriteOk O g n f h img s) ∧ run B O g [c!"write-slot", n, f] = .done [] 1) := by
  have hrun : run B O g [c!"write-slot", n, f] = .done (writeSlotStart O g [c!"write-slot", n, f]).1 (writeSlotStart O g [c!"write-slot", n, f]).2 := by
    have hfind : ∀ a b d f, (commands ⟨a, b, d, f⟩).find? (fun c => c.1 == c!"write-slot") = some (c!"write-slot", .writeSlot) := by decide
    have hall : g.all (fun o => mainEntries.contains o.1 || (groupEntries B .writeSlot).contains o.1) = true := by
      rw [List.all_eq_true]
      intro o ho
      simpa only [Bool.or_eq_true, List.contains_iff_mem] using (documented_iff _ _ _).1 (hg o ho)
    have hno : has g c!"help" = false := by
      cases hx : has g c!"help"
      · rfl
      · exact absurd (has_iff.1 hx) hh
    unfold run
    simp only [show (commands B).find? (fun c => c.1 == c!"write-slot") = some (c!"write-slot", .writeSlot) from hfind B.service B.create B.streaming B.json]
    rw [hall, hno, hc]
    rfl
  rw [hrun]
  rcases write_cases O g n f with ⟨e, h⟩ | ⟨h, img, s, hw, e⟩
  · rw [e]; exact .inr ⟨h, rfl⟩
  · rw [e]; exact .inl ⟨h, img, s, hw, rfl⟩

/-- **C81** No other command writes to a slot, and `write-slot` writes to no slot but the one named, and to none that is read-only. -/
theorem C81_only {B : Build} {O : Ops} {g : Given} {pos : List Str} {calls : List Call} {e : Nat} (h : run B O g pos = .done calls e) {hd : Handler}
    {img : Image} {s : Slot} (hw : .write hd img s ∈ calls) :
    ∃ n f t, pos = [c!"write-slot", n, f] ∧ s ∈ O.slots ∧ s.name = n ∧ s.readonly = false ∧ img.filename = some f ∧ img.typ = some t ∧ t ∈ acceptedImages s.typ ∧
      calls = [.write hd img s] := by
  obtain ⟨n, f, hp, hf, hr, ⟨_, t, -, -, -, ht, hm⟩, hn, -⟩ := needs_of h hw
  refine ⟨n, f, t, hp, List.mem_of_find?_eq_some hf, by simpa using List.find?_some hf, hr, hn, ht, hm, ?_⟩
  rcases run_inv h with ⟨rfl, -, -⟩ | ⟨hs, -⟩
  · cases hw
  cases hs with
  | none => cases hw
  | one op' h1 _ h2 hd => simp only [List.mem_singleton] at hw; rw [← hw]
  | bad path p hn hc hp => simp only [List.mem_singleton] at hw; cases hw
  | two path p op' b' hn hc hb' h2 hd hp =>
    simp only [List.mem_cons, List.not_mem_nil, or_false] at hw
    rcases hw with hw | hw
    · cases hw
    · rw [← hw] at hb'; cases hb'

/-! ## Examples -/

def exOps : Ops :=
  { cwd := c!"/home/me", isDir := fun p => p == c!"/home/me/content", resolve := fun p => some p,
    check := fun path p => if path == c!"in.raucb" then some ⟨none, 4096, [], false, p.noVerify, true, true, true, none⟩ else none,
    create := fun _ _ => true, resign := fun _ _ _ => true, replaceSig := fun _ _ _ _ => false, extractSig := fun _ _ => true, extract := fun _ _ => true,
    convert := fun _ _ _ => true, encrypt := fun _ _ => true, manifest := fun _ => true, mount := fun _ => true,
    imageSize := fun _ => some 4096, slots := [{ name := c!"rootfs.0", sclass := c!"rootfs", typ := c!"ext4" }, { name := c!"ro.0", sclass := c!"ro", readonly := true }],
    write := fun _ _ _ => true }

def exitOf : Out → Option (Nat × Nat)
  | .done calls e => some (calls.length, e)
  | .other _ => none

def signOpts : Given := [(c!"cert", some c!"c.pem"), (c!"key", some c!"k.pem")]

example : exitOf (run {} exOps signOpts [c!"bundle", c!"content", c!"out.raucb"]) = some (1, 0) := by decide +kernel
example : exitOf (run {} exOps [] [c!"bundle", c!"content", c!"out.raucb"]) = some (0, 1) := by decide +kernel
example : exitOf (run {} exOps signOpts [c!"bundle", c!"content", c!"content/out.raucb"]) = some (0, 1) := by decide +kernel
example : exitOf (run {} exOps signOpts [c!"resign", c!"in.raucb", c!"out.raucb"]) = some (2, 0) := by decide +kernel
example : exitOf (run {} exOps signOpts [c!"resign", c!"other.raucb", c!"out.raucb"]) = some (1, 1) := by decide +kernel
example : exitOf (run {} exOps [] [c!"replace-signature", c!"in.raucb", c!"sig", c!"out.raucb"]) = some (2, 1) := by decide +kernel
example : exitOf (run {} exOps [(c!"no-verify", none)] [c!"info", c!"in.raucb"]) = some (2, 0) := by decide +kernel
/-- verification cannot be disabled here -/
example : exitOf (run {} exOps [(c!"no-verify", none)] [c!"extract", c!"in.raucb", c!"dir"]) = some (0, 1) := by decide +kernel
example : exitOf (run {} exOps [(c!"no-verify", none)] [c!"mount", c!"in.raucb"]) = some (0, 1) := by decide +kernel
example : exitOf (run {} exOps [] [c!"write-slot", c!"rootfs.0", c!"image.ext4"]) = some (1, 0) := by decide +kernel
example : exitOf (run {} exOps [] [c!"write-slot", c!"ro.0", c!"image.ext4"]) = some (0, 1) := by decide +kernel
/-- the hypotheses of `C80_outside_partial` are met -/
example : Comps [c!"home", c!"me", c!"content"] ∧ Comps ([c!"tmp"] ++ [c!"out.raucb"]) := by
  constructor <;> intro c hc <;> simp at hc <;> rcases hc with rfl | rfl | rfl <;> decide

/-- **C80**: how a path on the command line is understood: an absolute path and a PKCS#11 URI as given, anything else in the current directory -/
theorem C80_paths (cwd p : Str) :
    (c!"/" <+: p → absPath cwd p = p) ∧ (c!"pkcs11:" <+: p → absPath cwd p = p) ∧
    (¬ c!"/" <+: p → ¬ c!"pkcs11:" <+: p → p ≠ [] → cwd ≠ ['/'] → absPath cwd p = cwd ++ c!"/" ++ p) ∧
    (¬ c!"/" <+: p → ¬ c!"pkcs11:" <+: p → p ≠ [] → cwd = ['/'] → absPath cwd p = c!"/" ++ p) := by
  have ha : Stream.isAbs p = true ↔ c!"/" <+: p := by
    cases p with
    | nil => simp [Stream.isAbs]
    | cons x r =>
      by_cases hx : x = '/'
      · subst hx; simp [Stream.isAbs]
      · have : Stream.isAbs (x :: r) = false := by
          unfold Stream.isAbs
          split
          · rename_i h; cases h; exact absurd rfl hx
          · rfl
        rw [this]; simp [Ne.symm hx]
  refine ⟨?_, ?_, ?_, ?_⟩
  · intro h; unfold absPath; rw [if_pos (ha.2 h)]; split <;> rfl
  · intro h; unfold absPath; rw [if_pos (List.isPrefixOf_iff_prefix.2 h)]
  · intro h1 h2 h3 h4
    unfold absPath Stream.buildFilename
    rw [if_neg (fun e => h2 (List.isPrefixOf_iff_prefix.1 e)), if_neg (fun e => h1 (ha.1 e)), if_neg h3, if_neg h4]
    simp
  · intro h1 h2 h3 h4
    unfold absPath Stream.buildFilename
    rw [if_neg (fun e => h2 (List.isPrefixOf_iff_prefix.1 e)), if_neg (fun e => h1 (ha.1 e)), if_neg h3, if_pos h4]
    rfl

end Rauc.Cli
