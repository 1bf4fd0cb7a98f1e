import Verif.Model.Context
import Verif.Props.ConfigLoad
import Verif.Props.Bundle

/-!
# C77: the configuration and the trust anchors a command works with
-/

namespace Rauc.Context

open ConfigFile (Cfg Keyring Env loadConfig defaultConfig)

/-! ## Specification -/

/-- the documented search order -/
def places : List Str := [c!"/etc/rauc/system.conf", c!"/run/rauc/system.conf", c!"/usr/lib/rauc/system.conf"]

/-- `p` is the first existing place -/
def FirstExisting (fs : Str → FileState) (p : Str) : Prop :=
  ∃ before after, places = before ++ p :: after ∧ (∀ q ∈ before, fs q = .missing) ∧ fs p ≠ .missing

/-- the file is a valid configuration (with the settings of the command line applied) and says `c` -/
def Says (E : Option Str → Env) (fs : Str → FileState) (ovs : List (Str × Str × Str)) (p : Str) (c : Cfg) : Prop :=
  ∃ kf, fs p = .data (some kf) ∧ loadConfig (E (some p)) ovs kf = some c

/-- `SECTION:KEY=VALUE` -/
def Setting (v : Str) (s k x : Str) : Prop := v = s ++ ':' :: k ++ '=' :: x ∧ ':' ∉ s ∧ '=' ∉ s ∧ '=' ∉ k

/-- commands that need no configuration, may use one, need one -/
def host : List Cmd := [.help, .bundle, .resign, .convert, .encrypt, .replaceSig, .extractSig]
def either : List Cmd := [.extract, .info]
def direct : List Cmd := [.writeSlot, .service, .mount]

/-- The configuration without the options that replace single settings -/
inductive Base (E : Option Str → Env) (fs : Str → FileState) (svc : Bool) (cmd : Cmd) (conf : Option Str) (ovs : List (Str × Str × Str)) : Cfg → Prop where
  /-- the file named on the command line -/
  | explicit {p c} : conf = some p → Says E fs ovs p c → Base E fs svc cmd conf ovs c
  /-- the first file that exists -/
  | found {p c} : conf = none → (cmd ∈ either ∨ cmd ∈ direct ∨ (svc = false ∧ (cmd = .install ∨ cmd = .status))) → FirstExisting fs p →
      Says E fs ovs p c → Base E fs svc cmd conf ovs c
  /-- the defaults, for commands that never look for a file -/
  | host {c} : conf = none → (cmd ∈ host ∨ (svc = true ∧ (cmd = .install ∨ cmd = .status))) → defaultConfig (E none) ovs = some c →
      Base E fs svc cmd conf ovs c
  /-- the defaults, for `info` and `extract`, if there is no file at all -/
  | noFile {c} : conf = none → cmd ∈ either → (∀ p ∈ places, fs p = .missing) → defaultConfig (E none) ovs = some c → Base E fs svc cmd conf ovs c
  /-- ... or the first one is empty or cannot be read -/
  | useless {p c} : conf = none → cmd ∈ either → FirstExisting fs p → (fs p = .empty ∨ fs p = .unreadable) →
      defaultConfig (E none) ovs = some c → Base E fs svc cmd conf ovs c

/-- the command uses the target (boot slot, status files, …) -/
def OnTarget (svc : Bool) (cmd : Cmd) (conf : Option Str) : Prop :=
  conf.isSome = true ∨ cmd ∈ direct ∨ (svc = false ∧ (cmd = .install ∨ cmd = .status))

/-! ## Proofs -/

theorem span_cut {d : Char} (a r : Str) (h : d ∉ a) : (a ++ d :: r).span (fun c => c != d) = (a, d :: r) := by
  rw [List.span_eq_takeWhile_dropWhile]
  have h' : ∀ x ∈ a, (x != d) = true := by
    intro x hx
    simp only [bne_iff_ne, ne_eq]
    rintro rfl; exact h hx
  rw [List.takeWhile_append_of_pos h', List.dropWhile_append_of_pos h']
  simp

theorem cut_iff {d : Char} {s a b : Str} : cut d s = some (a, b) ↔ s = a ++ d :: b ∧ d ∉ a := by
  unfold cut
  by_cases h0 : s = []
  · rw [if_pos h0]; subst h0; simp
  · rw [if_neg h0]
    constructor
    · intro h
      rw [HandlerEnv.splitMax] at h
      rw [List.span_eq_takeWhile_dropWhile] at h
      have e := List.takeWhile_append_dropWhile (p := fun c => c != d) (l := s)
      have hm : d ∉ s.takeWhile (fun c => c != d) := by
        intro hd
        have := (List.all_eq_true.1 List.all_takeWhile) d hd
        simp at this
      cases hd : s.dropWhile (fun c => c != d) with
      | nil => rw [hd] at h; simp at h
      | cons x r =>
        rw [hd] at h
        simp only [HandlerEnv.splitMax] at h
        injection h with h
        injection h with h1 h2
        subst h1; subst h2
        have hx : x = d := by
          have := List.head_dropWhile_not (p := fun c => c != d) (l := s) (by rw [hd]; simp)
          simp only [hd, List.head_cons] at this
          simpa using this
        subst hx
        rw [hd] at e
        exact ⟨e.symm, hm⟩
    · rintro ⟨rfl, hm⟩
      rw [HandlerEnv.splitMax, span_cut a b hm]
      simp [HandlerEnv.splitMax]

/-- A setting on the command line is accepted exactly if it has the form `SECTION:KEY=VALUE`, and it means that section, key and value. -/
theorem C77_setting {v : Option Str} {s k x : Str} : collect v = some (s, k, x) ↔ ∃ t, v = some t ∧ Setting t s k x := by
  cases v with
  | none => simp [collect]
  | some t =>
    simp only [collect, Option.some.injEq]
    constructor
    · intro h
      cases h1 : cut '=' t with
      | none => rw [h1] at h; simp at h
      | some lv =>
        obtain ⟨l, v⟩ := lv
        rw [h1] at h; simp only at h
        cases h2 : cut ':' l with
        | none => rw [h2] at h; simp at h
        | some sk =>
          obtain ⟨s', k'⟩ := sk
          rw [h2] at h; simp only [Option.some.injEq, Prod.mk.injEq] at h
          obtain ⟨rfl, rfl, rfl⟩ := h
          obtain ⟨e1, n1⟩ := cut_iff.1 h1
          obtain ⟨e2, n2⟩ := cut_iff.1 h2
          refine ⟨t, rfl, ?_, n2, ?_, ?_⟩
          · rw [e1, e2]
          · intro hm; exact n1 (by rw [e2]; simp [hm])
          · intro hm; exact n1 (by rw [e2]; simp [hm])
    · rintro ⟨t', rfl, e, n1, n2, n3⟩
      have h1 : cut '=' t = some (s ++ ':' :: k, x) := by
        refine cut_iff.2 ⟨e, ?_⟩
        simp only [List.mem_append, List.mem_cons, not_or]
        exact ⟨n2, by decide, n3⟩
      have h2 : cut ':' (s ++ ':' :: k) = some (s, k) := cut_iff.2 ⟨rfl, n1⟩
      rw [h1]; simp only [h2]

theorem search_spec (fs : Str → FileState) (l : List Str) : ∀ last,
    (∃ a b, l = a ++ search fs last l :: b ∧ (∀ q ∈ a, fs q = .missing) ∧ fs (search fs last l) ≠ .missing) ∨
    ((∀ q ∈ l, fs q = .missing) ∧ search fs last l = l.getLast?.getD last) := by
  induction l with
  | nil => intro last; right; exact ⟨by simp, rfl⟩
  | cons p l ih =>
    intro last
    rw [search]
    cases hp : fs p with
    | missing =>
      simp only [exists', Bool.false_eq_true, if_false]
      rcases ih p with ⟨a, b, e, h1, h2⟩ | ⟨h1, h2⟩
      · left
        refine ⟨p :: a, b, by rw [List.cons_append, ← e], ?_, h2⟩
        intro q hq
        rcases List.mem_cons.1 hq with rfl | hq
        · exact hp
        · exact h1 q hq
      · right
        refine ⟨?_, ?_⟩
        · intro q hq
          rcases List.mem_cons.1 hq with rfl | hq
          · exact hp
          · exact h1 q hq
        · rw [h2, List.getLast?_cons]; rfl
    | unreadable => simp only [exists', if_true]; exact .inl ⟨[], l, rfl, by simp, by rw [hp]; simp⟩
    | empty => simp only [exists', if_true]; exact .inl ⟨[], l, rfl, by simp, by rw [hp]; simp⟩
    | data kf => simp only [exists', if_true]; exact .inl ⟨[], l, rfl, by simp, by rw [hp]; simp⟩

theorem first_unique {fs : Str → FileState} {p q : Str} (hp : FirstExisting fs p) (hq : FirstExisting fs q) : p = q := by
  obtain ⟨a, b, e, h1, h2⟩ := hp
  obtain ⟨a', b', e', h1', h2'⟩ := hq
  rw [e] at e'
  rcases List.append_eq_append_iff.1 e' with ⟨m, hm, hm'⟩ | ⟨m, hm, hm'⟩
  · cases m with
    | nil => simp only [List.nil_append, List.cons.injEq] at hm'; exact hm'.1
    | cons x m =>
      simp only [List.cons_append, List.cons.injEq] at hm'
      exact absurd (h1' p (by rw [hm, hm'.1]; simp)) h2
  · cases m with
    | nil => simp only [List.nil_append, List.cons.injEq] at hm'; exact hm'.1.symm
    | cons x m =>
      simp only [List.cons_append, List.cons.injEq] at hm'
      exact absurd (h1 q (by rw [hm, hm'.1]; simp)) h2'

/-- the search ends at the first existing file, or at the last place if there is none -/
theorem search_first (fs : Str → FileState) :
    FirstExisting fs (search fs [] searchPaths) ∨
    ((∀ q ∈ places, fs q = .missing) ∧ fs (search fs [] searchPaths) = .missing) := by
  rcases search_spec fs searchPaths [] with ⟨a, b, e, h1, h2⟩ | ⟨h1, h2⟩
  · exact .inl ⟨a, b, e, h1, h2⟩
  · right
    refine ⟨h1, ?_⟩
    rw [h2]
    exact h1 _ (by decide)

theorem load_ok {E : Option Str → Env} {fs : Str → FileState} {ovs : List (Str × Str × Str)} {p : Str} {c : Cfg} :
    load E fs ovs p = .ok c ↔ Says E fs ovs p c := by
  unfold load Says
  cases hp : fs p with
  | missing => simp
  | unreadable => simp
  | empty => simp
  | data kf =>
    cases kf with
    | none => simp
    | some kf =>
      simp only [FileState.data.injEq, Option.some.injEq]
      cases hl : loadConfig (E (some p)) ovs kf with
      | none =>
        simp only [reduceCtorEq, false_iff]
        rintro ⟨kf', rfl, h⟩; rw [hl] at h; cases h
      | some c' =>
        simp only [Loaded.ok.injEq]
        constructor
        · rintro rfl; exact ⟨kf, rfl, hl⟩
        · rintro ⟨kf', rfl, h⟩; rw [hl] at h; cases h; rfl

theorem load_nofile {E : Option Str → Env} {fs : Str → FileState} {ovs : List (Str × Str × Str)} {p : Str} :
    load E fs ovs p = .nofile ↔ fs p = .missing ∨ fs p = .empty ∨ fs p = .unreadable := by
  unfold load
  cases hp : fs p with
  | missing => simp
  | unreadable => simp
  | empty => simp
  | data kf =>
    cases kf with
    | none => simp
    | some kf =>
      simp only [reduceCtorEq, or_self, iff_false]
      cases loadConfig (E (some p)) ovs kf <;> simp

theorem required_iff {E : Option Str → Env} {fs : Str → FileState} {ovs : List (Str × Str × Str)} {p : Str} {c : Cfg} :
    (load E fs ovs p).required = some c ↔ Says E fs ovs p c := by
  rw [← load_ok]
  cases load E fs ovs p <;> simp [Loaded.required]

theorem says_exists {E : Option Str → Env} {fs : Str → FileState} {ovs : List (Str × Str × Str)} {p : Str} {c : Cfg} (h : Says E fs ovs p c) :
    fs p ≠ .missing := by
  obtain ⟨kf, h, _⟩ := h
  rw [h]; simp

theorem searched_iff {E : Option Str → Env} {fs : Str → FileState} {ovs : List (Str × Str × Str)} {c : Cfg} :
    Says E fs ovs (search fs [] searchPaths) c ↔ ∃ p, FirstExisting fs p ∧ Says E fs ovs p c := by
  constructor
  · intro h
    rcases search_first fs with hf | ⟨_, hm⟩
    · exact ⟨_, hf, h⟩
    · exact absurd hm (says_exists h)
  · rintro ⟨p, hf, h⟩
    rcases search_first fs with hf' | ⟨hall, _⟩
    · rw [first_unique hf' hf]; exact h
    · obtain ⟨a, b, e, _, hne⟩ := hf
      exact absurd (hall p (by rw [e]; simp)) hne

/-- the configuration before the replaced settings, for a context made by the command line -/
theorem base_iff {E : Option Str → Env} {fs : Str → FileState} {svc : Bool} {cmd : Cmd} {o : Opts} {x : Ctx}
    (hx : cmdline svc cmd o = some x) {c : Cfg} : baseConfig E fs x = some c ↔ Base E fs svc cmd o.conf x.overrides c := by
  unfold cmdline at hx
  cases hm : ConfigFile.mapAll collect o.confopts with
  | none => rw [hm] at hx; simp at hx
  | some ovs =>
    rw [hm] at hx
    simp only [Option.some.injEq] at hx
    subst hx
    unfold baseConfig effMode effPath
    dsimp only
    cases hc : o.conf with
    | some p =>
      simp only [Option.isSome_some, if_true]
      rw [required_iff]
      constructor
      · exact fun h => .explicit rfl h
      · intro h
        cases h with
        | explicit e h => cases e; exact h
        | found e => cases e
        | host e => cases e
        | noFile e => cases e
        | useless e => cases e
    | none =>
      simp only [Option.isSome_none, Bool.false_eq_true, if_false]
      by_cases hn : cmdMode svc cmd = .none
      · have hcm : cmd ∈ host ∨ (svc = true ∧ (cmd = .install ∨ cmd = .status)) := by
          revert hn; cases svc <;> cases cmd <;> decide
        simp only [hn]
        constructor
        · exact fun h => .host rfl hcm h
        · intro h
          cases h with
          | explicit e h => cases e
          | found _ h => exfalso; revert hcm h; cases svc <;> cases cmd <;> decide
          | host _ _ h => exact h
          | noFile _ h => exfalso; revert hcm h; cases svc <;> cases cmd <;> decide
          | useless _ h => exfalso; revert hcm h; cases svc <;> cases cmd <;> decide
      · by_cases hr : cmdMode svc cmd = .required
        · have hcm : cmd ∈ direct ∨ (svc = false ∧ (cmd = .install ∨ cmd = .status)) := by
            revert hr; cases svc <;> cases cmd <;> decide
          simp only [hr, reduceCtorEq, if_false]
          rw [required_iff, searched_iff]
          constructor
          · rintro ⟨p, hf, h⟩; exact .found rfl (.inr hcm) hf h
          · intro h
            cases h with
            | explicit e h => cases e
            | found _ _ hf h => exact ⟨_, hf, h⟩
            | host _ h => exfalso; revert hcm h; cases svc <;> cases cmd <;> decide
            | noFile _ h => exfalso; revert hcm h; cases svc <;> cases cmd <;> decide
            | useless _ h => exfalso; revert hcm h; cases svc <;> cases cmd <;> decide
        · have ha : cmdMode svc cmd = .auto := by
            cases h : cmdMode svc cmd
            · exact absurd h hn
            · rfl
            · exact absurd h hr
          have hcm : cmd ∈ either := by
            revert ha; cases svc <;> cases cmd <;> decide
          simp only [ha, reduceCtorEq, if_false]
          constructor
          · intro h
            cases hl : load E fs ovs (search fs [] searchPaths) with
            | ok c' =>
              rw [hl] at h
              simp only [Option.some.injEq] at h
              subst h
              obtain ⟨p, hf, hs⟩ := searched_iff.1 (load_ok.1 hl)
              exact .found rfl (.inl hcm) hf hs
            | error => rw [hl] at h; simp at h
            | nofile =>
              rw [hl] at h
              simp only at h
              rcases search_first fs with hf | ⟨hall, _⟩
              · rcases load_nofile.1 hl with hm' | hu
                · obtain ⟨_, _, _, _, hne⟩ := hf
                  exact absurd hm' hne
                · exact .useless rfl hcm hf hu h
              · exact .noFile rfl hcm hall h
          · intro h
            cases h with
            | explicit e h => cases e
            | found _ _ hf h =>
              rw [load_ok.2 (searched_iff.2 ⟨_, hf, h⟩)]
            | host _ h => exfalso; revert hcm h; cases svc <;> cases cmd <;> decide
            | noFile _ _ hall h =>
              have : load E fs ovs (search fs [] searchPaths) = .nofile := by
                rcases search_first fs with ⟨a, b, e, _, hne⟩ | ⟨_, hm'⟩
                · exact absurd (hall _ (by rw [show places = _ from e]; simp)) hne
                · exact load_nofile.2 (.inl hm')
              rw [this]; exact h
            | @useless p _ _ _ hf hu h =>
              have : load E fs ovs (search fs [] searchPaths) = .nofile := by
                rcases search_first fs with hf' | ⟨hall, _⟩
                · rw [first_unique hf' hf]; exact load_nofile.2 (.inr hu)
                · obtain ⟨a, b, e, _, hne⟩ := hf
                  exact absurd (hall p (by rw [e]; simp)) hne
              rw [this]; exact h

/-- the settings on the command line are all well formed, and in this order -/
def Settings (opts : List (Option Str)) (ovs : List (Str × Str × Str)) : Prop :=
  List.Forall₂ (fun v o => ∃ t, v = some t ∧ Setting t o.1 o.2.1 o.2.2) opts ovs

/-- the configuration with the settings that have options of their own -/
structure Replaced (cmd : Cmd) (o : Opts) (base c : Cfg) : Prop where
  keyringPath : c.keyring.path = o.keyring.or base.keyring.path
  mountPrefix : c.system.mountPrefix = o.mount.getD base.system.mountPrefix
  key : c.encryption.key = if cmd = .info ∨ cmd = .extract ∨ cmd = .extractSig then o.key.or base.encryption.key else base.encryption.key
  rest : c = { base with
    system := { base.system with mountPrefix := c.system.mountPrefix }, keyring := { base.keyring with path := c.keyring.path }
    encryption := { base.encryption with key := c.encryption.key } }

theorem replaced_iff {svc : Bool} {cmd : Cmd} {o : Opts} {x : Ctx} (hx : cmdline svc cmd o = some x) {base c : Cfg} :
    applyOverrides x base = c ↔ Replaced cmd o base c := by
  unfold cmdline at hx
  cases hm : ConfigFile.mapAll collect o.confopts with
  | none => rw [hm] at hx; simp at hx
  | some ovs =>
    rw [hm] at hx
    simp only [Option.some.injEq] at hx
    subst hx
    have hk : ∀ b : Option Str, replace b (o.keyring.map some) = o.keyring.or b := by intro b; cases o.keyring <;> rfl
    have hmo : ∀ b : Str, replace b o.mount = o.mount.getD b := by intro b; cases o.mount <;> rfl
    have he : ∀ b : Option Str, replace b ((if (cmd == .info || cmd == .extract || cmd == .extractSig) = true then o.key else none).map some) =
        if cmd = .info ∨ cmd = .extract ∨ cmd = .extractSig then o.key.or b else b := by
      intro b
      by_cases hc : cmd = .info ∨ cmd = .extract ∨ cmd = .extractSig
      · have : (cmd == .info || cmd == .extract || cmd == .extractSig) = true := by revert hc; cases cmd <;> decide
        rw [if_pos hc, this]
        simp only [if_true]
        cases o.key <;> rfl
      · have : (cmd == .info || cmd == .extract || cmd == .extractSig) = false := by revert hc; cases cmd <;> decide
        rw [if_neg hc, this]
        rfl
    unfold applyOverrides
    simp only [hk, hmo, he, Option.map_none]
    constructor
    · rintro rfl
      exact ⟨rfl, rfl, rfl, rfl⟩
    · intro h
      rw [h.rest, ← h.keyringPath, ← h.mountPrefix, ← h.key]
      rfl

theorem settings_iff {opts : List (Option Str)} {ovs : List (Str × Str × Str)} : ConfigFile.mapAll collect opts = some ovs ↔ Settings opts ovs := by
  unfold Settings
  rw [ConfigFile.mapAll_iff]
  constructor <;> intro h <;> refine h.imp fun v o hvo => ?_
  · exact C77_setting.1 hvo
  · exact C77_setting.2 hvo

/-- A command runs exactly if all settings on the command line are well formed, the configuration in effect is valid and, on the target, the
target can be set up. The configuration in effect is the file named by `--conf` and no other, else (depending on the command) the first
existing one in `/etc`, `/run` and `/usr/lib`, or the defaults, with keyring, mount prefix and key as given on the command line. -/
theorem C77_config {E : Option Str → Env} {fs : Str → FileState} {target : Cfg → Bool} {svc : Bool} {cmd : Cmd} {o : Opts} {c : Cfg} :
    start E fs target svc cmd o = some c ↔
    ∃ ovs base, Settings o.confopts ovs ∧ Base E fs svc cmd o.conf ovs base ∧ Replaced cmd o base c ∧ (OnTarget svc cmd o.conf → target c = true) := by
  unfold start
  cases hx : cmdline svc cmd o with
  | none =>
    simp only [reduceCtorEq, false_iff]
    rintro ⟨ovs, base, hs, _⟩
    rw [← settings_iff] at hs
    unfold cmdline at hx
    rw [hs] at hx
    simp at hx
  | some x =>
    have hov : Settings o.confopts x.overrides := by
      rw [← settings_iff]
      unfold cmdline at hx
      cases hm : ConfigFile.mapAll collect o.confopts with
      | none => rw [hm] at hx; simp at hx
      | some ovs => rw [hm] at hx; simp only [Option.some.injEq] at hx; subst hx; rfl
    have hmode : effMode x = .required ↔ OnTarget svc cmd o.conf := by
      have h1 : x.configpath = o.conf ∧ x.mode = cmdMode svc cmd := by
        unfold cmdline at hx
        cases hm : ConfigFile.mapAll collect o.confopts with
        | none => rw [hm] at hx; simp at hx
        | some ovs => rw [hm] at hx; simp only [Option.some.injEq] at hx; subst hx; exact ⟨rfl, rfl⟩
      unfold effMode OnTarget
      rw [h1.1, h1.2]
      cases o.conf with
      | some p => simp
      | none =>
        simp only [Option.isSome_none, Bool.false_eq_true, if_false, false_or]
        cases svc <;> cases cmd <;> decide
    simp only []
    unfold configure
    constructor
    · intro h
      cases hb : baseConfig E fs x with
      | none => rw [hb] at h; simp at h
      | some base =>
        rw [hb] at h
        simp only at h
        split at h
        · simp at h
        · rename_i hn
          simp only [Option.some.injEq] at h
          refine ⟨x.overrides, base, hov, (base_iff hx).1 hb, (replaced_iff hx).1 h, fun ht => ?_⟩
          rw [h] at hn
          cases htc : target c with
          | true => rfl
          | false => exact absurd ⟨hmode.2 ht, htc⟩ hn
    · rintro ⟨ovs, base, hs, hb, hr, ht⟩
      have : ovs = x.overrides := by
        rw [← settings_iff] at hs hov
        rw [hs] at hov; exact Option.some.inj hov
      subst this
      rw [(base_iff hx).2 hb]
      simp only
      rw [(replaced_iff hx).2 hr, if_neg]
      rintro ⟨h1, h2⟩
      rw [ht (hmode.1 h1)] at h2; cases h2

/-- `--conf FILE`: whatever the command, a file that is missing, empty, unreadable or invalid is never replaced by another one or by defaults;
no other file matters. -/
theorem C77_explicit {E : Option Str → Env} {fs : Str → FileState} {target : Cfg → Bool} {svc : Bool} {cmd : Cmd} {o : Opts} {p : Str}
    (ho : o.conf = some p) :
    (∀ c, start E fs target svc cmd o = some c → ∃ ovs base, Says E fs ovs p base ∧ Replaced cmd o base c) ∧
    (∀ fs', fs' p = fs p → start E fs' target svc cmd o = start E fs target svc cmd o) := by
  constructor
  · intro c h
    obtain ⟨ovs, base, _, hb, hr, _⟩ := C77_config.1 h
    cases hb with
    | explicit e h => rw [ho] at e; cases e; exact ⟨_, _, h, hr⟩
    | found e => rw [ho] at e; cases e
    | host e => rw [ho] at e; cases e
    | noFile e => rw [ho] at e; cases e
    | useless e => rw [ho] at e; cases e
  · intro fs' hp
    apply Option.ext
    intro c
    rw [C77_config, C77_config]
    have key : ∀ {g g' : Str → FileState}, g' p = g p → ∀ {ovs base}, Base E g svc cmd o.conf ovs base → Base E g' svc cmd o.conf ovs base := by
      intro g g' hgp ovs base hb
      cases hb with
      | explicit e h =>
        have e' := e
        rw [ho] at e; cases e
        obtain ⟨kf, h1, h2⟩ := h
        exact .explicit e' ⟨kf, by rw [hgp]; exact h1, h2⟩
      | found e => rw [ho] at e; cases e
      | host e => rw [ho] at e; cases e
      | noFile e => rw [ho] at e; cases e
      | useless e => rw [ho] at e; cases e
    constructor
    · rintro ⟨ovs, base, h1, h2, h3⟩; exact ⟨ovs, base, h1, key hp.symm h2, h3⟩
    · rintro ⟨ovs, base, h1, h2, h3⟩; exact ⟨ovs, base, h1, key hp h2, h3⟩

/-- The service, `write-slot` and `mount` never run without a valid configuration file; and if the first existing file is not a valid
configuration, neither they nor `info` and `extract` use a later one: a non-empty readable first file that is not valid stops them all. -/
theorem C77_no_fallback {E : Option Str → Env} {fs : Str → FileState} {target : Cfg → Bool} {svc : Bool} {cmd : Cmd} {o : Opts} {c : Cfg}
    (h : start E fs target svc cmd o = some c) (hc : o.conf = none) :
    (cmd ∈ direct → ∃ p ovs base, FirstExisting fs p ∧ Says E fs ovs p base ∧ Replaced cmd o base c) ∧
    (cmd ∈ either → ∀ p, FirstExisting fs p → ∀ d, fs p = .data d → ∃ ovs base, Says E fs ovs p base ∧ Replaced cmd o base c) := by
  obtain ⟨ovs, base, _, hb, hr, _⟩ := C77_config.1 h
  constructor
  · intro hd
    cases hb with
    | explicit e h => rw [hc] at e; cases e
    | found _ _ hf hs => exact ⟨_, ovs, base, hf, hs, hr⟩
    | host _ h => exfalso; revert hd h; cases svc <;> cases cmd <;> decide
    | noFile _ h => exfalso; revert hd h; cases svc <;> cases cmd <;> decide
    | useless _ h => exfalso; revert hd h; cases svc <;> cases cmd <;> decide
  · intro he p hf d hd
    cases hb with
    | explicit e h => rw [hc] at e; cases e
    | found _ _ hf' hs => rw [first_unique hf hf']; exact ⟨ovs, base, hs, hr⟩
    | host _ h => exfalso; revert he h; cases svc <;> cases cmd <;> decide
    | noFile _ _ hall =>
      obtain ⟨a, b, e, _, hne⟩ := hf
      exact absurd (hall p (by rw [e]; simp)) hne
    | useless _ _ hf' hu =>
      rw [first_unique hf' hf] at hu
      rw [hd] at hu
      simp at hu

/-- Commands that make or change bundles (and, with a service, `install` and `status` in the client) do not depend on the files of the system,
unless one is named. -/
theorem C77_host {E : Option Str → Env} {fs fs' : Str → FileState} {target : Cfg → Bool} {svc : Bool} {cmd : Cmd} {o : Opts}
    (hc : o.conf = none) (hcmd : cmd ∈ host ∨ (svc = true ∧ (cmd = .install ∨ cmd = .status))) :
    start E fs target svc cmd o = start E fs' target svc cmd o := by
  have key : ∀ {g g' : Str → FileState} {ovs base}, Base E g svc cmd o.conf ovs base → Base E g' svc cmd o.conf ovs base := by
    intro g g' ovs base hb
    cases hb with
    | explicit e h => rw [hc] at e; cases e
    | found _ h => exfalso; revert hcmd h; cases svc <;> cases cmd <;> decide
    | host e h1 h2 => exact .host e h1 h2
    | noFile _ h => exfalso; revert hcmd h; cases svc <;> cases cmd <;> decide
    | useless _ h => exfalso; revert hcmd h; cases svc <;> cases cmd <;> decide
  apply Option.ext
  intro c
  rw [C77_config, C77_config]
  constructor
  · rintro ⟨ovs, base, h1, h2, h3⟩; exact ⟨ovs, base, h1, key h2, h3⟩
  · rintro ⟨ovs, base, h1, h2, h3⟩; exact ⟨ovs, base, h1, key h2, h3⟩

/-! ## Trust anchors -/

/-- The store used to verify bundles is loaded from exactly the keyring file (the one given on the command line, else the configured one) and
the configured keyring directory, and checks what is configured: revocation for the whole chain, complete chains, purpose. -/
theorem C77_store {E : Option Str → Env} {fs : Str → FileState} {target : Cfg → Bool} {svc : Bool} {cmd : Cmd} {o : Opts} {c : Cfg} {S : Ssl}
    (h : start E fs target svc cmd o = some c) {st : Store} (hs : bundleStore S c.keyring = some st) :
    ∃ ovs base, Base E fs svc cmd o.conf ovs base ∧
      st.file = o.keyring.or base.keyring.path ∧ st.directory = base.keyring.directory ∧
      S.loads st.file st.directory = true ∧
      (st.crlCheckAll = true ↔ base.keyring.checkCrl = true) ∧ (st.partialChain = true ↔ base.keyring.partialChain = true) ∧
      st.purpose = base.keyring.purpose ∧ ∀ p, st.purpose = some p → S.knows p = true := by
  obtain ⟨ovs, base, _, hb, hr, _⟩ := C77_config.1 h
  refine ⟨ovs, base, hb, ?_⟩
  have hd : c.keyring = { base.keyring with path := o.keyring.or base.keyring.path } := by
    have := congrArg Cfg.keyring hr.rest
    rw [hr.keyringPath] at this
    exact this
  rw [hd] at hs
  unfold bundleStore setupStore argOr at hs
  dsimp only at hs
  split at hs
  · cases hs
  · rename_i hl
    have hl' : S.loads (o.keyring.or base.keyring.path) base.keyring.directory = true := by simpa using hl
    cases hp : base.keyring.purpose with
    | none =>
      simp only [hp, Option.some.injEq] at hs
      subst hs
      exact ⟨rfl, rfl, hl', Iff.rfl, Iff.rfl, rfl, by simp⟩
    | some q =>
      simp only [hp] at hs
      split at hs
      · cases hs
      · rename_i hk
        simp only [Option.some.injEq] at hs
        subst hs
        refine ⟨rfl, rfl, hl', Iff.rfl, Iff.rfl, rfl, ?_⟩
        rintro p ⟨⟩
        simpa using hk

/-- A purpose that OpenSSL does not know, or a keyring that cannot be loaded, is an error: the check is not skipped. -/
theorem C77_store_fails (S : Ssl) (k : Keyring) (a b : Option Str) :
    setupStore S k a b = none ↔ S.loads (argOr k.path a) (argOr k.directory b) = false ∨ ∃ p, k.purpose = some p ∧ S.knows p = false := by
  unfold setupStore
  cases hl : S.loads (argOr k.path a) (argOr k.directory b) with
  | false => simp
  | true =>
    simp only [Bool.not_true, Bool.false_eq_true, if_false, Bool.true_eq_false, false_or]
    cases k.purpose with
    | none => simp
    | some p => cases hk : S.knows p <;> simp [hk]

/-- `--signing-keyring FILE`: a new signature is verified against this file only, not against the configured keyring (file or directory). Without
it the configured keyring is used, and without any keyring there is no verification. -/
theorem C77_signing (S : Ssl) (k : Keyring) :
    (∀ p st, p ≠ [] → signStore S k (some p) = some (some st) → st.file = some p ∧ st.directory = none) ∧
    (∀ p, signStore S k (some p) ≠ none) ∧
    (signStore S k none = none ↔ k.path = none ∧ k.directory = none) ∧
    (∀ st, k.path ≠ some [] → k.directory ≠ some [] → signStore S k none = some (some st) → st.file = k.path ∧ st.directory = k.directory) := by
  have key : ∀ {a b st}, setupStore S k a b = some st → st.file = argOr k.path a ∧ st.directory = argOr k.directory b := by
    intro a b st h
    unfold setupStore at h
    split at h
    · cases h
    · cases hp : k.purpose with
      | none => simp only [hp, Option.some.injEq] at h; subst h; exact ⟨rfl, rfl⟩
      | some q =>
        simp only [hp] at h
        split at h
        · cases h
        · simp only [Option.some.injEq] at h; subst h; exact ⟨rfl, rfl⟩
  refine ⟨?_, ?_, ?_, ?_⟩
  · intro p st hp h
    simp only [signStore, Option.isSome_some, Bool.or_self, if_true, Option.some.injEq] at h
    obtain ⟨h1, h2⟩ := key h
    exact ⟨by rw [h1]; simp [argOr, hp], by rw [h2]; simp [argOr]⟩
  · intro p
    simp [signStore]
  · simp only [signStore]
    cases k.path <;> cases k.directory <;> simp
  · intro st hp hd h
    simp only [signStore] at h
    split at h
    · simp only [Option.some.injEq] at h
      obtain ⟨h1, h2⟩ := key h
      have harg : ∀ x : Option Str, x ≠ some [] → argOr x x = x := by
        intro x hx
        cases x with
        | none => rfl
        | some a => simp only [argOr]; rw [if_neg]; rintro rfl; exact hx rfl
      exact ⟨by rw [h1, harg _ hp], by rw [h2, harg _ hd]⟩
    · cases h

/-- no setting on the command line mentions a keyring -/
def NoKeyring (ovs : List (Str × Str × Str)) : Prop := ∀ k v, (c!"keyring", k, v) ∈ ovs → k ≠ c!"path" ∧ k ≠ c!"directory"

theorem override_get {ovs : List (Str × Str × Str)} {g k : Str} (h : ∀ v, (g, k, v) ∉ ovs) :
    ∀ kf : KeyFile, (ConfigFile.override kf ovs).get g k = kf.get g k := by
  induction ovs with
  | nil => intro kf; rfl
  | cons o l ih =>
    intro kf
    show (ConfigFile.override (kf.set o.1 o.2.1 o.2.2) l).get g k = _
    rw [ih (fun v hv => h v (List.mem_cons_of_mem _ hv)), KeyFile.get_set, if_neg]
    rintro ⟨rfl, rfl⟩
    exact h o.2.2 (List.mem_cons_self ..)

theorem groupsNodup_default : KeyFile.GroupsNodup [(c!"system", [])] := by
  unfold KeyFile.GroupsNodup
  decide

/-- the defaults have no keyring -/
theorem default_keyring {E : Env} (hE : ConfigFile.JoinOk E) {ovs : List (Str × Str × Str)} {c : Cfg} (hn : NoKeyring ovs)
    (h : defaultConfig E ovs = some c) : c.keyring.path = none ∧ c.keyring.directory = none := by
  have hp := (ConfigFile.parseConfig_iff hE (ConfigFile.groupsNodup_override groupsNodup_default ovs)).1 h
  rcases hp.keyring with ⟨_, e⟩ | ⟨kvs, hg, hs⟩
  · rw [e]; exact ⟨rfl, rfl⟩
  · have hget : ∀ k, (∀ v, (c!"keyring", k, v) ∉ ovs) → KeyFile.gget kvs k = none := by
      intro k hk
      have := override_get hk [(c!"system", [])]
      unfold KeyFile.get at this
      rw [hg] at this
      exact this
    have hno : ∀ k r, (∀ v, (c!"keyring", k, v) ∉ ovs) → ConfigFile.PathText E kvs k r → r = none := by
      intro k r hk hpt
      obtain ⟨o, h1, h2⟩ := hpt
      cases o with
      | none => exact h2
      | some v =>
        obtain ⟨raw, h1, _⟩ := h1
        rw [hget k hk] at h1
        cases h1
    exact ⟨hno _ _ (fun v hv => (hn _ _ hv).1 rfl) hs.path, hno _ _ (fun v hv => (hn _ _ hv).2 rfl) hs.directory⟩

/-- With neither a configuration file in effect nor a keyring on the command line, verification of a bundle fails: it is not skipped.
(`bc` is the configuration as the check of a bundle sees it.) -/
theorem C77_no_keyring {E : Option Str → Env} (hE : ∀ f, ConfigFile.JoinOk (E f)) {fs : Str → FileState} {target : Cfg → Bool} {svc : Bool}
    {cmd : Cmd} {o : Opts} {c : Cfg} (h : start E fs target svc cmd o = some c) (hc : o.conf = none) (hk : o.keyring = none)
    (hs : ∀ t k x, some t ∈ o.confopts → Setting t c!"keyring" k x → k ≠ c!"path" ∧ k ≠ c!"directory")
    (hf : cmd ∈ host ∨ ∀ p ∈ places, fs p = .missing ∨ fs p = .empty ∨ fs p = .unreadable)
    (K : Bundle.Crypto) (bc : Bundle.Config) (hbc : bc.keyring = (c.keyring.path.isSome || c.keyring.directory.isSome))
    (ld : Bytes → Option Manifest) (p : Bundle.Params) (hv : p.noVerify = false) (acc : Bundle.AccessResults) (src : Bundle.Source) :
    Bundle.checkBundle K bc ld p acc src = none := by
  obtain ⟨ovs, base, hset, hb, hr, _⟩ := C77_config.1 h
  have hno : NoKeyring ovs := by
    intro k v hm
    have : ∀ {opts : List (Option Str)} {l : List (Str × Str × Str)}, Settings opts l → (c!"keyring", k, v) ∈ l →
        ∃ t, some t ∈ opts ∧ Setting t c!"keyring" k v := by
      intro opts l hl
      unfold Settings at hl
      induction hl with
      | nil => intro h; cases h
      | cons h1 _ ih =>
        intro hm
        rcases List.mem_cons.1 hm with rfl | hm
        · obtain ⟨t, e, ht⟩ := h1
          exact ⟨t, by rw [e]; simp, ht⟩
        · obtain ⟨t, h1, h2⟩ := ih hm
          exact ⟨t, List.mem_cons_of_mem _ h1, h2⟩
    obtain ⟨t, h1, h2⟩ := this hset hm
    exact hs t k v h1 h2
  have hdef : defaultConfig (E none) ovs = some base := by
    cases hb with
    | explicit e => rw [hc] at e; cases e
    | @found p _ _ hcm hfe hsays =>
      exfalso
      rcases hf with hf | hf
      · revert hcm hf; cases svc <;> cases cmd <;> decide
      · obtain ⟨a, b, e, _, hne⟩ := hfe
        obtain ⟨kf, h1, _⟩ := hsays
        rcases hf p (by rw [e]; simp) with h2 | h2 | h2 <;> rw [h1] at h2 <;> cases h2
    | host _ _ h => exact h
    | noFile _ _ _ h => exact h
    | useless _ _ _ _ h => exact h
  obtain ⟨h1, h2⟩ := default_keyring (hE none) hno hdef
  have hkr : bc.keyring = false := by
    have hd := congrArg (fun c : Cfg => c.keyring.directory) hr.rest
    simp only at hd
    rw [hbc, hr.keyringPath, hk, hd, h1, h2]
    rfl
  unfold Bundle.checkBundle
  rw [hv, hkr]
  rfl

/-- Finding: `--keyring FILE` does not replace the trust anchors of the configuration: a configured keyring directory stays trusted. -/
theorem C77_finding_directory_stays {E : Option Str → Env} {fs : Str → FileState} {target : Cfg → Bool} {svc : Bool} {cmd : Cmd} {o : Opts} {c : Cfg} {S : Ssl}
    (h : start E fs target svc cmd o = some c) {st : Store} (hs : bundleStore S c.keyring = some st) {f : Str} (hf : o.keyring = some f) :
    ∃ ovs base, Base E fs svc cmd o.conf ovs base ∧ st.file = some f ∧ st.directory = base.keyring.directory := by
  obtain ⟨ovs, base, hb, h1, h2, _⟩ := C77_store h hs
  exact ⟨ovs, base, hb, by rw [h1, hf]; rfl, h2⟩

/-- Finding: for `info` and `extract`, an empty or unreadable file hides all later ones: the command works with the defaults (plus the command
line), whatever the other files say; restrictions like `check-purpose` or `check-crl` are silently gone. -/
theorem C77_finding_empty_hides {E : Option Str → Env} {fs : Str → FileState} {target : Cfg → Bool} {svc : Bool} {cmd : Cmd} {o : Opts} {c : Cfg}
    (h : start E fs target svc cmd o = some c) (hc : o.conf = none) (he : cmd ∈ either) {p : Str} (hp : FirstExisting fs p)
    (hu : fs p = .empty ∨ fs p = .unreadable) : ∃ ovs base, Settings o.confopts ovs ∧ defaultConfig (E none) ovs = some base ∧ Replaced cmd o base c := by
  obtain ⟨ovs, base, hset, hb, hr, _⟩ := C77_config.1 h
  refine ⟨ovs, base, hset, ?_, hr⟩
  cases hb with
  | explicit e => rw [hc] at e; cases e
  | found _ _ hf hs =>
    obtain ⟨kf, h1, _⟩ := hs
    rw [← first_unique hp hf] at h1
    rw [h1] at hu; simp at hu
  | host _ _ h => exact h
  | noFile _ _ _ h => exact h
  | useless _ _ _ _ h => exact h

/-! ## Code signing -/

/-- the certificate has the extension, and what it allows -/
def Cert.KeyUsage (x : Cert) : Prop := x.flags.getLsbD 1 = true
def Cert.ExtKeyUsage (x : Cert) : Prop := x.flags.getLsbD 2 = true
def Cert.DigitalSignature (x : Cert) : Prop := x.kusage.getLsbD 7 = true
def Cert.CodeSigning (x : Cert) : Prop := x.xkusage.getLsbD 3 = true

theorem mask_iff (b : BitVec 32) (i : Nat) (hi : i < 32) : b &&& BitVec.twoPow 32 i ≠ 0 ↔ b.getLsbD i = true := by
  rw [BitVec.and_twoPow]
  by_cases h : b.getLsbD i = true
  · rw [if_pos h]
    simp only [h, iff_true]
    intro e
    have := congrArg (fun v => BitVec.getLsbD v i) e
    simp [hi] at this
  · rw [if_neg h]
    simp [h]

theorem C77_mask4 (b : BitVec 32) : b &&& 0x4#32 ≠ 0 ↔ b.getLsbD 2 = true := mask_iff b 2 (by decide)
theorem C77_mask2 (b : BitVec 32) : b &&& 0x2#32 ≠ 0 ↔ b.getLsbD 1 = true := mask_iff b 1 (by decide)
theorem C77_mask8 (b : BitVec 32) : b &&& 0x8#32 ≠ 0 ↔ b.getLsbD 3 = true := mask_iff b 3 (by decide)
theorem C77_mask80 (b : BitVec 32) : b &&& 0x80#32 ≠ 0 ↔ b.getLsbD 7 = true := mask_iff b 7 (by decide)

/-- `check-purpose=codesign`: a signer certificate is accepted exactly if it has the extended key usage `codeSigning` and, if it restricts its key
usage, that allows digital signatures; a CA certificate exactly if OpenSSL accepts it as a CA and, if it has extended key usages, `codeSigning` is
among them. -/
theorem C77_codesign (x : Cert) :
    (checkPurpose x false ≠ 0 ↔ x.ExtKeyUsage ∧ x.CodeSigning ∧ (x.KeyUsage → x.DigitalSignature)) ∧
    (checkPurpose x true ≠ 0 ↔ x.isCa ≠ 0 ∧ (x.ExtKeyUsage → x.CodeSigning)) ∧
    (checkPurpose x false ≤ 1) := by
  unfold checkPurpose Cert.ExtKeyUsage Cert.CodeSigning Cert.KeyUsage Cert.DigitalSignature
  simp only [C77_mask4, C77_mask2, C77_mask8, C77_mask80]
  cases x.flags.getLsbD 2 <;> cases x.flags.getLsbD 1 <;> cases x.kusage.getLsbD 7 <;> cases x.xkusage.getLsbD 3 <;> simp

/-- the purpose in the configuration file is never OpenSSL's own `codesign` (which is stricter in one respect and laxer in another) -/
theorem C77_purpose_name {E : Option Str → Env} {fs : Str → FileState} {target : Cfg → Bool} {svc : Bool} {cmd : Cmd} {o : Opts} {c : Cfg}
    (h : start E fs target svc cmd o = some c) : c.keyring.purpose ≠ some c!"codesign" := by
  obtain ⟨ovs, base, _, hb, hr, _⟩ := C77_config.1 h
  have he : c.keyring.purpose = base.keyring.purpose := by
    have := congrArg (fun c : Cfg => c.keyring.purpose) hr.rest
    exact this
  rw [he]
  have hparse : ∀ {E' : Env} {kf : KeyFile}, ConfigFile.parseConfig E' kf = some base → base.keyring.purpose ≠ some c!"codesign" := by
    intro E' kf hp
    unfold ConfigFile.parseConfig at hp
    obtain ⟨_, _, hp⟩ := ConfigFile.bindInv hp
    obtain ⟨_, _, hp⟩ := ConfigFile.bindInv hp
    obtain ⟨k, hk, hp⟩ := ConfigFile.bindInv hp
    have hb : base.keyring = k := by
      obtain ⟨_, _, hp⟩ := ConfigFile.bindInv hp
      obtain ⟨_, _, hp⟩ := ConfigFile.bindInv hp
      obtain ⟨_, _, hp⟩ := ConfigFile.bindInv hp
      obtain ⟨_, _, hp⟩ := ConfigFile.bindInv hp
      obtain ⟨_, _, hp⟩ := ConfigFile.bindInv hp
      obtain ⟨_, _, hp⟩ := ConfigFile.bindInv hp
      obtain ⟨_, _, hp⟩ := ConfigFile.bindInv hp
      obtain ⟨_, _, hp⟩ := ConfigFile.bindInv hp
      obtain ⟨_, _, hp⟩ := ConfigFile.bindInv hp
      obtain ⟨_, _, hp⟩ := ConfigFile.bindInv hp
      obtain ⟨_, _, hp⟩ := ConfigFile.bindInv hp
      obtain ⟨_, _, hp⟩ := ConfigFile.bindInv hp
      cases hp
      rfl
    rw [hb]
    unfold ConfigFile.section' at hk
    split at hk
    · cases hk; simp
    · obtain ⟨o, _, e⟩ := (ConfigFile.parseKeyring_iff.1 hk).purpose
      rw [e]
      split
      · decide
      · assumption
  have hload : ∀ {E' : Env} {kf : KeyFile}, loadConfig E' ovs kf = some base → base.keyring.purpose ≠ some c!"codesign" := by
    intro E' kf hl
    unfold loadConfig at hl
    obtain ⟨b', hp, hl⟩ := ConfigFile.bindInv hl
    obtain ⟨_, _, hl⟩ := ConfigFile.bindInv hl
    obtain ⟨_, _, hl⟩ := ConfigFile.bindInv hl
    obtain ⟨_, _, hl⟩ := ConfigFile.bindInv hl
    cases hl
    exact hparse hp
  cases hb with
  | explicit _ h => obtain ⟨_, _, h⟩ := h; exact hload h
  | found _ _ _ h => obtain ⟨_, _, h⟩ := h; exact hload h
  | host _ _ h => exact hparse h
  | noFile _ _ _ h => exact hparse h
  | useless _ _ _ _ h => exact hparse h

/-! ## Examples -/

/-- a configuration in /run with a keyring file and directory -/
def exFs : Str → FileState := fun p =>
  if p = c!"/run/rauc/system.conf" then .data (some [(c!"system", [(c!"compatible", c!"x"), (c!"bootloader", c!"noop")]),
    (c!"keyring", [(c!"path", c!"/k.pem"), (c!"directory", c!"/certs"), (c!"check-purpose", c!"codesign")])])
  else if p = c!"/usr/lib/rauc/system.conf" then .data none
  else .missing

set_option maxRecDepth 20000 in
/-- `rauc info --keyring /own.pem -C keyring:check-crl=true`: the settings in effect; the directory of the system stays trusted -/
example : ((start (fun _ => {}) exFs (fun _ => true) true .info
    { keyring := some c!"/own.pem", key := some c!"/enc.pem", confopts := [some c!"keyring:check-crl=true"] }).map fun c =>
      (c.keyring.checkCrl, [c.keyring.path, c.keyring.directory, c.keyring.purpose, c.encryption.key])) =
    some (true, [some c!"/own.pem", some c!"/certs", some c!"codesign-rauc", some c!"/enc.pem"]) := by decide +kernel

set_option maxRecDepth 20000 in
/-- an invalid file stops the service although a valid one follows -/
example : (start (fun _ => {}) (fun p => if p = c!"/etc/rauc/system.conf" then .data none else exFs p) (fun _ => true) true .service {}).isNone = true := by
  decide +kernel

set_option maxRecDepth 20000 in
/-- finding: an empty file in /etc hides the file in /run: `info` works with the defaults, without the purpose check of the system -/
example : ((start (fun _ => {}) (fun p => if p = c!"/etc/rauc/system.conf" then .empty else exFs p) (fun _ => true) true .info
    { keyring := some c!"/own.pem" }).map fun c => [c.keyring.path, c.keyring.directory, c.keyring.purpose]) =
    some [some c!"/own.pem", none, none] := by decide +kernel

set_option maxRecDepth 20000 in
/-- no file anywhere: `info` runs, but has no keyring (`C77_no_keyring`) -/
example : ((start (fun _ => {}) (fun _ => .missing) (fun _ => true) true .info {}).map fun c => [c.keyring.path, c.keyring.directory]) =
    some [none, none] := by decide +kernel

/-- `a:b=c:d=e` -/
example : Setting c!"a:b=c:d=e" c!"a" c!"b" c!"c:d=e" := ⟨rfl, by decide, by decide, by decide⟩

example : collect (some c!"a=b:c") = none := by decide

example : checkPurpose ⟨0x6#32, 0x80#32, 0x8#32, 0⟩ false = 1 ∧ checkPurpose ⟨0x4#32, 0, 0x4#32, 1⟩ true = 0 := by decide

end Rauc.Context
