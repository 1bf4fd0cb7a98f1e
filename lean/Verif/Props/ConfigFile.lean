import Verif.Model.ConfigFile
import Verif.Props.Config

/-!
# C59: the system configuration means what it says
-/

namespace Rauc.ConfigFile

open ManifestFile

/-! ## Specification

How an option of a section is read. `kvs` are the lines `key=value` of the section.
-/

/-- the option is not in the section -/
def Absent (kvs : Kvs) (k : Str) : Prop := KeyFile.gget kvs k = none

/-- the option has this (non-empty) text -/
def Text (kvs : Kvs) (k v : Str) : Prop := ∃ raw, KeyFile.gget kvs k = some raw ∧ unescape raw = some v ∧ v ≠ []

/-- the option is present without a value (`key=`) -/
def Empty (kvs : Kvs) (k : Str) : Prop := ∃ raw, KeyFile.gget kvs k = some raw ∧ unescape raw = some []

/-- an optional text: an empty value is not accepted -/
def OptText (kvs : Kvs) (k : Str) : Option Str → Prop
  | none => Absent kvs k
  | some v => Text kvs k v

/-- an optional text where an empty value counts as missing -/
def LaxText (kvs : Kvs) (k : Str) : Option Str → Prop
  | none => Absent kvs k ∨ Empty kvs k
  | some v => Text kvs k v

/-- a flag: `true`/`1` or `false`/`0`, with a default; nothing else is accepted -/
def Flag (kvs : Kvs) (k : Str) (dflt b : Bool) : Prop :=
  (Absent kvs k ∧ b = dflt) ∨
  ∃ raw, KeyFile.gget kvs k = some raw ∧
    ((b = true ∧ (chomp raw = c!"true" ∨ chomp raw = c!"1")) ∨ (b = false ∧ (chomp raw = c!"false" ∨ chomp raw = c!"0")))

/-- the section has no other options -/
def OnlyKeys (kvs : Kvs) (documented : List Str) : Prop := ∀ k raw, (k, raw) ∈ kvs → k ∈ documented

/-- the values of these options have no invalid escape sequences -/
def Decodable' (kvs : Kvs) (ks : List Str) : Prop := ∀ k raw, (k, raw) ∈ kvs → k ∈ ks → ∃ v, unescape raw = some v

/-- an optional number of type `int`, as GLib reads it -/
def IntOpt (kvs : Kvs) (k : Str) (dflt n : Int) : Prop :=
  (Absent kvs k ∧ n = dflt) ∨ ∃ raw, KeyFile.gget kvs k = some raw ∧ kfInt raw = some n

/-- an optional unsigned 64 bit number, as GLib reads it -/
def UintOpt (kvs : Kvs) (k : Str) (dflt n : Nat) : Prop :=
  (Absent kvs k ∧ n = dflt) ∨ ∃ raw, KeyFile.gget kvs k = some raw ∧ kfUint raw = some n

/-- an optional list of texts, as GLib reads it -/
def ListOpt (kvs : Kvs) (k : Str) : Option (List Str) → Prop
  | none => Absent kvs k
  | some l => ∃ raw, KeyFile.gget kvs k = some raw ∧ parseList [] raw = some l

/-- the same where an empty list counts as missing -/
def ListLax (kvs : Kvs) (k : Str) : Option (List Str) → Prop
  | none => Absent kvs k ∨ ∃ raw, KeyFile.gget kvs k = some raw ∧ parseList [] raw = some []
  | some l => l ≠ [] ∧ ∃ raw, KeyFile.gget kvs k = some raw ∧ parseList [] raw = some l

/-! ### The [system] section, docs/reference.rst -/

/-- options that are valid for every boot loader -/
def systemKeys : List Str :=
  [c!"compatible", c!"min-bundle-version", c!"bootloader", c!"bundle-formats", c!"mountprefix", c!"boot-attempts",
   c!"boot-attempts-primary", c!"activate-installed", c!"statusfile", c!"data-directory", c!"max-bundle-download-size",
   c!"max-bundle-signature-size", c!"variant-name", c!"variant-file", c!"variant-dtb", c!"perform-pre-check", c!"prevent-late-fallback"]

/-- options that are only valid for one boot loader -/
def bootloaderKeys (b : Option Str) : List Str :=
  if b = some c!"grub" then [c!"grubenv"]
  else if b = some c!"barebox" then [c!"barebox-statename", c!"barebox-dtbpath"]
  else if b = some c!"efi" then [c!"efi-use-bootnext"]
  else []

/-- at most one source of the variant name -/
inductive VariantSpec (kvs : Kvs) : Variant → Prop where
  | none : Flag kvs c!"variant-dtb" false false → Absent kvs c!"variant-file" → Absent kvs c!"variant-name" → VariantSpec kvs .none
  | dtb : Flag kvs c!"variant-dtb" false true → Absent kvs c!"variant-file" → Absent kvs c!"variant-name" → VariantSpec kvs .dtb
  | file {f} : Flag kvs c!"variant-dtb" false false → Text kvs c!"variant-file" f → Absent kvs c!"variant-name" → VariantSpec kvs (.file f)
  | name {n} : Flag kvs c!"variant-dtb" false false → Absent kvs c!"variant-file" → Text kvs c!"variant-name" n → VariantSpec kvs (.name n)

/-- the four documented combinations of data-directory and statusfile: the data directory and the status file (`per-slot` without a file) -/
inductive StatusSpec (E : Env) (kvs : Kvs) : Option Str → Str → Prop where
  | perSlot : Absent kvs c!"data-directory" → Absent kvs c!"statusfile" ∨ Text kvs c!"statusfile" c!"per-slot" →
      StatusSpec E kvs none c!"per-slot"
  | central {f} : Absent kvs c!"data-directory" → Text kvs c!"statusfile" f → f ≠ c!"per-slot" → StatusSpec E kvs none (E.resolve f)
  | both {d f} : Text kvs c!"data-directory" d → Text kvs c!"statusfile" f → f ≠ c!"per-slot" →
      StatusSpec E kvs (some (E.resolve d)) (E.resolve f)
  | dir {d} : Text kvs c!"data-directory" d → Absent kvs c!"statusfile" →
      StatusSpec E kvs (some (E.resolve d)) (E.resolve (E.join (E.resolve d) c!"central.raucs"))

/-- what the [system] section (and the custom backend in [handlers]) must look like, and the settings it stands for -/
structure SystemSpec (E : Env) (kvs handlers : Kvs) (s : System) : Prop where
  compatible : OptText kvs c!"compatible" s.compatible
  minVersion : OptText kvs c!"min-bundle-version" s.minVersion
  minVersionValid : ∀ v, s.minVersion = some v → Semver.lessEqual c!"0" v = some true
  bootloader : LaxText kvs c!"bootloader" s.bootloader
  statename : if s.bootloader = some c!"barebox" then LaxText kvs c!"barebox-statename" s.bbStatename else s.bbStatename = none
  dtbpath : if s.bootloader = some c!"barebox" then LaxText kvs c!"barebox-dtbpath" s.bbDtbpath else s.bbDtbpath = none
  grubenv : if s.bootloader = some c!"grub" then
      ∃ o, LaxText kvs c!"grubenv" o ∧ s.grubenv = some ((o.map E.resolve).getD c!"/boot/grub/grubenv") else s.grubenv = none
  bootnext : if s.bootloader = some c!"efi" then Flag kvs c!"efi-use-bootnext" true s.efiBootnext else s.efiBootnext = false
  custom : if s.bootloader = some c!"custom" then
      ∃ p, Text handlers c!"bootloader-custom-backend" p ∧ s.customBackend = some (E.resolve p) else s.customBackend = none
  attempts : IntOpt kvs c!"boot-attempts" 0 s.attempts ∧ 0 ≤ s.attempts
  attemptsPrimary : IntOpt kvs c!"boot-attempts-primary" 0 s.attemptsPrimary ∧ 0 ≤ s.attemptsPrimary
  maxDownload : UintOpt kvs c!"max-bundle-download-size" (8 * 1024 * 1024) s.maxDownload ∧ s.maxDownload ≠ 0
  maxSignature : UintOpt kvs c!"max-bundle-signature-size" (64 * 1024) s.maxSignature ∧ s.maxSignature ≠ 0
  mountPrefix : ∃ o, LaxText kvs c!"mountprefix" o ∧ s.mountPrefix = o.getD c!"/mnt/rauc/"
  activate : Flag kvs c!"activate-installed" true s.activateInstalled
  late : Flag kvs c!"prevent-late-fallback" false s.preventLateFallback
  variant : VariantSpec kvs s.variant
  status : StatusSpec E kvs s.dataDir s.statusFile
  formats : ∃ o, OptText kvs c!"bundle-formats" o ∧ formatsOf o = some s.formats
  preCheck : Flag kvs c!"perform-pre-check" false s.preCheck
  keys : OnlyKeys kvs (systemKeys ++ bootloaderKeys s.bootloader)
  decodable : Decodable' kvs [c!"bootloader", c!"mountprefix", c!"grubenv", c!"barebox-statename", c!"barebox-dtbpath"]

/-! ### The other sections -/

/-- path of a file, relative to the configuration file -/
def PathText (E : Env) (kvs : Kvs) (k : Str) (p : Option Str) : Prop := ∃ o, LaxText kvs k o ∧ p = o.map E.resolve

structure KeyringSpec (E : Env) (kvs : Kvs) (r : Keyring) : Prop where
  path : PathText E kvs c!"path" r.path
  directory : PathText E kvs c!"directory" r.directory
  checkCrl : Flag kvs c!"check-crl" false r.checkCrl
  partialChain : Flag kvs c!"allow-partial-chain" false r.partialChain
  signingTime : Flag kvs c!"use-bundle-signing-time" false r.signingTime
  purpose : ∃ o, OptText kvs c!"check-purpose" o ∧ r.purpose = if o = some c!"codesign" then some c!"codesign-rauc" else o
  signerCns : ListOpt kvs c!"allowed-signer-cns" r.signerCns
  keys : OnlyKeys kvs [c!"path", c!"directory", c!"use-bundle-signing-time", c!"allow-partial-chain", c!"allowed-signer-cns", c!"check-crl",
    c!"check-purpose"]
  decodable : Decodable' kvs [c!"path", c!"directory"]

structure CasyncSpec (kvs : Kvs) (r : Casync) : Prop where
  storePath : LaxText kvs c!"storepath" r.storePath
  tmpPath : LaxText kvs c!"tmppath" r.tmpPath
  installArgs : LaxText kvs c!"install-args" r.installArgs
  desync : Flag kvs c!"use-desync" false r.desync
  keys : OnlyKeys kvs [c!"install-args", c!"storepath", c!"tmppath", c!"use-desync"]
  decodable : Decodable' kvs [c!"storepath", c!"tmppath", c!"install-args"]

structure StreamingSpec (kvs : Kvs) (r : Streaming) : Prop where
  user : LaxText kvs c!"sandbox-user" r.user
  tlsCert : LaxText kvs c!"tls-cert" r.tlsCert
  tlsKey : LaxText kvs c!"tls-key" r.tlsKey
  tlsCa : LaxText kvs c!"tls-ca" r.tlsCa
  headers : ListOpt kvs c!"send-headers" r.headers
  headersKnown : ∀ l, r.headers = some l → ∀ h ∈ l, h ∈ [c!"boot-id", c!"machine-id", c!"system-version", c!"serial", c!"variant",
    c!"transaction-id", c!"uptime"]
  keys : OnlyKeys kvs [c!"sandbox-user", c!"tls-cert", c!"tls-key", c!"tls-ca", c!"send-headers"]
  decodable : Decodable' kvs [c!"sandbox-user", c!"tls-cert", c!"tls-key", c!"tls-ca"]

structure PollingSpec (E : Env) (kvs : Kvs) (r : Polling) : Prop where
  enabled : E.streaming = true
  url : Text kvs c!"url" r.url
  urlHttp : ∃ rest, r.url = c!"http" ++ rest
  inhibit : ListLax kvs c!"inhibit-files" r.inhibit
  candidate : ∃ o, ListLax kvs c!"candidate-criteria" o ∧ (∀ l, o = some l → ∀ x ∈ l, x ∈ [c!"higher-semver", c!"different-version"]) ∧
    r.candidate = o.getD [c!"higher-semver"]
  install : ListLax kvs c!"install-criteria" r.install
  installKnown : ∀ l, r.install = some l → ∀ x ∈ l, x ∈ [c!"always", c!"higher-semver", c!"different-version"]
  reboot : ListLax kvs c!"reboot-criteria" r.reboot
  rebootKnown : ∀ l, r.reboot = some l → ∀ x ∈ l, x ∈ [c!"updated-slots", c!"updated-artifacts", c!"failed-update"]
  /-- seconds; the conversion to milliseconds is `wrap32`, see C38 for its overflow -/
  interval : ∃ i m, IntOpt kvs c!"interval-sec" 86400 i ∧ IntOpt kvs c!"max-interval-sec" (Daemon.wrap32 (i * 4)) m ∧ 60 ≤ i ∧ i < m ∧
    r.intervalMs = Daemon.wrap32 (i * 1000) ∧ r.maxMs = Daemon.wrap32 (m * 1000)
  rebootCmd : ∃ o, OptText kvs c!"reboot-cmd" o ∧ r.rebootCmd = o.getD c!"reboot"
  keys : OnlyKeys kvs [c!"url", c!"inhibit-files", c!"candidate-criteria", c!"install-criteria", c!"reboot-criteria", c!"interval-sec",
    c!"max-interval-sec", c!"reboot-cmd"]
  decodable : Decodable' kvs [c!"url"]

structure EncryptionSpec (E : Env) (kvs : Kvs) (r : Encryption) : Prop where
  key : PathText E kvs c!"key" r.key
  cert : PathText E kvs c!"cert" r.cert
  keys : OnlyKeys kvs [c!"key", c!"cert"]
  decodable : Decodable' kvs [c!"key", c!"cert"]

structure AutoinstallSpec (E : Env) (kvs : Kvs) (r : Option Str) : Prop where
  path : PathText E kvs c!"path" r
  keys : OnlyKeys kvs [c!"path"]
  decodable : Decodable' kvs [c!"path"]

structure HandlersSpec (E : Env) (custom : Prop) (kvs : Kvs) (r : HandlerPaths) : Prop where
  systemInfo : PathText E kvs c!"system-info" r.systemInfo
  preInstall : PathText E kvs c!"pre-install" r.preInstall
  postInstall : PathText E kvs c!"post-install" r.postInstall
  keys : OnlyKeys kvs [c!"system-info", c!"pre-install", c!"post-install", c!"bootloader-custom-backend"]
  customOnly : ¬ custom → Absent kvs c!"bootloader-custom-backend"
  decodable : Decodable' kvs [c!"system-info", c!"pre-install", c!"post-install"]

/-- the formats of log files and their names -/
inductive LogFormatSpec (E : Env) : Str → LogFormat → Prop where
  | readable : LogFormatSpec E c!"readable" .readable
  | short : LogFormatSpec E c!"short" .short
  | json : E.json = true → LogFormatSpec E c!"json" .json
  | jsonPretty : E.json = true → LogFormatSpec E c!"json-pretty" .jsonPretty

structure LoggerSpec (E : Env) (dataDir : Option Str) (name : Str) (kvs : Kvs) (r : Logger) : Prop where
  name : r.name = name
  filename : ∃ f, Text kvs c!"filename" f ∧
    ((f.head? = some '/' ∧ r.filename = f) ∨ (f.head? ≠ some '/' ∧ ∃ d, dataDir = some d ∧ r.filename = E.join d f))
  format : ∃ o, OptText kvs c!"format" o ∧ LogFormatSpec E (o.getD c!"readable") r.format
  events : ∃ o, ListOpt kvs c!"events" o ∧ r.events = o.getD [c!"all"]
  eventsKnown : ∀ e ∈ r.events, e ∈ [c!"all", c!"boot", c!"mark", c!"install", c!"service", c!"writeslot"]
  eventsAll : c!"all" ∈ r.events → r.events = [c!"all"]
  maxSize : ∃ o, OptText kvs c!"max-size" o ∧ (o = none → r.maxSize = 0) ∧ ∀ s, o = some s → Config.binarySuffixed s = some r.maxSize
  maxFiles : IntOpt kvs c!"max-files" 10 r.maxFiles ∧ 1 ≤ r.maxFiles ∧ r.maxFiles ≤ 1000
  keys : OnlyKeys kvs [c!"filename", c!"format", c!"events", c!"max-size", c!"max-files"]

structure RepoSpec (E : Env) (g : Str) (kvs : Kvs) (r : Repo) : Prop where
  name : split '.' g = [c!"artifacts", r.name]
  description : LaxText kvs c!"description" r.description
  path : ∃ p, Text kvs c!"path" p ∧ r.path = E.resolve p
  typ : Text kvs c!"type" r.typ
  typKnown : r.typ = c!"files" ∨ r.typ = c!"trees" ∨ (E.composefs = true ∧ r.typ = c!"composefs")
  noParent : LaxText kvs c!"parent-class" none
  keys : OnlyKeys kvs [c!"description", c!"path", c!"type", c!"parent-class"]
  decodable : Decodable' kvs [c!"description", c!"parent-class"]

/-! ### lemmas about the readers -/

theorem check_iff {b : Bool} {u : Unit} : check b = some u ↔ b = true := by
  unfold check
  cases b <;> simp

theorem optStr_iff {kvs : Kvs} {k : Str} {o : Option Str} : optStr kvs k = some o ↔ OptText kvs k o := by
  unfold optStr consume
  cases hg : KeyFile.gget kvs k with
  | none => cases o <;> simp [optGot, OptText, Absent, Text, hg]
  | some raw =>
    cases hu : unescape raw with
    | none => cases o <;> simp [optGot, OptText, Absent, Text, hg, hu]
    | some v =>
      cases v with
      | nil => cases o <;> simp [optGot, OptText, Absent, Text, hg, hu]
      | cons c cs =>
        cases o with
        | none => simp [optGot, OptText, Absent, hg, hu]
        | some w =>
          simp only [optGot, OptText, Text, hg, Option.some.injEq, exists_eq_left', hu]
          constructor
          · rintro rfl; exact ⟨rfl, by simp⟩
          · exact fun h => h.1

theorem str_iff {kvs : Kvs} {k : Str} {v : Str} : str kvs k = some v ↔ Text kvs k v := by
  unfold str consume
  cases hg : KeyFile.gget kvs k with
  | none => simp [Text, hg]
  | some raw =>
    cases hu : unescape raw with
    | none => simp [Text, hg, hu]
    | some w =>
      cases w with
      | nil => simp [Text, hg, hu]
      | cons c cs =>
        simp only [Text, hg, Option.some.injEq, exists_eq_left', hu]
        constructor
        · rintro rfl; exact ⟨rfl, by simp⟩
        · exact fun h => h.1

theorem optBool_iff {kvs : Kvs} {k : Str} {d b : Bool} : optBool kvs k d = some b ↔ Flag kvs k d b := by
  unfold optBool Flag Absent
  cases hg : KeyFile.gget kvs k with
  | none => simp [eq_comm]
  | some raw =>
    simp only [reduceCtorEq, false_and, Option.some.injEq, exists_eq_left', false_or, Config.kfBool]
    by_cases h1 : chomp raw = c!"true" ∨ chomp raw = c!"1"
    · have h2 : ¬ (chomp raw = c!"false" ∨ chomp raw = c!"0") := by
        rcases h1 with h1 | h1 <;> rw [h1] <;> decide
      rw [if_pos h1]
      cases b <;> simp [h1, h2]
    · rw [if_neg h1]
      by_cases h2 : chomp raw = c!"false" ∨ chomp raw = c!"0"
      · rw [if_pos h2]; cases b <;> simp [h1, h2]
      · rw [if_neg h2]; simp [h1, h2]

theorem noKeysLeft_iff {kvs : Kvs} {lax strict doc : List Str} (hd : ∀ k, k ∈ doc ↔ k ∈ lax ∨ k ∈ strict) (hdis : ∀ k ∈ lax, k ∉ strict) :
    noKeysLeft kvs lax strict = true ↔ OnlyKeys kvs doc ∧ Decodable' kvs lax := by
  unfold noKeysLeft OnlyKeys Decodable'
  simp only [List.all_eq_true, Bool.or_eq_true, List.contains_eq_mem, decide_eq_true_eq, Bool.and_eq_true, Option.isSome_iff_exists]
  constructor
  · intro h
    refine ⟨fun k raw hm => (hd k).2 ?_, fun k raw hm hk => ?_⟩
    · rcases h (k, raw) hm with h | h
      · exact Or.inr h
      · exact Or.inl h.1
    · rcases h (k, raw) hm with h | h
      · exact absurd h (hdis k hk)
      · exact h.2
  · rintro ⟨h1, h2⟩ ⟨k, raw⟩ hm
    rcases (hd k).1 (h1 k raw hm) with h | h
    · exact Or.inr ⟨h, h2 k raw hm h⟩
    · exact Or.inl h

theorem gget_mem {kvs : Kvs} {k raw : Str} (h : KeyFile.gget kvs k = some raw) : (k, raw) ∈ kvs := by
  unfold KeyFile.gget at h
  obtain ⟨p, hp, rfl⟩ := Option.map_eq_some_iff.1 h
  have := List.find?_some hp
  have hm := List.mem_of_find?_eq_some hp
  simp only [beq_iff_eq] at this
  rw [← this]
  exact hm

theorem str_lax {kvs : Kvs} {k : Str} {ks : List Str} (hd : Decodable' kvs ks) (hk : k ∈ ks) {o : Option Str} :
    str kvs k = o ↔ LaxText kvs k o := by
  cases o with
  | some v => exact str_iff
  | none =>
    unfold str consume LaxText Absent Empty
    cases hg : KeyFile.gget kvs k with
    | none => simp
    | some raw =>
      obtain ⟨v, hv⟩ := hd k raw (gget_mem hg) hk
      simp only [hv, reduceCtorEq, Option.some.injEq, exists_eq_left', false_or]
      cases v <;> simp

theorem optInt_iff {kvs : Kvs} {k : Str} {d n : Int} : (∃ o, optInt kvs k = some o ∧ o.getD d = n) ↔ IntOpt kvs k d n := by
  unfold optInt IntOpt Absent
  cases hg : KeyFile.gget kvs k with
  | none => simp [eq_comm]
  | some raw => cases hi : kfInt raw <;> simp [hi]

theorem optUint_iff {kvs : Kvs} {k : Str} {d n : Nat} : optUint kvs k d = some n ↔ UintOpt kvs k d n := by
  unfold optUint UintOpt Absent
  cases hg : KeyFile.gget kvs k <;> simp [eq_comm]

theorem optList_iff {kvs : Kvs} {k : Str} {o : Option (List Str)} : optList kvs k = some o ↔ ListOpt kvs k o := by
  unfold optList ListOpt Absent
  cases hg : KeyFile.gget kvs k with
  | none => cases o <;> simp
  | some raw => cases o <;> cases hi : parseList [] raw <;> simp [hi]

theorem optListIn_iff {kvs : Kvs} {k : Str} {al : Option (List Str)} {o : Option (List Str)} :
    optListIn kvs k al = some o ↔ ListLax kvs k o ∧ ∀ l a, o = some l → al = some a → ∀ x ∈ l, x ∈ a := by
  unfold optListIn
  cases hl : optList kvs k with
  | none =>
    have : ∀ o', ¬ ListOpt kvs k o' := fun o' h => by rw [← optList_iff, hl] at h; cases h
    have h1 := this none
    constructor
    · intro h; cases h
    · rintro ⟨h, -⟩
      cases o with
      | none =>
        rcases h with h | ⟨raw, h⟩
        · exact absurd h h1
        · exact absurd (show ListOpt kvs k (some []) from ⟨raw, h⟩) (this _)
      | some l => exact absurd (show ListOpt kvs k (some l) from h.2) (this _)
  | some o' =>
    have h0 := optList_iff.1 hl
    have hu : ∀ o'', ListOpt kvs k o'' → o'' = o' := fun o'' h => by
      rw [← optList_iff, hl] at h; exact (Option.some.inj h).symm
    cases o' with
    | none =>
      simp only [Option.some.injEq]
      constructor
      · rintro rfl; exact ⟨Or.inl h0, by simp⟩
      · rintro ⟨h, -⟩
        cases o with
        | none => rfl
        | some l => exact absurd (hu (some l) h.2) (by simp)
    | some l' =>
      by_cases hn : l' = []
      · subst hn
        simp only [if_true, Option.some.injEq]
        constructor
        · rintro rfl; exact ⟨Or.inr h0, by simp⟩
        · rintro ⟨h, -⟩
          cases o with
          | none => rfl
          | some l =>
            have := hu (some l) h.2
            simp only [Option.some.injEq] at this
            exact absurd this h.1
      · simp only [hn, if_false]
        have key : ∀ o, ListLax kvs k o ↔ o = some l' := by
          intro o
          constructor
          · intro h
            cases o with
            | none =>
              rcases h with h | h
              · exact absurd (hu none h) (by simp)
              · have := hu (some []) h
                simp only [Option.some.injEq] at this
                exact absurd this.symm hn
            | some l => exact hu (some l) h.2
          · rintro rfl; exact ⟨hn, h0⟩
        rw [key]
        cases al with
        | none => simp [eq_comm]
        | some a =>
          simp only [List.all_eq_true, List.contains_eq_mem, decide_eq_true_eq]
          constructor
          · intro h
            rw [Option.ite_none_right_eq_some] at h
            obtain ⟨h1, h2⟩ := h
            refine ⟨(Option.some.inj h2).symm, ?_⟩
            rintro l a' rfl ha x hx
            cases ha
            rw [← Option.some.inj (Option.some.inj h2)] at hx
            exact h1 x hx
          · rintro ⟨rfl, h⟩
            rw [if_pos (h l' a rfl rfl)]

/-! ## [system] -/

theorem variant_iff {kvs : Kvs} {v : Variant} :
    (∃ dtb, Flag kvs c!"variant-dtb" false dtb ∧ ∃ f, OptText kvs c!"variant-file" f ∧ ∃ n, OptText kvs c!"variant-name" n ∧
      variantOf dtb f n = some v) ↔ VariantSpec kvs v := by
  constructor
  · rintro ⟨dtb, hd, f, hf, n, hn, h⟩
    cases dtb <;> cases f <;> cases n <;> simp only [variantOf, Option.some.injEq, reduceCtorEq] at h <;> subst h
    · exact .none hd hf hn
    · exact .name hd hf hn
    · exact .file hd hf hn
    · exact .dtb hd hf hn
  · rintro (⟨hd, hf, hn⟩ | ⟨hd, hf, hn⟩ | ⟨hd, hf, hn⟩ | ⟨hd, hf, hn⟩)
    · exact ⟨_, hd, none, hf, none, hn, rfl⟩
    · exact ⟨_, hd, none, hf, none, hn, rfl⟩
    · exact ⟨_, hd, some _, hf, none, hn, rfl⟩
    · exact ⟨_, hd, none, hf, some _, hn, rfl⟩

/-- joining a directory and a file name never gives the word `per-slot` -/
def JoinOk (E : Env) : Prop := ∀ d, E.join d c!"central.raucs" ≠ c!"per-slot"

theorem status_iff {E : Env} (hE : JoinOk E) {kvs : Kvs} {d : Option Str} {s : Str} :
    (∃ r, OptText kvs c!"data-directory" r ∧ r.map E.resolve = d ∧ ∃ f, OptText kvs c!"statusfile" f ∧ statusFileOf E d f = some s) ↔
      StatusSpec E kvs d s := by
  constructor
  · rintro ⟨r, hr, rfl, f, hf, h⟩
    cases r with
    | none =>
      cases f with
      | none =>
        simp only [statusFileOf, Option.map_none, if_true, Option.some.injEq] at h
        subst h
        exact .perSlot hr (Or.inl hf)
      | some f =>
        simp only [statusFileOf, Option.map_none] at h
        by_cases hp : f = c!"per-slot"
        · rw [if_pos hp] at h
          cases h
          subst hp
          exact .perSlot hr (Or.inr hf)
        · rw [if_neg hp] at h
          cases h
          exact .central hr hf hp
    | some r =>
      cases f with
      | none =>
        simp only [statusFileOf, Option.map_some] at h
        rw [if_neg (hE _)] at h
        cases h
        exact .dir hr hf
      | some f =>
        simp only [statusFileOf, Option.map_some] at h
        by_cases hp : f = c!"per-slot"
        · rw [if_pos hp] at h; cases h
        · rw [if_neg hp] at h
          cases h
          exact .both hr hf hp
  · rintro (⟨hd, hf | hf⟩ | ⟨hd, hf, hp⟩ | ⟨hd, hf, hp⟩ | ⟨hd, hf⟩)
    · exact ⟨none, hd, rfl, none, hf, by simp [statusFileOf]⟩
    · exact ⟨none, hd, rfl, some _, hf, by simp [statusFileOf]⟩
    · exact ⟨none, hd, rfl, some _, hf, by simp [statusFileOf, hp]⟩
    · exact ⟨some _, hd, rfl, some _, hf, by simp [statusFileOf, hp]⟩
    · exact ⟨some _, hd, rfl, none, hf, by simp [statusFileOf, hE _]⟩

theorem system_keys_iff {kvs : Kvs} {b : Option Str} :
    noKeysLeft kvs (systemStrKeys ++ bootStrKeys b) (systemRemKeys ++ bootRemKeys b) = true ↔
      OnlyKeys kvs (systemKeys ++ bootloaderKeys b) ∧
      Decodable' kvs [c!"bootloader", c!"mountprefix", c!"grubenv", c!"barebox-statename", c!"barebox-dtbpath"] := by
  have gen : ∀ (bs br bk : List Str), (∀ k, k ∈ systemKeys ++ bk ↔ k ∈ systemStrKeys ++ bs ∨ k ∈ systemRemKeys ++ br) →
      (∀ k ∈ systemStrKeys ++ bs, k ∉ systemRemKeys ++ br) →
      (∀ k ∈ systemKeys ++ bk, k ∈ systemStrKeys ++ bs ↔
        k ∈ [c!"bootloader", c!"mountprefix", c!"grubenv", c!"barebox-statename", c!"barebox-dtbpath"]) →
      (noKeysLeft kvs (systemStrKeys ++ bs) (systemRemKeys ++ br) = true ↔ OnlyKeys kvs (systemKeys ++ bk) ∧
        Decodable' kvs [c!"bootloader", c!"mountprefix", c!"grubenv", c!"barebox-statename", c!"barebox-dtbpath"]) := by
    intro bs br bk h1 h2 h3
    rw [noKeysLeft_iff h1 h2]
    constructor
    · rintro ⟨ho, hd⟩
      exact ⟨ho, fun k raw hm hk => hd k raw hm ((h3 k (ho k raw hm)).2 hk)⟩
    · rintro ⟨ho, hd⟩
      exact ⟨ho, fun k raw hm hk => hd k raw hm ((h3 k (ho k raw hm)).1 hk)⟩
  have mem : ∀ {l1 l2 l3 : List Str}, (l1 ++ l2).all (fun k => decide (k ∈ l3)) = true → l3.all (fun k => decide (k ∈ l1 ++ l2)) = true →
      ∀ k, k ∈ l3 ↔ k ∈ l1 ∨ k ∈ l2 := by
    intro l1 l2 l3 h1 h2 k
    simp only [List.all_eq_true, decide_eq_true_eq, List.mem_append] at h1 h2
    exact ⟨h2 k, h1 k⟩
  unfold bootStrKeys bootRemKeys bootloaderKeys
  by_cases h1 : b = some c!"barebox"
  · subst h1
    exact gen _ _ _ (mem (by decide) (by decide)) (by decide) (by decide)
  · by_cases h2 : b = some c!"grub"
    · subst h2
      exact gen _ _ _ (mem (by decide) (by decide)) (by decide) (by decide)
    · by_cases h3 : b = some c!"efi"
      · subst h3
        exact gen _ _ _ (mem (by decide) (by decide)) (by decide) (by decide)
      · simp only [h1, h2, h3, if_false]
        exact gen _ _ _ (mem (by decide) (by decide)) (by decide) (by decide)

theorem bootNext_iff {b : Option Str} {kvs : Kvs} {v : Bool} :
    bootNext b kvs = some v ↔ if b = some c!"efi" then Flag kvs c!"efi-use-bootnext" true v else v = false := by
  unfold bootNext
  by_cases h : b = some c!"efi"
  · rw [if_pos h, if_pos h]; exact optBool_iff
  · rw [if_neg h, if_neg h]; simp [eq_comm]

theorem custom_iff {E : Env} {b : Option Str} {kvs : Kvs} {v : Option Str} :
    customBackend E b kvs = some v ↔
      if b = some c!"custom" then ∃ p, Text kvs c!"bootloader-custom-backend" p ∧ v = some (E.resolve p) else v = none := by
  unfold customBackend
  by_cases h : b = some c!"custom"
  · rw [if_pos h, if_pos h]
    cases hs : str kvs c!"bootloader-custom-backend" with
    | none =>
      constructor
      · intro h; cases h
      · rintro ⟨p, hp, -⟩; rw [← str_iff, hs] at hp; cases hp
    | some p =>
      have hp := str_iff.1 hs
      constructor
      · intro h; exact ⟨p, hp, (Option.some.inj h).symm⟩
      · rintro ⟨q, hq, rfl⟩
        rw [← str_iff, hs] at hq
        cases hq
        rfl
  · rw [if_neg h, if_neg h]; simp [eq_comm]

theorem versionOk_iff {o : Option Str} : versionOk o = true ↔ ∀ v, o = some v → Semver.lessEqual c!"0" v = some true := by
  cases o with
  | none => simp [versionOk]
  | some v => simp [versionOk]

theorem bindInv {α β : Type} {o : Option α} {f : α → Option β} {c : β} (h : (o >>= f) = some c) : ∃ b, o = some b ∧ f b = some c :=
  Option.bind_eq_some_iff.1 h

theorem bindMk {α β : Type} {o : Option α} {f : α → Option β} {b : α} {c : β} (h1 : o = some b) (h2 : f b = some c) : (o >>= f) = some c :=
  Option.bind_eq_some_iff.2 ⟨b, h1, h2⟩

/-- The [system] section is accepted exactly if it has the documented form, and then gives the documented settings. -/
theorem parseSystem_iff {E : Env} (hE : JoinOk E) {kvs handlers : Kvs} {s : System} :
    parseSystem E kvs handlers = some s ↔ SystemSpec E kvs handlers s := by
  constructor
  · intro h
    unfold parseSystem at h
    obtain ⟨comp, h1, h⟩ := bindInv h
    obtain ⟨mv, h2, h⟩ := bindInv h
    obtain ⟨_, h3, h⟩ := bindInv h
    obtain ⟨bn, h4, h⟩ := bindInv h
    obtain ⟨cb, h5, h⟩ := bindInv h
    obtain ⟨at1, h6, h⟩ := bindInv h
    obtain ⟨_, h7, h⟩ := bindInv h
    obtain ⟨at2, h8, h⟩ := bindInv h
    obtain ⟨_, h9, h⟩ := bindInv h
    obtain ⟨dn, h10, h⟩ := bindInv h
    obtain ⟨_, h11, h⟩ := bindInv h
    obtain ⟨sg, h12, h⟩ := bindInv h
    obtain ⟨_, h13, h⟩ := bindInv h
    obtain ⟨ac, h14, h⟩ := bindInv h
    obtain ⟨dtb, h15, h⟩ := bindInv h
    obtain ⟨late, h16, h⟩ := bindInv h
    obtain ⟨vf, h17, h⟩ := bindInv h
    obtain ⟨vn, h18, h⟩ := bindInv h
    obtain ⟨va, h19, h⟩ := bindInv h
    obtain ⟨da, h20, h⟩ := bindInv h
    obtain ⟨st, h21, h⟩ := bindInv h
    obtain ⟨sf, h22, h⟩ := bindInv h
    obtain ⟨fo, h23, h⟩ := bindInv h
    obtain ⟨fm, h24, h⟩ := bindInv h
    obtain ⟨pc, h25, h⟩ := bindInv h
    obtain ⟨_, h26, h⟩ := bindInv h
    replace h26 := system_keys_iff.1 (check_iff.1 h26)
    cases h
    have hd := h26.2
    exact {
      compatible := optStr_iff.1 h1
      minVersion := optStr_iff.1 h2
      minVersionValid := versionOk_iff.1 (check_iff.1 h3)
      bootloader := (str_lax hd (by decide)).1 rfl
      statename := by
        dsimp only
        split
        · exact (str_lax hd (by decide)).1 rfl
        · rfl
      dtbpath := by
        dsimp only
        split
        · exact (str_lax hd (by decide)).1 rfl
        · rfl
      grubenv := by
        dsimp only
        split
        · exact ⟨_, (str_lax hd (by decide)).1 rfl, rfl⟩
        · rfl
      bootnext := bootNext_iff.1 h4
      custom := custom_iff.1 h5
      attempts := ⟨optInt_iff.1 ⟨_, h6, rfl⟩, of_decide_eq_true (check_iff.1 h7)⟩
      attemptsPrimary := ⟨optInt_iff.1 ⟨_, h8, rfl⟩, of_decide_eq_true (check_iff.1 h9)⟩
      maxDownload := ⟨optUint_iff.1 h10, of_decide_eq_true (check_iff.1 h11)⟩
      maxSignature := ⟨optUint_iff.1 h12, of_decide_eq_true (check_iff.1 h13)⟩
      mountPrefix := ⟨_, (str_lax hd (by decide)).1 rfl, rfl⟩
      activate := optBool_iff.1 h14
      late := optBool_iff.1 h16
      variant := variant_iff.1 ⟨_, optBool_iff.1 h15, _, optStr_iff.1 h17, _, optStr_iff.1 h18, h19⟩
      status := (status_iff hE).1 ⟨_, optStr_iff.1 h20, rfl, _, optStr_iff.1 h21, h22⟩
      formats := ⟨_, optStr_iff.1 h23, h24⟩
      preCheck := optBool_iff.1 h25
      keys := h26.1
      decodable := hd }
  · intro h
    have hd := h.decodable
    have hb := (str_lax hd (by decide)).2 h.bootloader
    obtain ⟨a1, ha1, ha1'⟩ := optInt_iff.2 h.attempts.1
    obtain ⟨a2, ha2, ha2'⟩ := optInt_iff.2 h.attemptsPrimary.1
    obtain ⟨dtb, hv1, f, hv2, n, hv3, hv4⟩ := variant_iff.2 h.variant
    obtain ⟨da, hs1, hs2, sf, hs3, hs4⟩ := (status_iff hE).2 h.status
    obtain ⟨fo, hf1, hf2⟩ := h.formats
    obtain ⟨mp, hm1, hm2⟩ := h.mountPrefix
    have hm1 := (str_lax hd (by decide)).2 hm1
    have hst : (if s.bootloader = some c!"barebox" then str kvs c!"barebox-statename" else none) = s.bbStatename := by
      have := h.statename
      by_cases e : s.bootloader = some c!"barebox"
      · rw [if_pos e] at this ⊢; exact (str_lax hd (by decide)).2 this
      · rw [if_neg e] at this ⊢; exact this.symm
    have hdt : (if s.bootloader = some c!"barebox" then str kvs c!"barebox-dtbpath" else none) = s.bbDtbpath := by
      have := h.dtbpath
      by_cases e : s.bootloader = some c!"barebox"
      · rw [if_pos e] at this ⊢; exact (str_lax hd (by decide)).2 this
      · rw [if_neg e] at this ⊢; exact this.symm
    have hgr : (if s.bootloader = some c!"grub" then some (((str kvs c!"grubenv").map E.resolve).getD c!"/boot/grub/grubenv") else none) =
        s.grubenv := by
      have := h.grubenv
      by_cases e : s.bootloader = some c!"grub"
      · rw [if_pos e] at this ⊢
        obtain ⟨o, ho, hg⟩ := this
        rw [hg, (str_lax hd (by decide)).2 ho]
      · rw [if_neg e] at this ⊢; exact this.symm
    unfold parseSystem
    refine bindMk (optStr_iff.2 h.compatible) ?_
    refine bindMk (optStr_iff.2 h.minVersion) ?_
    refine bindMk (b := ()) (check_iff.2 (versionOk_iff.2 h.minVersionValid)) ?_
    refine bindMk (b := s.efiBootnext) (bootNext_iff.2 (by rw [hb]; exact h.bootnext)) ?_
    refine bindMk (b := s.customBackend) (custom_iff.2 (by rw [hb]; exact h.custom)) ?_
    refine bindMk ha1 ?_
    refine bindMk (b := ()) (check_iff.2 (decide_eq_true (by rw [ha1']; exact h.attempts.2))) ?_
    refine bindMk ha2 ?_
    refine bindMk (b := ()) (check_iff.2 (decide_eq_true (by rw [ha2']; exact h.attemptsPrimary.2))) ?_
    refine bindMk (optUint_iff.2 h.maxDownload.1) ?_
    refine bindMk (b := ()) (check_iff.2 (decide_eq_true h.maxDownload.2)) ?_
    refine bindMk (optUint_iff.2 h.maxSignature.1) ?_
    refine bindMk (b := ()) (check_iff.2 (decide_eq_true h.maxSignature.2)) ?_
    refine bindMk (optBool_iff.2 h.activate) ?_
    refine bindMk (optBool_iff.2 hv1) ?_
    refine bindMk (optBool_iff.2 h.late) ?_
    refine bindMk (optStr_iff.2 hv2) ?_
    refine bindMk (optStr_iff.2 hv3) ?_
    refine bindMk hv4 ?_
    refine bindMk (optStr_iff.2 hs1) ?_
    refine bindMk (optStr_iff.2 hs3) ?_
    refine bindMk (b := s.statusFile) (by rw [hs2]; exact hs4) ?_
    refine bindMk (optStr_iff.2 hf1) ?_
    refine bindMk hf2 ?_
    refine bindMk (optBool_iff.2 h.preCheck) ?_
    refine bindMk (b := ()) (check_iff.2 (system_keys_iff.2 (by rw [hb]; exact ⟨h.keys, hd⟩))) ?_
    rw [hb, hst, hdt, hgr, ha1', ha2', hs2, hm1, ← hm2]

/-! ## The other sections -/

theorem all_mem {l1 l2 : List Str} {l3 : List Str} (h1 : (l1 ++ l2).all (fun k => decide (k ∈ l3)) = true)
    (h2 : l3.all (fun k => decide (k ∈ l1 ++ l2)) = true) : ∀ k, k ∈ l3 ↔ k ∈ l1 ∨ k ∈ l2 := by
  intro k
  simp only [List.all_eq_true, decide_eq_true_eq, List.mem_append] at h1 h2
  exact ⟨h2 k, h1 k⟩

theorem path_iff {E : Env} {kvs : Kvs} {k : Str} {ks : List Str} (hd : Decodable' kvs ks) (hk : k ∈ ks) {p : Option Str} :
    (str kvs k).map E.resolve = p ↔ PathText E kvs k p := by
  constructor
  · rintro rfl; exact ⟨_, (str_lax hd hk).1 rfl, rfl⟩
  · rintro ⟨o, ho, rfl⟩; rw [(str_lax hd hk).2 ho]

theorem parseKeyring_iff {E : Env} {kvs : Kvs} {r : Keyring} : parseKeyring E kvs = some r ↔ KeyringSpec E kvs r := by
  have hk := noKeysLeft_iff (kvs := kvs) (lax := [c!"path", c!"directory"])
    (strict := [c!"check-crl", c!"allow-partial-chain", c!"use-bundle-signing-time", c!"check-purpose", c!"allowed-signer-cns"])
    (doc := [c!"path", c!"directory", c!"use-bundle-signing-time", c!"allow-partial-chain", c!"allowed-signer-cns", c!"check-crl",
      c!"check-purpose"]) (all_mem (by decide) (by decide)) (by decide)
  constructor
  · intro h
    unfold parseKeyring at h
    obtain ⟨crl, h1, h⟩ := bindInv h
    obtain ⟨pc, h2, h⟩ := bindInv h
    obtain ⟨st, h3, h⟩ := bindInv h
    obtain ⟨pu, h4, h⟩ := bindInv h
    obtain ⟨cn, h5, h⟩ := bindInv h
    obtain ⟨_, h6, h⟩ := bindInv h
    obtain ⟨hk, hd⟩ := hk.1 (check_iff.1 h6)
    cases h
    exact ⟨(path_iff hd (by decide)).1 rfl, (path_iff hd (by decide)).1 rfl, optBool_iff.1 h1, optBool_iff.1 h2, optBool_iff.1 h3,
      ⟨_, optStr_iff.1 h4, rfl⟩, optList_iff.1 h5, hk, hd⟩
  · rintro ⟨h1, h2, h3, h4, h5, ⟨o, h6, h6'⟩, h7, h8, hd⟩
    refine bindMk (optBool_iff.2 h3) (bindMk (optBool_iff.2 h4) (bindMk (optBool_iff.2 h5) (bindMk (optStr_iff.2 h6)
      (bindMk (optList_iff.2 h7) (bindMk (b := ()) (check_iff.2 (hk.2 ⟨h8, hd⟩)) ?_)))))
    rw [(path_iff hd (by decide)).2 h1, (path_iff hd (by decide)).2 h2]
    unfold purposeOf
    rw [← h6']

theorem parseCasync_iff {kvs : Kvs} {r : Casync} : parseCasync kvs = some r ↔ CasyncSpec kvs r := by
  have hk := noKeysLeft_iff (kvs := kvs) (lax := [c!"storepath", c!"tmppath", c!"install-args"]) (strict := [c!"use-desync"])
    (doc := [c!"install-args", c!"storepath", c!"tmppath", c!"use-desync"]) (all_mem (by decide) (by decide)) (by decide)
  constructor
  · intro h
    unfold parseCasync at h
    obtain ⟨de, h1, h⟩ := bindInv h
    obtain ⟨_, h6, h⟩ := bindInv h
    obtain ⟨hk, hd⟩ := hk.1 (check_iff.1 h6)
    cases h
    exact ⟨(str_lax hd (by decide)).1 rfl, (str_lax hd (by decide)).1 rfl, (str_lax hd (by decide)).1 rfl, optBool_iff.1 h1, hk, hd⟩
  · rintro ⟨h1, h2, h3, h4, h8, hd⟩
    refine bindMk (optBool_iff.2 h4) (bindMk (b := ()) (check_iff.2 (hk.2 ⟨h8, hd⟩)) ?_)
    rw [(str_lax hd (by decide)).2 h1, (str_lax hd (by decide)).2 h2, (str_lax hd (by decide)).2 h3]

theorem parseStreaming_iff {kvs : Kvs} {r : Streaming} : parseStreaming kvs = some r ↔ StreamingSpec kvs r := by
  have hk := noKeysLeft_iff (kvs := kvs) (lax := [c!"sandbox-user", c!"tls-cert", c!"tls-key", c!"tls-ca"]) (strict := [c!"send-headers"])
    (doc := [c!"sandbox-user", c!"tls-cert", c!"tls-key", c!"tls-ca", c!"send-headers"]) (all_mem (by decide) (by decide)) (by decide)
  have hm : ∀ h : Str, httpHeaders.contains h = true ↔ h ∈ [c!"boot-id", c!"machine-id", c!"system-version", c!"serial", c!"variant",
      c!"transaction-id", c!"uptime"] := by
    intro h
    have := all_mem (l1 := httpHeaders) (l2 := []) (l3 := [c!"boot-id", c!"machine-id", c!"system-version", c!"serial", c!"variant",
      c!"transaction-id", c!"uptime"]) (by decide) (by decide) h
    rw [this]
    simp
  constructor
  · intro h
    unfold parseStreaming at h
    obtain ⟨hs, h1, h⟩ := bindInv h
    obtain ⟨_, h2, h⟩ := bindInv h
    obtain ⟨_, h6, h⟩ := bindInv h
    obtain ⟨hk, hd⟩ := hk.1 (check_iff.1 h6)
    cases h
    refine ⟨(str_lax hd (by decide)).1 rfl, (str_lax hd (by decide)).1 rfl, (str_lax hd (by decide)).1 rfl, (str_lax hd (by decide)).1 rfl,
      optList_iff.1 h1, ?_, hk, hd⟩
    intro l hl x hx
    simp only at hl
    have := check_iff.1 h2
    rw [hl] at this
    exact (hm x).1 (List.all_eq_true.1 this x hx)
  · rintro ⟨h1, h2, h3, h4, h5, h6, h8, hd⟩
    refine bindMk (optList_iff.2 h5) (bindMk (b := ()) (check_iff.2 ?_) (bindMk (b := ()) (check_iff.2 (hk.2 ⟨h8, hd⟩)) ?_))
    · cases hh : r.headers with
      | none => rfl
      | some l => exact List.all_eq_true.2 (fun x hx => (hm x).2 (h6 l hh x hx))
    · rw [(str_lax hd (by decide)).2 h1, (str_lax hd (by decide)).2 h2, (str_lax hd (by decide)).2 h3, (str_lax hd (by decide)).2 h4]

theorem intervals_iff {kvs : Kvs} {a b : Int} :
    (∃ i, optInt kvs c!"interval-sec" = some i ∧ ∃ m, optInt kvs c!"max-interval-sec" = some m ∧ Daemon.intervals i m = some (a, b)) ↔
    ∃ i m, IntOpt kvs c!"interval-sec" 86400 i ∧ IntOpt kvs c!"max-interval-sec" (Daemon.wrap32 (i * 4)) m ∧ 60 ≤ i ∧ i < m ∧
      a = Daemon.wrap32 (i * 1000) ∧ b = Daemon.wrap32 (m * 1000) := by
  constructor
  · rintro ⟨i, hi, m, hm, h⟩
    unfold Daemon.intervals at h
    simp only [] at h
    by_cases h1 : i.getD 86400 < 60
    · rw [if_pos h1] at h; cases h
    · rw [if_neg h1] at h
      by_cases h2 : m.getD (Daemon.wrap32 (i.getD 86400 * 4)) ≤ i.getD 86400
      · rw [if_pos h2] at h; cases h
      · rw [if_neg h2] at h
        cases h
        exact ⟨_, _, optInt_iff.1 ⟨i, hi, rfl⟩, optInt_iff.1 ⟨m, hm, rfl⟩, by omega, by omega, rfl, rfl⟩
  · rintro ⟨i, m, hi, hm, h1, h2, rfl, rfl⟩
    obtain ⟨oi, hi, hi'⟩ := optInt_iff.2 hi
    obtain ⟨om, hm, hm'⟩ := optInt_iff.2 hm
    refine ⟨oi, hi, om, hm, ?_⟩
    unfold Daemon.intervals
    simp only []
    rw [hi', hm', if_neg (by omega), if_neg (by omega)]

theorem parsePolling_iff {E : Env} {kvs : Kvs} {r : Polling} : parsePolling E kvs = some r ↔ PollingSpec E kvs r := by
  have hk := noKeysLeft_iff (kvs := kvs) (lax := [c!"url"])
    (strict := [c!"inhibit-files", c!"candidate-criteria", c!"install-criteria", c!"reboot-criteria", c!"interval-sec", c!"max-interval-sec",
      c!"reboot-cmd"])
    (doc := [c!"url", c!"inhibit-files", c!"candidate-criteria", c!"install-criteria", c!"reboot-criteria", c!"interval-sec",
      c!"max-interval-sec", c!"reboot-cmd"]) (all_mem (by decide) (by decide)) (by decide)
  constructor
  · intro h
    unfold parsePolling at h
    obtain ⟨_, h1, h⟩ := bindInv h
    obtain ⟨inh, h2, h⟩ := bindInv h
    obtain ⟨can, h3, h⟩ := bindInv h
    obtain ⟨ins, h4, h⟩ := bindInv h
    obtain ⟨reb, h5, h⟩ := bindInv h
    obtain ⟨url, h6, h⟩ := bindInv h
    obtain ⟨_, h7, h⟩ := bindInv h
    obtain ⟨i, h8, h⟩ := bindInv h
    obtain ⟨m, h9, h⟩ := bindInv h
    obtain ⟨ms, h10, h⟩ := bindInv h
    obtain ⟨cmd, h11, h⟩ := bindInv h
    obtain ⟨_, h12, h⟩ := bindInv h
    obtain ⟨hk, hd⟩ := hk.1 (check_iff.1 h12)
    cases h
    have h2' := optListIn_iff.1 h2
    have h3' := optListIn_iff.1 h3
    have h4' := optListIn_iff.1 h4
    have h5' := optListIn_iff.1 h5
    refine ⟨check_iff.1 h1, str_iff.1 h6, ?_, h2'.1, ⟨_, h3'.1, fun l hl => h3'.2 l _ hl rfl, rfl⟩, h4'.1, fun l hl => h4'.2 l _ hl rfl, h5'.1,
      fun l hl => h5'.2 l _ hl rfl, intervals_iff.1 ⟨_, h8, _, h9, h10⟩, ⟨_, optStr_iff.1 h11, rfl⟩, hk, hd⟩
    obtain ⟨t, ht⟩ := List.isPrefixOf_iff_prefix.1 (check_iff.1 h7)
    exact ⟨t, ht.symm⟩
  · intro h
    obtain ⟨o, hc1, hc2, hc3⟩ := h.candidate
    obtain ⟨i, hi, m, hm, him⟩ := intervals_iff.2 h.interval
    obtain ⟨cmd, hr1, hr2⟩ := h.rebootCmd
    obtain ⟨t, ht⟩ := h.urlHttp
    unfold parsePolling
    refine bindMk (b := ()) (check_iff.2 h.enabled) ?_
    refine bindMk (optListIn_iff.2 ⟨h.inhibit, by simp⟩) ?_
    refine bindMk (optListIn_iff.2 ⟨hc1, fun l a hl ha => by cases ha; exact hc2 l hl⟩) ?_
    refine bindMk (optListIn_iff.2 ⟨h.install, fun l a hl ha => by cases ha; exact h.installKnown l hl⟩) ?_
    refine bindMk (optListIn_iff.2 ⟨h.reboot, fun l a hl ha => by cases ha; exact h.rebootKnown l hl⟩) ?_
    refine bindMk (str_iff.2 h.url) ?_
    refine bindMk (b := ()) (check_iff.2 (List.isPrefixOf_iff_prefix.2 ⟨t, ht.symm⟩)) ?_
    refine bindMk hi (bindMk hm (bindMk him (bindMk (optStr_iff.2 hr1) ?_)))
    refine bindMk (b := ()) (check_iff.2 (hk.2 ⟨h.keys, h.decodable⟩)) ?_
    rw [← hc3, ← hr2]

theorem parseEncryption_iff {E : Env} {kvs : Kvs} {r : Encryption} : parseEncryption E kvs = some r ↔ EncryptionSpec E kvs r := by
  have hk := noKeysLeft_iff (kvs := kvs) (lax := [c!"key", c!"cert"]) (strict := []) (doc := [c!"key", c!"cert"]) (by simp) (by simp)
  constructor
  · intro h
    obtain ⟨_, h6, h⟩ := bindInv h
    obtain ⟨hk, hd⟩ := hk.1 (check_iff.1 h6)
    cases h
    exact ⟨(path_iff hd (by decide)).1 rfl, (path_iff hd (by decide)).1 rfl, hk, hd⟩
  · rintro ⟨h1, h2, h8, hd⟩
    refine bindMk (b := ()) (check_iff.2 (hk.2 ⟨h8, hd⟩)) ?_
    rw [(path_iff hd (by decide)).2 h1, (path_iff hd (by decide)).2 h2]

theorem parseAutoinstall_iff {E : Env} {kvs : Kvs} {r : Option Str} : parseAutoinstall E kvs = some r ↔ AutoinstallSpec E kvs r := by
  have hk := noKeysLeft_iff (kvs := kvs) (lax := [c!"path"]) (strict := []) (doc := [c!"path"]) (by simp) (by simp)
  constructor
  · intro h
    obtain ⟨_, h6, h⟩ := bindInv h
    obtain ⟨hk, hd⟩ := hk.1 (check_iff.1 h6)
    cases h
    exact ⟨(path_iff hd (by decide)).1 rfl, hk, hd⟩
  · rintro ⟨h1, h8, hd⟩
    refine bindMk (b := ()) (check_iff.2 (hk.2 ⟨h8, hd⟩)) ?_
    rw [(path_iff hd (by decide)).2 h1]

theorem absent_iff {kvs : Kvs} {k : Str} : Absent kvs k ↔ ∀ raw, (k, raw) ∉ kvs := by
  unfold Absent KeyFile.gget
  rw [Option.map_eq_none_iff, List.find?_eq_none]
  constructor
  · intro h raw hm; exact h _ hm (by simp)
  · rintro h ⟨k', raw⟩ hm
    simp only [beq_iff_eq]
    rintro rfl
    exact h raw hm

theorem parseHandlers_iff {E : Env} {c : Bool} {kvs : Kvs} {r : HandlerPaths} :
    parseHandlers E c kvs = some r ↔ HandlersSpec E (c = true) kvs r := by
  have hk : noKeysLeft kvs [c!"system-info", c!"pre-install", c!"post-install"] (if c then [c!"bootloader-custom-backend"] else []) = true ↔
      (OnlyKeys kvs [c!"system-info", c!"pre-install", c!"post-install", c!"bootloader-custom-backend"] ∧
        (¬ c = true → Absent kvs c!"bootloader-custom-backend")) ∧ Decodable' kvs [c!"system-info", c!"pre-install", c!"post-install"] := by
    cases c with
    | true =>
      simp only [if_true, not_true_eq_false, false_implies, and_true]
      exact noKeysLeft_iff (all_mem (by decide) (by decide)) (by decide)
    | false =>
      simp only [Bool.false_eq_true, if_false, not_false_eq_true, true_implies]
      rw [noKeysLeft_iff (doc := [c!"system-info", c!"pre-install", c!"post-install"]) (by simp) (by simp), absent_iff]
      refine and_congr_left' ⟨fun h => ⟨fun k raw hm => ?_, fun raw hm => ?_⟩, fun h k raw hm => ?_⟩
      · exact List.mem_append_left [c!"bootloader-custom-backend"] (h k raw hm)
      · exact absurd (h _ raw hm) (by decide)
      · have := h.1 k raw hm
        rcases List.mem_append.1 (show k ∈ [c!"system-info", c!"pre-install", c!"post-install"] ++ [c!"bootloader-custom-backend"] from this) with h' | h'
        · exact h'
        · rw [List.mem_singleton] at h'
          subst h'
          exact absurd hm (h.2 raw)
  constructor
  · intro h
    obtain ⟨_, h6, h⟩ := bindInv h
    obtain ⟨⟨hk, hc⟩, hd⟩ := hk.1 (check_iff.1 h6)
    cases h
    exact ⟨(path_iff hd (by decide)).1 rfl, (path_iff hd (by decide)).1 rfl, (path_iff hd (by decide)).1 rfl, hk, hc, hd⟩
  · rintro ⟨h1, h2, h3, h8, hc, hd⟩
    refine bindMk (b := ()) (check_iff.2 (hk.2 ⟨⟨h8, hc⟩, hd⟩)) ?_
    rw [(path_iff hd (by decide)).2 h1, (path_iff hd (by decide)).2 h2, (path_iff hd (by decide)).2 h3]

theorem logFormat_iff {E : Env} {s : Str} {f : LogFormat} : logFormat E s = some f ↔ LogFormatSpec E s f := by
  unfold logFormat
  constructor
  · intro h
    by_cases h1 : s = c!"readable"
    · rw [if_pos h1] at h; cases h; subst h1; exact .readable
    rw [if_neg h1] at h
    by_cases h2 : s = c!"short"
    · rw [if_pos h2] at h; cases h; subst h2; exact .short
    rw [if_neg h2] at h
    by_cases h3 : s = c!"json"
    · rw [if_pos h3] at h
      rw [Option.ite_none_right_eq_some] at h
      obtain ⟨h, e⟩ := h
      cases e; subst h3; exact .json h
    rw [if_neg h3] at h
    by_cases h4 : s = c!"json-pretty"
    · rw [if_pos h4] at h
      rw [Option.ite_none_right_eq_some] at h
      obtain ⟨h, e⟩ := h
      cases e; subst h4; exact .jsonPretty h
    rw [if_neg h4] at h; cases h
  · intro h
    cases h with
    | readable => rfl
    | short => rfl
    | json h => simp [h]
    | jsonPretty h => simp [h]

theorem logFile_iff {E : Env} {d : Option Str} {f r : Str} : logFile E d f = some r ↔
    ((f.head? = some '/' ∧ r = f) ∨ (f.head? ≠ some '/' ∧ ∃ d', d = some d' ∧ r = E.join d' f)) := by
  unfold logFile
  by_cases h : f.head? = some '/'
  · rw [if_pos h]; simp [h, eq_comm]
  · rw [if_neg h]
    cases d <;> simp [h, eq_comm]

theorem optSize_iff {kvs : Kvs} {k : Str} {n : Nat} : optSize kvs k = some n ↔
    ∃ o, OptText kvs k o ∧ (o = none → n = 0) ∧ ∀ s, o = some s → Config.binarySuffixed s = some n := by
  unfold optSize
  cases ho : optStr kvs k with
  | none =>
    constructor
    · intro h; cases h
    · rintro ⟨o, h, -⟩; rw [← optStr_iff, ho] at h; cases h
  | some o =>
    have h0 := optStr_iff.1 ho
    constructor
    · intro h
      refine ⟨o, h0, ?_, ?_⟩
      · rintro rfl; exact (Option.some.inj h).symm
      · rintro s rfl; exact h
    · rintro ⟨o', h1, h2, h3⟩
      rw [← optStr_iff, ho] at h1
      cases h1
      cases o with
      | none => simp [h2 rfl]
      | some s => exact h3 s rfl

theorem parseLogger_iff {E : Env} {d : Option Str} {n : Str} {kvs : Kvs} {r : Logger} :
    parseLogger E d n kvs = some r ↔ LoggerSpec E d n kvs r := by
  have hk := noKeysLeft_iff (kvs := kvs) (lax := []) (strict := [c!"filename", c!"format", c!"events", c!"max-size", c!"max-files"])
    (doc := [c!"filename", c!"format", c!"events", c!"max-size", c!"max-files"]) (by simp) (by simp)
  have hev : ∀ o : Option (List Str),
      ((!(decide (1 < (o.getD []).length) && (o.getD []).contains c!"all")) = true ∧ (o.getD []).all (fun e => eventTypes.contains e) = true) ↔
      ((∀ e ∈ o.getD [c!"all"], e ∈ [c!"all", c!"boot", c!"mark", c!"install", c!"service", c!"writeslot"]) ∧
        (c!"all" ∈ o.getD [c!"all"] → o.getD [c!"all"] = [c!"all"])) := by
    intro o
    cases o with
    | none => decide
    | some l =>
      simp only [Option.getD_some, Bool.not_eq_true', Bool.and_eq_false_iff, decide_eq_false_iff_not, List.contains_eq_mem,
        List.all_eq_true, decide_eq_true_eq]
      rw [and_comm]
      refine and_congr Iff.rfl ?_
      constructor
      · rintro (h | h) hm
        · match l, hm, h with
          | [], hm, _ => cases hm
          | [a], hm, _ => rw [List.mem_singleton.1 hm]
          | a :: b :: t, _, h => simp at h
        · exact absurd hm h
      · intro h
        by_cases hm : c!"all" ∈ l
        · left; rw [h hm]; decide
        · right; exact hm
  constructor
  · intro h
    unfold parseLogger at h
    obtain ⟨fo, h1, h⟩ := bindInv h
    obtain ⟨f, h2, h⟩ := bindInv h
    obtain ⟨file, h3, h⟩ := bindInv h
    obtain ⟨fm, h4, h⟩ := bindInv h
    obtain ⟨fmt, h5, h⟩ := bindInv h
    obtain ⟨ev, h6, h⟩ := bindInv h
    obtain ⟨_, h7, h⟩ := bindInv h
    obtain ⟨_, h8, h⟩ := bindInv h
    obtain ⟨sz, h9, h⟩ := bindInv h
    obtain ⟨mf, h10, h⟩ := bindInv h
    obtain ⟨_, h11, h⟩ := bindInv h
    obtain ⟨_, h12, h⟩ := bindInv h
    cases h
    subst h2
    have he := (hev ev).1 ⟨check_iff.1 h7, check_iff.1 h8⟩
    have hm := of_decide_eq_true (check_iff.1 h11)
    exact ⟨rfl, ⟨f, optStr_iff.1 h1, logFile_iff.1 h3⟩, ⟨_, optStr_iff.1 h4, logFormat_iff.1 h5⟩, ⟨_, optList_iff.1 h6, rfl⟩, he.1, he.2,
      optSize_iff.1 h9, ⟨optInt_iff.1 ⟨_, h10, rfl⟩, hm⟩, (hk.1 (check_iff.1 h12)).1⟩
  · intro h
    obtain ⟨f, hf, hf'⟩ := h.filename
    obtain ⟨fo, hfo, hfo'⟩ := h.format
    obtain ⟨ev, he, he'⟩ := h.events
    obtain ⟨mf, hm, hm'⟩ := optInt_iff.2 h.maxFiles.1
    have hc := (hev ev).2 (by rw [← he']; exact ⟨h.eventsKnown, h.eventsAll⟩)
    unfold parseLogger
    refine bindMk (optStr_iff.2 (show OptText kvs c!"filename" (some f) from hf)) ?_
    refine bindMk rfl (bindMk (logFile_iff.2 hf') (bindMk (optStr_iff.2 hfo) (bindMk (logFormat_iff.2 hfo') (bindMk (optList_iff.2 he) ?_))))
    refine bindMk (b := ()) (check_iff.2 hc.1) (bindMk (b := ()) (check_iff.2 hc.2) (bindMk (optSize_iff.2 h.maxSize) (bindMk hm ?_)))
    refine bindMk (b := ()) (check_iff.2 (decide_eq_true (by rw [hm']; exact h.maxFiles.2))) ?_
    refine bindMk (b := ()) (check_iff.2 (hk.2 ⟨h.keys, fun _ _ _ hk => by cases hk⟩)) ?_
    rw [hm', ← he', ← h.name]

theorem parseRepo_iff {E : Env} {g : Str} {kvs : Kvs} {r : Repo} (hg : isArtifactsGroup g = true) :
    parseRepo E (g, kvs) = some r ↔ RepoSpec E g kvs r := by
  have hk := noKeysLeft_iff (kvs := kvs) (lax := [c!"description", c!"parent-class"]) (strict := [c!"path", c!"type"])
    (doc := [c!"description", c!"path", c!"type", c!"parent-class"]) (all_mem (by decide) (by decide)) (by decide)
  have ht : ∀ t : Str, (repoTypes E).contains t = true ↔ t = c!"files" ∨ t = c!"trees" ∨ (E.composefs = true ∧ t = c!"composefs") := by
    intro t
    unfold repoTypes
    cases E.composefs <;> simp
  unfold isArtifactsGroup at hg
  unfold parseRepo
  constructor
  · intro h
    simp only at h
    split at h
    · rename_i hd name hs
      simp only [hs, List.head?_cons, beq_iff_eq, Option.some.injEq] at hg
      obtain ⟨po, h1, h⟩ := bindInv h
      obtain ⟨p, h2, h⟩ := bindInv h
      obtain ⟨ty, h3, h⟩ := bindInv h
      obtain ⟨t, h4, h⟩ := bindInv h
      obtain ⟨_, h5, h⟩ := bindInv h
      obtain ⟨_, h6, h⟩ := bindInv h
      obtain ⟨_, h7, h⟩ := bindInv h
      obtain ⟨hk, hd⟩ := hk.1 (check_iff.1 h7)
      cases h
      subst h2 h4
      exact ⟨by rw [hs, hg], (str_lax hd (by decide)).1 rfl, ⟨p, optStr_iff.1 h1, rfl⟩, optStr_iff.1 h3, (ht _).1 (check_iff.1 h5),
        (str_lax hd (by decide)).1 (Option.isNone_iff_eq_none.1 (check_iff.1 h6)), hk, hd⟩
    · cases h
  · rintro ⟨h1, h2, ⟨p, h3, h3'⟩, h4, h5, h6, h7, hd⟩
    simp only [h1]
    refine bindMk (optStr_iff.2 (show OptText kvs c!"path" (some p) from h3)) (bindMk rfl ?_)
    refine bindMk (optStr_iff.2 (show OptText kvs c!"type" (some r.typ) from h4)) (bindMk rfl ?_)
    refine bindMk (b := ()) (check_iff.2 ((ht _).2 h5)) (bindMk (b := ()) (check_iff.2 ?_) (bindMk (b := ()) (check_iff.2 (hk.2 ⟨h7, hd⟩)) ?_))
    · rw [(str_lax hd (by decide)).2 h6]; rfl
    · rw [(str_lax hd (by decide)).2 h2, ← h3']

end Rauc.ConfigFile
