import Verif.Props.ConfigFile

/-!
# C59: slot sections and the whole configuration
-/

namespace Rauc.ConfigFile

open ManifestFile

/-! ## Specification -/

/-- `install-same` and its two deprecated spellings, the first one present counts -/
inductive InstallSame (kvs : Kvs) : Bool → Prop where
  | same {b} : ¬ Absent kvs c!"install-same" → Flag kvs c!"install-same" true b → InstallSame kvs b
  | force {b} : Absent kvs c!"install-same" → ¬ Absent kvs c!"force-install-same" → Flag kvs c!"force-install-same" true b → InstallSame kvs b
  | checksum {b} : Absent kvs c!"install-same" → Absent kvs c!"force-install-same" → Flag kvs c!"ignore-checksum" true b → InstallSame kvs b

/-- a mandatory size -/
def SizeText (kvs : Kvs) (k : Str) (n : Nat) : Prop := ∃ s, Text kvs k s ∧ Config.binarySuffixed s = some n

/-- slot types with a region -/
def Region (t : Str) : Prop := t = c!"boot-mbr-switch" ∨ t = c!"boot-gpt-switch" ∨ t = c!"boot-raw-fallback"

/-- options of a slot section that are texts -/
def slotTextKeys : List Str :=
  [c!"description", c!"device", c!"type", c!"extra-mkfs-opts", c!"bootname", c!"parent", c!"extra-mount-opts", c!"region-start",
   c!"region-size", c!"size-limit", c!"efi-loader", c!"efi-cmdline"]

/-- where an option of a slot section is valid -/
def SlotKey (efi : Prop) (typ k : Str) : Prop :=
  k ∈ [c!"description", c!"device", c!"type", c!"extra-mkfs-opts", c!"bootname", c!"parent", c!"allow-mounted", c!"readonly",
    c!"install-same", c!"force-install-same", c!"ignore-checksum", c!"extra-mount-opts", c!"resize"] ∨
  (Region typ ∧ (k = c!"region-start" ∨ k = c!"region-size")) ∨ (typ = c!"boot-emmc" ∧ k = c!"size-limit") ∨
  (efi ∧ (k = c!"efi-loader" ∨ k = c!"efi-cmdline"))

/-- a slot section, and the slot it stands for (with the name of the configured parent) -/
structure SlotSpec (E : Env) (efi : Prop) (g : Str) (kvs : Kvs) (s : Slot) : Prop where
  name : ∃ cls idx, split '.' g = [c!"slot", cls, idx] ∧ s.name = cls ++ '.' :: idx ∧ s.sclass = cls
  device : ∃ d, Text kvs c!"device" d ∧ s.device = E.resolve d
  typ : ∃ o, LaxText kvs c!"type" o ∧ s.typ = o.getD c!"raw"
  typKnown : s.typ ∈ [c!"raw", c!"ext4", c!"ubifs", c!"ubivol", c!"nand", c!"nor", c!"boot-emmc", c!"boot-mbr-switch", c!"boot-gpt-switch",
    c!"vfat", c!"boot-raw-fallback"]
  emmcDevice : s.typ = c!"boot-emmc" → ¬ c!"boot0" <:+ s.device ∧ ¬ c!"boot1" <:+ s.device
  mkfs : ∃ o, LaxText kvs c!"extra-mkfs-opts" o ∧ ∀ v, o = some v → E.shellOk v = true
  bootname : LaxText kvs c!"bootname" s.bootname
  bootnameNoSpace : ∀ b, s.bootname = some b → ∀ c ∈ b, isSpace c = false
  parent : LaxText kvs c!"parent" s.parent
  mounted : ∃ b, Flag kvs c!"allow-mounted" false b
  readonly : Flag kvs c!"readonly" false s.readonly
  installSame : InstallSame kvs s.installSame
  resize : ∃ b, Flag kvs c!"resize" false b
  regionStart : (Region s.typ → SizeText kvs c!"region-start" s.regionStart) ∧ (¬ Region s.typ → s.regionStart = 0)
  regionSize : (Region s.typ → SizeText kvs c!"region-size" s.regionSize) ∧ (¬ Region s.typ → s.regionSize = 0)
  sizeLimit : (s.typ = c!"boot-emmc" → SizeText kvs c!"size-limit" s.sizeLimit ∨ (Absent kvs c!"size-limit" ∧ s.sizeLimit = 0)) ∧
    (s.typ ≠ c!"boot-emmc" → s.sizeLimit = 0)
  efiLoader : (efi → LaxText kvs c!"efi-loader" s.efiLoader) ∧ (¬ efi → s.efiLoader = none)
  efiCmdline : (efi → LaxText kvs c!"efi-cmdline" s.efiCmdline) ∧ (¬ efi → s.efiCmdline = none)
  keys : ∀ k raw, (k, raw) ∈ kvs → SlotKey efi s.typ k
  decodable : Decodable' kvs slotTextKeys

/-- an optional section: its default, or what it says -/
def Section {α : Type} (kf : KeyFile) (g : Str) (dflt : α) (spec : Kvs → α → Prop) (r : α) : Prop :=
  (kf.group g = none ∧ r = dflt) ∨ ∃ kvs, kf.group g = some kvs ∧ spec kvs r

/-- the group is called `first.…` -/
def Under (first g : Str) : Prop := (split '.' g).head? = some first

instance (first g : Str) : Decidable (Under first g) := by unfold Under; infer_instance

/-- an accepted configuration, without the checks that only apply to targets -/
structure ParseSpec (E : Env) (kf : KeyFile) (c : Cfg) : Prop where
  groups : ∀ g ∈ kf.groups,
    g ∈ [c!"system", c!"keyring", c!"casync", c!"streaming", c!"polling", c!"encryption", c!"autoinstall", c!"handlers"] ∨
    (∃ n, g = c!"log." ++ n) ∨ Under c!"slot" g ∨ Under c!"artifacts" g
  system : ∃ kvs, kf.group c!"system" = some kvs ∧ SystemSpec E kvs ((kf.group c!"handlers").getD []) c.system
  keyring : Section kf c!"keyring" {} (KeyringSpec E) c.keyring
  casync : Section kf c!"casync" {} CasyncSpec c.casync
  streaming : Section kf c!"streaming" {} StreamingSpec c.streaming
  polling : Section kf c!"polling" none (fun kvs r => ∃ p, r = some p ∧ PollingSpec E kvs p) c.polling
  encryption : Section kf c!"encryption" {} (EncryptionSpec E) c.encryption
  autoinstall : Section kf c!"autoinstall" none (AutoinstallSpec E) c.autoinstall
  handlers : Section kf c!"handlers" {} (HandlersSpec E (c.system.bootloader = some c!"custom")) c.handlers
  loggers : List.Forall₂ (fun g r => ∃ n, g.1 = c!"log." ++ n ∧ LoggerSpec E c.system.dataDir n g.2 r)
    (kf.filter (fun g => (c!"log.").isPrefixOf g.1)) c.loggers
  slots : ∃ parsed, List.Forall₂ (fun g s => SlotSpec E (c.system.bootloader = some c!"efi") g.1 g.2 s)
    (kf.filter (fun g => decide (Under c!"slot" g.1))) parsed ∧ Config.resolveParents parsed = some c.slots
  repos : List.Forall₂ (fun g r => RepoSpec E g.1 g.2 r) (kf.filter (fun g => decide (Under c!"artifacts" g.1))) c.repos

/-- ... with them -/
structure LoadSpec (E : Env) (kf : KeyFile) (c : Cfg) : Prop extends ParseSpec E kf c where
  bootnames : c.slots.Pairwise (fun s t => ∀ b, s.bootname = some b → t.bootname ≠ some b)
  classes : ∀ s ∈ c.slots, ∀ r ∈ c.repos, s.sclass ≠ r.name
  compatible : c.system.compatible ≠ none
  bootloader : ∃ b ∈ [c!"barebox", c!"grub", c!"uboot", c!"efi", c!"custom", c!"noop"], c.system.bootloader = some b
  attempts : 0 < c.system.attempts ∨ 0 < c.system.attemptsPrimary →
    c.system.bootloader = some c!"uboot" ∨ c.system.bootloader = some c!"barebox"

/-! ### lemmas -/

theorem group_decode (kf : KeyFile) (g : Str) : (decode kf).group g = (kf.group g).map (fun kvs => kvs.map decodeKv) := by
  unfold decode KeyFile.group
  induction kf with
  | nil => rfl
  | cons p ps ih =>
    simp only [List.map_cons, List.find?_cons]
    by_cases h : (p.1 == g) = true
    · simp [h]
    · rw [Bool.not_eq_true] at h
      simp only [h]
      exact ih

theorem gget_decode (kvs : Kvs) (k : Str) :
    KeyFile.gget (kvs.map decodeKv) k = (KeyFile.gget kvs k).map (fun raw => (decodeKv (k, raw)).2) := by
  unfold KeyFile.gget
  induction kvs with
  | nil => rfl
  | cons p ps ih =>
    simp only [List.map_cons, List.find?_cons]
    by_cases h : (p.1 == k) = true
    · have h' : ((decodeKv p).1 == k) = true := h
      simp only [h, h', Option.map_some]
      simp only [beq_iff_eq] at h
      subst h
      rfl
    · rw [Bool.not_eq_true] at h
      have h' : ((decodeKv p).1 == k) = false := h
      simp only [h, h']
      exact ih

theorem get_decode {kf : KeyFile} {g : Str} {kvs : Kvs} (hg : kf.group g = some kvs) (k : Str) :
    (decode kf).get g k = (KeyFile.gget kvs k).map (fun raw => (decodeKv (k, raw)).2) := by
  unfold KeyFile.get
  rw [group_decode, hg]
  exact gget_decode kvs k

section
variable {kf : KeyFile} {g : Str} {kvs : Kvs} (hg : kf.group g = some kvs)
include hg

theorem get_text {k : Str} (hd : Decodable' kvs slotTextKeys) (hk : k ∈ slotTextKeys) (hf : slotFlagKeys.contains k = false) (v : Str) :
    (decode kf).get g k = some v ↔ ∃ raw, KeyFile.gget kvs k = some raw ∧ unescape raw = some v := by
  rw [get_decode hg]
  cases hr : KeyFile.gget kvs k with
  | none => simp
  | some raw =>
    obtain ⟨w, hw⟩ := hd k raw (gget_mem hr) hk
    simp only [decodeKv, hf, hw, Option.map_some, Option.getD_some, Bool.false_eq_true, if_false, Option.some.injEq, exists_eq_left']

theorem text_iff {k : Str} (hd : Decodable' kvs slotTextKeys) (hk : k ∈ slotTextKeys) (hf : slotFlagKeys.contains k = false) (o : Option Str) :
    consumeString (decode kf) g k = o ↔ LaxText kvs k o := by
  have h0 := get_text hg hd hk hf
  have hn : (decode kf).get g k = none ↔ Absent kvs k := by
    rw [get_decode hg, Option.map_eq_none_iff]; rfl
  unfold consumeString
  cases hv : (decode kf).get g k with
  | none =>
    have ha := hn.1 hv
    cases o with
    | none => simp [LaxText, ha]
    | some v =>
      simp only [reduceCtorEq, false_iff]
      rintro ⟨raw, h1, -⟩
      unfold Absent at ha
      rw [ha] at h1; cases h1
  | some w =>
    obtain ⟨raw, h1, h2⟩ := (h0 w).1 hv
    cases w with
    | nil =>
      cases o with
      | none => simp only [true_iff]; exact Or.inr ⟨raw, h1, h2⟩
      | some v =>
        simp only [reduceCtorEq, false_iff]
        rintro ⟨raw', h1', h2', h3⟩
        rw [h1] at h1'; cases h1'
        rw [h2] at h2'; cases h2'
        exact h3 rfl
    | cons c w =>
      cases o with
      | none =>
        simp only [reduceCtorEq, false_iff]
        rintro (h | ⟨raw', h1', h2'⟩)
        · unfold Absent at h; rw [h] at h1; cases h1
        · rw [h1] at h1'; cases h1'
          rw [h2] at h2'; cases h2'
      | some v =>
        simp only [Option.some.injEq]
        constructor
        · rintro rfl; exact ⟨raw, h1, h2, by simp⟩
        · rintro ⟨raw', h1', h2', -⟩
          rw [h1] at h1'; cases h1'
          rw [h2] at h2'; cases h2'
          rfl

theorem flag_iff {k : Str} (hf : slotFlagKeys.contains k = true) (d b : Bool) :
    Config.boolKey (decode kf) g k d = some b ↔ Flag kvs k d b := by
  rw [← optBool_iff]
  unfold Config.boolKey optBool
  rw [get_decode hg]
  cases hr : KeyFile.gget kvs k with
  | none => simp
  | some raw => simp only [decodeKv, hf, Option.map_some, if_true]

theorem same_iff (b : Bool) : Config.installSameKey (decode kf) g = some b ↔ InstallSame kvs b := by
  have h1 := flag_iff hg (k := c!"install-same") (by decide) true b
  have h2 := flag_iff hg (k := c!"force-install-same") (by decide) true b
  have h3 := flag_iff hg (k := c!"ignore-checksum") (by decide) true b
  have hn : ∀ k, (decode kf).get g k = none ↔ Absent kvs k := by
    intro k
    rw [get_decode hg, Option.map_eq_none_iff]; rfl
  unfold Config.boolKey at h1 h2 h3
  unfold Config.installSameKey
  cases e1 : (decode kf).get g c!"install-same" with
  | some v =>
    have ha : ¬ Absent kvs c!"install-same" := fun h => by rw [(hn _).2 h] at e1; cases e1
    rw [e1] at h1
    simp only [] at h1 ⊢
    rw [h1]
    constructor
    · intro h; exact .same ha h
    · rintro (⟨-, h⟩ | ⟨h, -⟩ | ⟨h, -⟩)
      · exact h
      · exact absurd h ha
      · exact absurd h ha
  | none =>
    have ha := (hn _).1 e1
    simp only []
    cases e2 : (decode kf).get g c!"force-install-same" with
    | some v =>
      have ha2 : ¬ Absent kvs c!"force-install-same" := fun h => by rw [(hn _).2 h] at e2; cases e2
      rw [e2] at h2
      simp only [] at h2 ⊢
      rw [h2]
      constructor
      · intro h; exact .force ha ha2 h
      · rintro (⟨h, -⟩ | ⟨-, -, h⟩ | ⟨-, h, -⟩)
        · exact absurd ha h
        · exact h
        · exact absurd h ha2
    | none =>
      have ha2 := (hn _).1 e2
      simp only []
      have : (match (decode kf).get g c!"ignore-checksum" with
          | some v => Config.kfBool v
          | none => some true) = some b ↔ Flag kvs c!"ignore-checksum" true b := by
        rw [← h3]
        cases (decode kf).get g c!"ignore-checksum" <;> rfl
      refine Iff.trans this ?_
      constructor
      · intro h; exact .checksum ha ha2 h
      · rintro (⟨h, -⟩ | ⟨-, h, -⟩ | ⟨-, -, h⟩)
        · exact absurd ha h
        · exact absurd ha2 h
        · exact h

theorem size_iff {k : Str} (hd : Decodable' kvs slotTextKeys) (hk : k ∈ slotTextKeys) (hf : slotFlagKeys.contains k = false) (n : Nat) :
    Config.sizeKey (decode kf) g k = some n ↔ SizeText kvs k n := by
  unfold Config.sizeKey SizeText Text
  rw [Option.bind_eq_some_iff]
  constructor
  · rintro ⟨v, hv, hb⟩
    obtain ⟨raw, h1, h2⟩ := (get_text hg hd hk hf v).1 hv
    exact ⟨v, ⟨raw, h1, h2, by rintro rfl; simp [Config.binarySuffixed] at hb⟩, hb⟩
  · rintro ⟨v, ⟨raw, h1, h2, -⟩, hb⟩
    exact ⟨v, (get_text hg hd hk hf v).2 ⟨raw, h1, h2⟩, hb⟩

theorem limit_iff (hd : Decodable' kvs slotTextKeys) (n : Nat) :
    Config.optSizeKey (decode kf) g c!"size-limit" = some n ↔
      SizeText kvs c!"size-limit" n ∨ (Absent kvs c!"size-limit" ∧ n = 0) := by
  have hs := size_iff hg (k := c!"size-limit") hd (by decide) (by decide) n
  have hn : (decode kf).get g c!"size-limit" = none ↔ Absent kvs c!"size-limit" := by
    rw [get_decode hg, Option.map_eq_none_iff]; rfl
  unfold Config.optSizeKey
  unfold Config.sizeKey at hs
  rw [← hn, ← hs]
  cases hv : (decode kf).get g c!"size-limit" with
  | none => simp [eq_comm]
  | some v => simp

end

theorem validType_iff (t : Str) : Config.validType t = true ↔
    t ∈ [c!"raw", c!"ext4", c!"ubifs", c!"ubivol", c!"nand", c!"nor", c!"boot-emmc", c!"boot-mbr-switch", c!"boot-gpt-switch", c!"vfat",
      c!"boot-raw-fallback"] := by
  unfold Config.validType Config.slotTypes
  simp only [List.any_cons, List.any_nil, Bool.or_false, Bool.or_eq_true, beq_iff_eq, List.mem_cons, List.not_mem_nil, or_false]
  simp only [eq_comm (a := t)]

theorem deviceOk_iff {t d : Str} (ht : Config.validType t = true) : Config.deviceOk t d = true ↔
    (t = c!"boot-emmc" → ¬ c!"boot0" <:+ d ∧ ¬ c!"boot1" <:+ d) := by
  unfold Config.deviceOk
  have hj : (t == c!"jffs2") = false := by
    rw [beq_eq_false_iff_ne]
    rintro rfl
    exact absurd ht (by decide)
  rw [hj]
  by_cases h : t = c!"boot-emmc"
  · subst h
    simp only [Bool.false_and, Bool.not_false, Bool.true_and, beq_self_eq_true, Bool.not_eq_true', Bool.or_eq_false_iff, forall_const]
    rw [← Bool.not_eq_true, ← Bool.not_eq_true, List.isSuffixOf_iff_suffix, List.isSuffixOf_iff_suffix]
  · have h' : (t == c!"boot-emmc") = false := by rw [beq_eq_false_iff_ne]; exact h
    simp only [h', Bool.false_and, Bool.not_false, Bool.and_true, true_iff]; exact fun e => absurd e h

theorem region_iff (t : Str) : Config.hasRegion t = true ↔ Region t := by
  unfold Config.hasRegion Region
  simp

theorem knownKeys_iff {efi : Bool} {typ k : Str} : (Config.knownKeys typ efi).contains k = true ↔ SlotKey (efi = true) typ k := by
  unfold Config.knownKeys SlotKey
  rw [← region_iff, List.contains_eq_mem, decide_eq_true_eq]
  simp only [List.mem_append, or_assoc]
  refine or_congr Iff.rfl (or_congr ?_ (or_congr ?_ ?_))
  · cases Config.hasRegion typ <;> simp
  · by_cases h : typ = c!"boot-emmc" <;> simp [h]
  · cases efi <;> simp

theorem slot_keys_decode {kvs : Kvs} {p : Str → Prop} :
    (∀ q ∈ kvs.map decodeKv, p q.1) ↔ ∀ k raw, (k, raw) ∈ kvs → p k := by
  constructor
  · intro h k raw hm
    exact h (decodeKv (k, raw)) (List.mem_map_of_mem hm)
  · rintro h q hq
    obtain ⟨⟨k, raw⟩, hm, rfl⟩ := List.mem_map.1 hq
    exact h k raw hm

theorem parseSlot_iff {E : Env} {boot : Option Str} {kf : KeyFile} {g : Str} {kvs : Kvs} {s : Slot} (hg : kf.group g = some kvs)
    (hs : Config.isSlotGroup g = true) (hd : Decodable' kvs slotTextKeys) :
    Config.parseSlot (slotEnv E boot) (decode kf) g = some s ↔ SlotSpec E (boot = some c!"efi") g kvs s := by
  have hdev := fun o => text_iff hg (k := c!"device") hd (by decide) (by decide) o
  have htyp := fun o => text_iff hg (k := c!"type") hd (by decide) (by decide) o
  have hmk := fun o => text_iff hg (k := c!"extra-mkfs-opts") hd (by decide) (by decide) o
  have hbn := fun o => text_iff hg (k := c!"bootname") hd (by decide) (by decide) o
  have hpa := fun o => text_iff hg (k := c!"parent") hd (by decide) (by decide) o
  have hel := fun o => text_iff hg (k := c!"efi-loader") hd (by decide) (by decide) o
  have hec := fun o => text_iff hg (k := c!"efi-cmdline") hd (by decide) (by decide) o
  have hmo := fun b => flag_iff hg (k := c!"allow-mounted") (by decide) false b
  have hro := fun b => flag_iff hg (k := c!"readonly") (by decide) false b
  have hre := fun b => flag_iff hg (k := c!"resize") (by decide) false b
  have hsa := fun b => same_iff hg b
  have hrs := fun n => size_iff hg (k := c!"region-start") hd (by decide) (by decide) n
  have hrz := fun n => size_iff hg (k := c!"region-size") hd (by decide) (by decide) n
  have hli := fun n => limit_iff hg hd n
  have hgrp : ((decode kf).group g).getD [] = kvs.map decodeKv := by rw [group_decode, hg]; rfl
  unfold Config.isSlotGroup at hs
  constructor
  · intro h
    unfold Config.parseSlot at h
    split at h
    · rename_i a cls idx hsp
      simp only [hsp, List.head?_cons, beq_iff_eq, Option.some.injEq] at hs
      subst hs
      split at h
      · cases h
      rename_i dev hdv
      simp only [] at h
      split at h
      · cases h
      rename_i ht
      split at h
      · cases h
      rename_i hdo
      split at h
      · cases h
      rename_i hmo'
      split at h
      · cases h
      rename_i hb
      split at h
      · rename_i mo ro sa re e1 e2 e3 e4
        split at h
        · rename_i rs rz lim e5 e6 e7
          rw [Option.ite_none_right_eq_some] at h
          obtain ⟨hk, h⟩ := h
          cases h
          have ht' : Config.validType ((consumeString (decode kf) g c!"type").getD c!"raw") = true := by simpa using ht
          refine ⟨⟨cls, idx, hsp, rfl, rfl⟩, ⟨dev, (hdev _).1 hdv, rfl⟩, ⟨_, (htyp _).1 rfl, rfl⟩, (validType_iff _).1 ht', ?_, ⟨_, (hmk _).1 rfl, ?_⟩,
            (hbn _).1 rfl, ?_, (hpa _).1 rfl, ⟨_, (hmo _).1 e1⟩, (hro _).1 e2, (hsa _).1 e3, ⟨_, (hre _).1 e4⟩, ?_, ?_, ?_, ?_, ?_, ?_, hd⟩
          · exact (deviceOk_iff ht').1 (by simpa using hdo)
          · intro v hv
            rw [hv] at hmo'
            simpa [Config.mkfsOk, slotEnv] using hmo'
          · intro b hb' c hc
            simp only at hb'
            rw [hb'] at hb
            simp only [Option.getD_some, List.any_eq_true, not_exists, not_and, Bool.not_eq_true] at hb
            exact hb c hc
          · refine ⟨fun hr => ?_, fun hr => ?_⟩
            · rw [if_pos ((region_iff _).2 hr)] at e5; exact (hrs _).1 e5
            · rw [if_neg (fun h => hr ((region_iff _).1 h))] at e5; exact (Option.some.inj e5).symm
          · refine ⟨fun hr => ?_, fun hr => ?_⟩
            · rw [if_pos ((region_iff _).2 hr)] at e6; exact (hrz _).1 e6
            · rw [if_neg (fun h => hr ((region_iff _).1 h))] at e6; exact (Option.some.inj e6).symm
          · refine ⟨fun hr => ?_, fun hr => ?_⟩
            · rw [if_pos hr] at e7; exact (hli _).1 e7
            · rw [if_neg hr] at e7; exact (Option.some.inj e7).symm
          · refine ⟨fun he => ?_, fun he => ?_⟩
            · simp only [slotEnv, he, decide_true, if_true]; exact (hel _).1 rfl
            · simp [slotEnv, he]
          · refine ⟨fun he => ?_, fun he => ?_⟩
            · simp only [slotEnv, he, decide_true, if_true]; exact (hec _).1 rfl
            · simp [slotEnv, he]
          · rw [hgrp, List.all_eq_true] at hk
            have := (slot_keys_decode (p := fun k => (Config.knownKeys ((consumeString (decode kf) g c!"type").getD c!"raw")
              (slotEnv E boot).efi).contains k = true)).1 hk
            intro k raw hm
            have := knownKeys_iff.1 (this k raw hm)
            simpa only [slotEnv, decide_eq_true_eq] using this
        · cases h
      · cases h
    · cases h
  · intro h
    obtain ⟨cls, idx, hsp, hn, hc⟩ := h.name
    obtain ⟨dev, hdv, hdv'⟩ := h.device
    obtain ⟨ot, ht, ht'⟩ := h.typ
    obtain ⟨om, hm, hm'⟩ := h.mkfs
    obtain ⟨mo, hmo'⟩ := h.mounted
    obtain ⟨re, hre'⟩ := h.resize
    have e0 := (hdev (some dev)).2 hdv
    have e1 : (consumeString (decode kf) g c!"type").getD c!"raw" = s.typ := by rw [(htyp _).2 ht, ht']
    have e2 := (hbn _).2 h.bootname
    have e3 := (hpa _).2 h.parent
    have e4 := (hmk _).2 hm
    have v1 := (validType_iff _).2 h.typKnown
    have v2 := (deviceOk_iff v1).2 h.emmcDevice
    have v3 : Config.mkfsOk (slotEnv E boot) om = true := by
      cases om with
      | none => rfl
      | some v => exact hm' v rfl
    have v4 : ¬ (s.bootname.getD []).any isSpace = true := by
      cases hb : s.bootname with
      | none => simp
      | some b =>
        simp only [Option.getD_some, List.any_eq_true, not_exists, not_and, Bool.not_eq_true]
        exact h.bootnameNoSpace b hb
    have v5 : (if Config.hasRegion s.typ = true then Config.sizeKey (decode kf) g c!"region-start" else some 0) = some s.regionStart := by
      by_cases hr : Region s.typ
      · rw [if_pos ((region_iff _).2 hr)]; exact (hrs _).2 (h.regionStart.1 hr)
      · rw [if_neg (fun h => hr ((region_iff _).1 h)), h.regionStart.2 hr]
    have v6 : (if Config.hasRegion s.typ = true then Config.sizeKey (decode kf) g c!"region-size" else some 0) = some s.regionSize := by
      by_cases hr : Region s.typ
      · rw [if_pos ((region_iff _).2 hr)]; exact (hrz _).2 (h.regionSize.1 hr)
      · rw [if_neg (fun h => hr ((region_iff _).1 h)), h.regionSize.2 hr]
    have v7 : (if s.typ = c!"boot-emmc" then Config.optSizeKey (decode kf) g c!"size-limit" else some 0) = some s.sizeLimit := by
      by_cases hr : s.typ = c!"boot-emmc"
      · rw [if_pos hr]; exact (hli _).2 (h.sizeLimit.1 hr)
      · rw [if_neg hr, h.sizeLimit.2 hr]
    have v8 : (if (slotEnv E boot).efi = true then consumeString (decode kf) g c!"efi-loader" else none) = s.efiLoader := by
      by_cases he : boot = some c!"efi"
      · simp only [slotEnv, he, decide_true, if_true]; exact (hel _).2 (h.efiLoader.1 he)
      · simp only [slotEnv, he, decide_false, Bool.false_eq_true, if_false]; exact (h.efiLoader.2 he).symm
    have v9 : (if (slotEnv E boot).efi = true then consumeString (decode kf) g c!"efi-cmdline" else none) = s.efiCmdline := by
      by_cases he : boot = some c!"efi"
      · simp only [slotEnv, he, decide_true, if_true]; exact (hec _).2 (h.efiCmdline.1 he)
      · simp only [slotEnv, he, decide_false, Bool.false_eq_true, if_false]; exact (h.efiCmdline.2 he).symm
    have v10 : (((decode kf).group g).getD []).all (fun p => (Config.knownKeys s.typ (slotEnv E boot).efi).contains p.1) = true := by
      rw [hgrp, List.all_eq_true]
      refine (slot_keys_decode (p := fun k => (Config.knownKeys s.typ (slotEnv E boot).efi).contains k = true)).2 ?_
      intro k raw hm
      refine knownKeys_iff.2 ?_
      simpa only [slotEnv, decide_eq_true_eq] using h.keys k raw hm
    have hdv2 : (slotEnv E boot).resolve dev = s.device := hdv'.symm
    subst hc
    unfold Config.parseSlot
    simp only [hsp, e0, e1, e2, e3, e4, v1, v3, v4, v5, v6, v7, v8, v9, v10, hdv2, v2, (hmo _).2 hmo', (hro _).2 h.readonly,
      (hsa _).2 h.installSame, (hre _).2 hre', Bool.not_true, Bool.false_eq_true, if_false, if_true, ← hn]

theorem mapAll_iff {α β : Type} {f : α → Option β} {l : List α} {r : List β} :
    mapAll f l = some r ↔ List.Forall₂ (fun a b => f a = some b) l r := by
  induction l generalizing r with
  | nil =>
    simp only [mapAll, Option.some.injEq]
    constructor
    · rintro rfl; exact .nil
    · rintro ⟨⟩; rfl
  | cons a l ih =>
    simp only [mapAll]
    cases ha : f a with
    | none =>
      constructor
      · intro h; cases h
      · rintro (_ | ⟨h, -⟩); rw [ha] at h; cases h
    | some b =>
      cases hl : mapAll f l with
      | none =>
        constructor
        · intro h; cases h
        · rintro (_ | ⟨h, h'⟩); rw [← ih, hl] at h'; cases h'
      | some r' =>
        simp only [Option.some.injEq]
        constructor
        · rintro rfl; exact .cons ha (ih.1 hl)
        · rintro (_ | ⟨h, h'⟩)
          rw [ha] at h
          rw [← ih, hl] at h'
          cases h; cases h'; rfl

theorem stripPrefix_iff {p s r : Str} : stripPrefix p s = some r ↔ s = p ++ r := by
  induction p generalizing s with
  | nil => simp [stripPrefix]
  | cons c p ih =>
    cases s with
    | nil => simp [stripPrefix]
    | cons d s =>
      simp only [stripPrefix, List.cons_append, List.cons.injEq]
      by_cases h : c = d
      · simp [h, ih]
      · simp [h, Ne.symm h]

theorem section_iff {α : Type} {kf : KeyFile} {g : Str} {dflt r : α} {parse : Kvs → Option α} {spec : Kvs → α → Prop}
    (h : ∀ kvs, parse kvs = some r ↔ spec kvs r) : section' kf g dflt parse = some r ↔ Section kf g dflt spec r := by
  unfold section' Section
  cases kf.group g with
  | none => simp [eq_comm]
  | some kvs => simp [h]

theorem loggers_iff {E : Env} {d : Option Str} {kf : KeyFile} {r : List Logger} :
    mapAll (fun g => parseLogger E d g.1 g.2) (loggerGroups kf) = some r ↔
      List.Forall₂ (fun g r => ∃ n, g.1 = c!"log." ++ n ∧ LoggerSpec E d n g.2 r) (kf.filter (fun g => (c!"log.").isPrefixOf g.1)) r := by
  rw [mapAll_iff]
  unfold loggerGroups
  induction kf generalizing r with
  | nil => simp
  | cons g kf ih =>
    simp only [List.filterMap_cons]
    cases hs : stripPrefix c!"log." g.1 with
    | none =>
      have : ((c!"log.").isPrefixOf g.1) = false := by
        rw [← Bool.not_eq_true, List.isPrefixOf_iff_prefix]
        rintro ⟨t, ht⟩
        rw [(stripPrefix_iff (r := t)).2 ht.symm] at hs
        cases hs
      rw [List.filter_cons, this]
      simpa using ih
    | some n =>
      have hn := stripPrefix_iff.1 hs
      have : ((c!"log.").isPrefixOf g.1) = true := List.isPrefixOf_iff_prefix.2 ⟨n, hn.symm⟩
      rw [List.filter_cons, this]
      simp only [Option.map_some, if_true]
      constructor
      · rintro (_ | ⟨h1, h2⟩)
        exact .cons ⟨n, hn, parseLogger_iff.1 h1⟩ (ih.1 h2)
      · rintro (_ | ⟨⟨n', hn', h1⟩, h2⟩)
        rw [hn] at hn'
        have := List.append_cancel_left hn'
        subst this
        exact .cons (parseLogger_iff.2 h1) (ih.2 h2)

theorem under_iff {first g : Str} : ((split '.' g).head? == some first) = decide (Under first g) := by
  unfold Under
  by_cases h : (split '.' g).head? = some first <;> simp [h]

theorem repos_iff {E : Env} {kf : KeyFile} {r : List Repo} :
    mapAll (parseRepo E) (kf.filter (fun g => isArtifactsGroup g.1)) = some r ↔
      List.Forall₂ (fun g r => RepoSpec E g.1 g.2 r) (kf.filter (fun g => decide (Under c!"artifacts" g.1))) r := by
  rw [mapAll_iff]
  have e : (fun g : Str × Kvs => isArtifactsGroup g.1) = fun g => decide (Under c!"artifacts" g.1) := by
    funext g
    exact under_iff
  rw [e]
  have hall : ∀ g ∈ kf.filter (fun g => decide (Under c!"artifacts" g.1)), isArtifactsGroup g.1 = true := by
    intro g hg
    exact under_iff.trans (List.mem_filter.1 hg).2
  generalize kf.filter (fun g => decide (Under c!"artifacts" g.1)) = l at hall
  induction l generalizing r with
  | nil => constructor <;> (rintro ⟨⟩; exact .nil)
  | cons g l ih =>
    have hg := hall g (by simp)
    have ih := fun {r} => ih (r := r) (fun g hg => hall g (by simp [hg]))
    constructor
    · rintro (_ | ⟨h1, h2⟩); exact .cons ((parseRepo_iff hg).1 h1) (ih.1 h2)
    · rintro (_ | ⟨h1, h2⟩); exact .cons ((parseRepo_iff hg).2 h1) (ih.2 h2)

theorem parseAll_iff {E : Config.Env} {kf : KeyFile} : ∀ {gs l}, Config.parseAll E kf gs = some l ↔
    List.Forall₂ (fun g s => Config.parseSlot E kf g = some s) gs l := by
  intro gs
  induction gs with
  | nil =>
    intro l
    simp only [Config.parseAll, Option.some.injEq]
    constructor
    · rintro rfl; exact .nil
    · rintro ⟨⟩; rfl
  | cons g gs ih =>
    intro l
    refine ⟨Config.parseAll_spec, ?_⟩
    rintro (_ | ⟨h1, h2⟩)
    simp only [Config.parseAll, h1, ih.2 h2]

theorem group_of_mem {kf : KeyFile} (hn : kf.GroupsNodup) {g : Str} {kvs : Kvs} (hm : (g, kvs) ∈ kf) : kf.group g = some kvs := by
  unfold KeyFile.GroupsNodup KeyFile.groups at hn
  unfold KeyFile.group
  induction kf with
  | nil => cases hm
  | cons p ps ih =>
    simp only [List.map_cons, List.nodup_cons] at hn
    rcases List.mem_cons.1 hm with rfl | hm
    · simp
    · have hne : p.1 ≠ g := by
        rintro rfl
        exact hn.1 (List.mem_map.2 ⟨_, hm, rfl⟩)
      rw [List.find?_cons]
      have : (p.1 == g) = false := by rw [beq_eq_false_iff_ne]; exact hne
      rw [this]
      exact ih hn.2 hm

theorem slotKey_cases {efi : Prop} {typ k : Str} (h : SlotKey efi typ k) : slotFlagKeys.contains k = true ∨ k ∈ slotTextKeys := by
  unfold SlotKey at h
  simp only [List.mem_cons, List.not_mem_nil, or_false] at h
  rcases h with (rfl | rfl | rfl | rfl | rfl | rfl | rfl | rfl | rfl | rfl | rfl | rfl | rfl) | ⟨-, rfl | rfl⟩ | ⟨-, rfl⟩ | ⟨-, rfl | rfl⟩ <;> decide

theorem textKey_notFlag : ∀ k ∈ slotTextKeys, slotFlagKeys.contains k = false := by decide

theorem slotValuesOk_iff {kf : KeyFile} : slotValuesOk kf = true ↔
    ∀ g kvs, (g, kvs) ∈ kf → Under c!"slot" g → ∀ k raw, (k, raw) ∈ kvs → slotFlagKeys.contains k = true ∨ ∃ v, unescape raw = some v := by
  unfold slotValuesOk
  simp only [List.all_eq_true, Bool.or_eq_true, Bool.not_eq_true', Option.isSome_iff_exists]
  have e : ∀ g, Config.isSlotGroup g = false ↔ ¬ Under c!"slot" g := by
    intro g
    have : Config.isSlotGroup g = decide (Under c!"slot" g) := under_iff
    rw [this, decide_eq_false_iff_not]
  constructor
  · intro h g kvs hm hu k raw hkv
    rcases h (g, kvs) hm with h | h
    · exact absurd hu ((e g).1 h)
    · exact h (k, raw) hkv
  · rintro h ⟨g, kvs⟩ hm
    by_cases hu : Under c!"slot" g
    · exact Or.inr (fun kv hkv => h g kvs hm hu kv.1 kv.2 hkv)
    · exact Or.inl ((e g).2 hu)

theorem slots_iff {E : Env} {boot : Option Str} {kf : KeyFile} (hn : kf.GroupsNodup) {parsed : List Slot} :
    (slotValuesOk kf = true ∧ Config.parseSlots (slotEnv E boot) (decode kf) = some parsed) ↔
      List.Forall₂ (fun g s => SlotSpec E (boot = some c!"efi") g.1 g.2 s) (kf.filter (fun g => decide (Under c!"slot" g.1))) parsed := by
  unfold Config.parseSlots
  rw [parseAll_iff]
  have e : (decode kf).groups.filter Config.isSlotGroup = (kf.filter (fun g => decide (Under c!"slot" g.1))).map Prod.fst := by
    have : (decode kf).groups = kf.map Prod.fst := by
      unfold decode KeyFile.groups
      rw [List.map_map]
      rfl
    rw [this, List.filter_map]
    congr 1
    apply List.filter_congr
    intro g _
    exact under_iff
  rw [e, List.forall₂_map_left_iff]
  have hmem : ∀ g ∈ kf.filter (fun g => decide (Under c!"slot" g.1)), g ∈ kf ∧ Under c!"slot" g.1 := by
    intro g hg
    have := List.mem_filter.1 hg
    exact ⟨this.1, of_decide_eq_true this.2⟩
  constructor
  · rintro ⟨hv, h⟩
    rw [slotValuesOk_iff] at hv
    have hmem' := hmem
    generalize kf.filter (fun g => decide (Under c!"slot" g.1)) = l at h hmem
    clear hmem'
    induction h with
    | nil => exact .nil
    | @cons g s l r h1 _ ih =>
      obtain ⟨hm, hu⟩ := hmem g (by simp)
      refine .cons ?_ (ih (fun g hg => hmem g (by simp [hg])))
      refine (parseSlot_iff (group_of_mem hn hm) (under_iff.trans (decide_eq_true hu)) ?_).1 h1
      intro k raw hkv hk
      rcases hv g.1 g.2 hm hu k raw hkv with h | h
      · rw [textKey_notFlag k hk] at h; cases h
      · exact h
  · intro h
    refine ⟨?_, ?_⟩
    · rw [slotValuesOk_iff]
      intro g kvs hm hu k raw hkv
      have hin : (g, kvs) ∈ kf.filter (fun g => decide (Under c!"slot" g.1)) := List.mem_filter.2 ⟨hm, decide_eq_true hu⟩
      clear hmem
      generalize kf.filter (fun g => decide (Under c!"slot" g.1)) = l at h hin
      induction h with
      | nil => cases hin
      | @cons g' s l r h1 _ ih =>
        rcases List.mem_cons.1 hin with e | hin
        · subst e
          rcases slotKey_cases (h1.keys k raw hkv) with h | h
          · exact Or.inl h
          · exact Or.inr (h1.decodable k raw hkv h)
        · exact ih hin
    · generalize kf.filter (fun g => decide (Under c!"slot" g.1)) = l at h hmem
      induction h with
      | nil => exact .nil
      | @cons g s l r h1 _ ih =>
        obtain ⟨hm, hu⟩ := hmem g (by simp)
        refine .cons ?_ (ih (fun g hg => hmem g (by simp [hg])))
        exact (parseSlot_iff (group_of_mem hn hm) (under_iff.trans (decide_eq_true hu)) h1.decodable).2 h1

theorem groups_iff {kf : KeyFile} : kf.groups.all groupKnown = true ↔ ∀ g ∈ kf.groups,
    g ∈ [c!"system", c!"keyring", c!"casync", c!"streaming", c!"polling", c!"encryption", c!"autoinstall", c!"handlers"] ∨
    (∃ n, g = c!"log." ++ n) ∨ Under c!"slot" g ∨ Under c!"artifacts" g := by
  rw [List.all_eq_true]
  refine forall_congr' fun g => imp_congr_right fun _ => ?_
  have e1 : Config.isSlotGroup g = decide (Under c!"slot" g) := under_iff
  have e2 : isArtifactsGroup g = decide (Under c!"artifacts" g) := under_iff
  unfold groupKnown
  rw [e1, e2]
  simp only [Bool.or_eq_true, List.contains_eq_mem, decide_eq_true_eq, Option.isSome_iff_exists, stripPrefix_iff, or_assoc]
  rfl

/-- A configuration text is accepted exactly if it has the documented form, with the documented meaning. -/
theorem parseConfig_iff {E : Env} (hE : JoinOk E) {kf : KeyFile} (hn : kf.GroupsNodup) {c : Cfg} :
    parseConfig E kf = some c ↔ ParseSpec E kf c := by
  have hpoll : ∀ (r : Option Polling) kvs, (parsePolling E kvs).map some = some r ↔ ∃ p, r = some p ∧ PollingSpec E kvs p := by
    intro r kvs
    rw [Option.map_eq_some_iff]
    constructor
    · rintro ⟨p, hp, rfl⟩; exact ⟨p, rfl, parsePolling_iff.1 hp⟩
    · rintro ⟨p, rfl, hp⟩; exact ⟨p, parsePolling_iff.2 hp, rfl⟩
  have hhand : ∀ (b : Option Str) (r : HandlerPaths) kvs, parseHandlers E (decide (b = some c!"custom")) kvs = some r ↔
      HandlersSpec E (b = some c!"custom") kvs r := by
    intro b r kvs
    rw [parseHandlers_iff, decide_eq_true_eq]
  constructor
  · intro h
    unfold parseConfig at h
    obtain ⟨sk, h1, h⟩ := bindInv h
    obtain ⟨sy, h2, h⟩ := bindInv h
    obtain ⟨kr, h3, h⟩ := bindInv h
    obtain ⟨ca, h4, h⟩ := bindInv h
    obtain ⟨st, h5, h⟩ := bindInv h
    obtain ⟨po, h6, h⟩ := bindInv h
    obtain ⟨en, h7, h⟩ := bindInv h
    obtain ⟨au, h8, h⟩ := bindInv h
    obtain ⟨ha, h9, h⟩ := bindInv h
    obtain ⟨lo, h10, h⟩ := bindInv h
    obtain ⟨_, h11, h⟩ := bindInv h
    obtain ⟨pa, h12, h⟩ := bindInv h
    obtain ⟨sl, h13, h⟩ := bindInv h
    obtain ⟨re, h14, h⟩ := bindInv h
    obtain ⟨_, h15, h⟩ := bindInv h
    cases h
    exact {
      groups := groups_iff.1 (check_iff.1 h15)
      system := ⟨sk, h1, (parseSystem_iff hE).1 h2⟩
      keyring := (section_iff (fun _ => parseKeyring_iff)).1 h3
      casync := (section_iff (fun _ => parseCasync_iff)).1 h4
      streaming := (section_iff (fun _ => parseStreaming_iff)).1 h5
      polling := (section_iff (hpoll po)).1 h6
      encryption := (section_iff (fun _ => parseEncryption_iff)).1 h7
      autoinstall := (section_iff (fun _ => parseAutoinstall_iff)).1 h8
      handlers := (section_iff (hhand sy.bootloader ha)).1 h9
      loggers := loggers_iff.1 h10
      slots := ⟨pa, (slots_iff hn).1 ⟨check_iff.1 h11, h12⟩, h13⟩
      repos := repos_iff.1 h14 }
  · intro h
    obtain ⟨sk, h1, h2⟩ := h.system
    obtain ⟨pa, h3, h4⟩ := h.slots
    obtain ⟨h3, h3'⟩ := (slots_iff hn).2 h3
    unfold parseConfig
    refine bindMk h1 ?_
    refine bindMk ((parseSystem_iff hE).2 h2) ?_
    refine bindMk ((section_iff (fun _ => parseKeyring_iff)).2 h.keyring) ?_
    refine bindMk ((section_iff (fun _ => parseCasync_iff)).2 h.casync) ?_
    refine bindMk ((section_iff (fun _ => parseStreaming_iff)).2 h.streaming) ?_
    refine bindMk ((section_iff (hpoll c.polling)).2 h.polling) ?_
    refine bindMk ((section_iff (fun _ => parseEncryption_iff)).2 h.encryption) ?_
    refine bindMk ((section_iff (fun _ => parseAutoinstall_iff)).2 h.autoinstall) ?_
    refine bindMk ((section_iff (hhand c.system.bootloader c.handlers)).2 h.handlers) ?_
    refine bindMk (loggers_iff.2 h.loggers) ?_
    refine bindMk (b := ()) (check_iff.2 h3) ?_
    refine bindMk h3' (bindMk h4 (bindMk (repos_iff.2 h.repos) ?_))
    exact bindMk (b := ()) (check_iff.2 (groups_iff.2 h.groups)) rfl

theorem noDup_iff : ∀ {slots : List Slot} {seen}, Config.noDuplicateBootnames seen slots = true ↔
    (∀ s ∈ slots, ∀ b, s.bootname = some b → b ∉ seen) ∧
    slots.Pairwise (fun s t => ∀ b, s.bootname = some b → t.bootname ≠ some b) := by
  intro slots
  induction slots with
  | nil => simp [Config.noDuplicateBootnames]
  | cons s ss ih =>
    intro seen
    refine ⟨Config.noDup_spec, ?_⟩
    rintro ⟨h1, h2⟩
    rw [List.pairwise_cons] at h2
    simp only [Config.noDuplicateBootnames]
    cases hb : s.bootname with
    | none => exact ih.2 ⟨fun t ht => h1 t (by simp [ht]), h2.2⟩
    | some b =>
      simp only [Bool.and_eq_true, Bool.not_eq_true', List.contains_eq_mem, decide_eq_false_iff_not]
      refine ⟨h1 s (by simp) b hb, ih.2 ⟨?_, h2.2⟩⟩
      intro t ht b' hb' hm
      rcases List.mem_cons.1 hm with rfl | hm
      · exact h2.1 t ht b' hb hb'
      · exact h1 t (by simp [ht]) b' hb' hm

theorem target_iff {s : System} : targetOk s = true ↔ s.compatible ≠ none ∧
    (∃ b ∈ [c!"barebox", c!"grub", c!"uboot", c!"efi", c!"custom", c!"noop"], s.bootloader = some b) ∧
    (0 < s.attempts ∨ 0 < s.attemptsPrimary → s.bootloader = some c!"uboot" ∨ s.bootloader = some c!"barebox") := by
  unfold targetOk
  rw [Bool.and_eq_true, ← Option.isSome_iff_ne_none]
  refine and_congr Iff.rfl ?_
  cases hb : s.bootloader with
  | none => simp
  | some b =>
    simp only [Bool.and_eq_true, Bool.or_eq_true, Bool.not_eq_true', decide_eq_false_iff_not, beq_iff_eq, List.contains_eq_mem,
      decide_eq_true_eq, Option.some.injEq, exists_eq_right', bootloaders]
    refine and_congr Iff.rfl ?_
    by_cases hp : 0 < s.attempts ∨ 0 < s.attemptsPrimary <;> simp [hp]

theorem groupsNodup_set {kf : KeyFile} (hn : kf.GroupsNodup) (g k v : Str) : (kf.set g k v).GroupsNodup := by
  have key : ∀ kf : KeyFile, (kf.set g k v).groups = if g ∈ kf.groups then kf.groups else kf.groups ++ [g] := by
    intro kf
    unfold KeyFile.groups
    induction kf with
    | nil => simp [KeyFile.set]
    | cons p ps ih =>
      simp only [KeyFile.set]
      by_cases h : p.1 = g
      · simp [h]
      · rw [if_neg h]
        simp only [List.map_cons, ih, List.mem_cons, Ne.symm h, false_or]
        split <;> simp
  unfold KeyFile.GroupsNodup at hn ⊢
  rw [key]
  split
  · exact hn
  · rename_i h
    refine List.nodup_append.2 ⟨hn, by simp, ?_⟩
    rintro a ha b hb rfl
    simp only [List.mem_singleton] at hb
    exact h (hb ▸ ha)

theorem groupsNodup_override {kf : KeyFile} (hn : kf.GroupsNodup) (ovs : List (Str × Str × Str)) : (override kf ovs).GroupsNodup := by
  unfold override
  induction ovs generalizing kf with
  | nil => exact hn
  | cons o ovs ih => exact ih (groupsNodup_set hn _ _ _)

/-! ## Theorems -/

/-- Loading accepts exactly the documented configurations, and every setting is the documented function of the file and the overrides. -/
theorem C59_exact {E : Env} (hE : JoinOk E) {kf : KeyFile} (hn : kf.GroupsNodup) {ovs : List (Str × Str × Str)} {c : Cfg} :
    loadConfig E ovs kf = some c ↔ LoadSpec E (override kf ovs) c := by
  have hp := fun c => parseConfig_iff hE (groupsNodup_override hn ovs) (c := c)
  constructor
  · intro h
    unfold loadConfig at h
    obtain ⟨c', h1, h⟩ := bindInv h
    obtain ⟨_, h2, h⟩ := bindInv h
    obtain ⟨_, h3, h⟩ := bindInv h
    obtain ⟨_, h4, h⟩ := bindInv h
    cases h
    obtain ⟨t1, t2, t3⟩ := target_iff.1 (check_iff.1 h4)
    refine { (hp c).1 h1 with bootnames := (noDup_iff.1 (check_iff.1 h2)).2, classes := ?_, compatible := t1, bootloader := t2, attempts := t3 }
    intro s hs r hr e
    have := List.all_eq_true.1 (check_iff.1 h3) s hs
    simp only [Bool.not_eq_true', List.contains_eq_mem, decide_eq_false_iff_not] at this
    exact this (e ▸ List.mem_map_of_mem hr)
  · intro h
    unfold loadConfig
    refine bindMk ((hp c).2 h.toParseSpec) ?_
    refine bindMk (b := ()) (check_iff.2 (noDup_iff.2 ⟨by simp, h.bootnames⟩)) ?_
    refine bindMk (b := ()) (check_iff.2 (List.all_eq_true.2 ?_)) ?_
    · intro s hs
      simp only [Bool.not_eq_true', List.contains_eq_mem, decide_eq_false_iff_not]
      intro hm
      obtain ⟨r, hr, e⟩ := List.mem_map.1 hm
      exact h.classes s hs r hr e.symm
    · exact bindMk (b := ()) (check_iff.2 (target_iff.2 ⟨h.compatible, h.bootloader, h.attempts⟩)) rfl

/-- all options of docs/reference.rst (and the two deprecated spellings of `install-same`), by section -/
inductive DocKey : Str → Str → Prop where
  | system {k} : k ∈ systemKeys ++ [c!"grubenv", c!"barebox-statename", c!"barebox-dtbpath", c!"efi-use-bootnext"] → DocKey c!"system" k
  | keyring {k} : k ∈ [c!"path", c!"directory", c!"use-bundle-signing-time", c!"allow-partial-chain", c!"allowed-signer-cns", c!"check-crl",
      c!"check-purpose"] → DocKey c!"keyring" k
  | casync {k} : k ∈ [c!"install-args", c!"storepath", c!"tmppath", c!"use-desync"] → DocKey c!"casync" k
  | streaming {k} : k ∈ [c!"sandbox-user", c!"tls-cert", c!"tls-key", c!"tls-ca", c!"send-headers"] → DocKey c!"streaming" k
  | polling {k} : k ∈ [c!"url", c!"inhibit-files", c!"candidate-criteria", c!"install-criteria", c!"reboot-criteria", c!"interval-sec",
      c!"max-interval-sec", c!"reboot-cmd"] → DocKey c!"polling" k
  | encryption {k} : k ∈ [c!"key", c!"cert"] → DocKey c!"encryption" k
  | autoinstall : DocKey c!"autoinstall" c!"path"
  | handlers {k} : k ∈ [c!"system-info", c!"pre-install", c!"post-install", c!"bootloader-custom-backend"] → DocKey c!"handlers" k
  | log {n k} : k ∈ [c!"filename", c!"format", c!"events", c!"max-size", c!"max-files"] → DocKey (c!"log." ++ n) k
  | slot {cls idx g k typ} {efi : Prop} : split '.' g = [c!"slot", cls, idx] → SlotKey efi typ k → DocKey g k
  | artifacts {n g k} : split '.' g = [c!"artifacts", n] → k ∈ [c!"description", c!"path", c!"type", c!"parent-class"] → DocKey g k

theorem forall₂_left {α β : Type} {R : α → β → Prop} {l : List α} {r : List β} (h : List.Forall₂ R l r) {a : α} (ha : a ∈ l) : ∃ b ∈ r, R a b := by
  induction h with
  | nil => cases ha
  | @cons x y l r h1 _ ih =>
    rcases List.mem_cons.1 ha with rfl | ha
    · exact ⟨y, by simp, h1⟩
    · obtain ⟨b, hb, h⟩ := ih ha
      exact ⟨b, by simp [hb], h⟩

theorem section_keys {α : Type} {kf : KeyFile} {g : Str} {dflt r : α} {spec : Kvs → α → Prop} (h : Section kf g dflt spec r)
    {kvs : Kvs} (hg : kf.group g = some kvs) : spec kvs r := by
  rcases h with ⟨h, -⟩ | ⟨kvs', h, hs⟩
  · rw [hg] at h; cases h
  · rw [hg] at h; cases h; exact hs

/-- No misspelt or misplaced option is silently ignored: a configuration with an option that is not documented for its section does not load. -/
theorem C59_no_unknown_option {E : Env} (hE : JoinOk E) {kf : KeyFile} (hn : kf.GroupsNodup) {ovs : List (Str × Str × Str)} {c : Cfg}
    (h : loadConfig E ovs kf = some c) {g : Str} {kvs : Kvs} (hg : (g, kvs) ∈ override kf ovs) {k raw : Str} (hk : (k, raw) ∈ kvs) :
    DocKey g k := by
  have h := (C59_exact hE hn).1 h
  have hgr := group_of_mem (groupsNodup_override hn ovs) hg
  have hmem : g ∈ (override kf ovs).groups := List.mem_map.2 ⟨_, hg, rfl⟩
  rcases h.groups g hmem with h1 | ⟨n, rfl⟩ | h1 | h1
  · simp only [List.mem_cons, List.not_mem_nil, or_false] at h1
    rcases h1 with rfl | rfl | rfl | rfl | rfl | rfl | rfl | rfl
    · obtain ⟨kvs', e, hs⟩ := h.system
      rw [hgr] at e; cases e
      refine .system ?_
      have := hs.keys k raw hk
      rw [List.mem_append] at this ⊢
      refine this.imp id ?_
      unfold bootloaderKeys
      intro hm
      split at hm
      · simp only [List.mem_singleton] at hm; subst hm; decide
      · split at hm
        · simp only [List.mem_cons, List.not_mem_nil, or_false] at hm
          rcases hm with rfl | rfl <;> decide
        · split at hm
          · simp only [List.mem_singleton] at hm; subst hm; decide
          · cases hm
    · exact .keyring ((section_keys h.keyring hgr).keys k raw hk)
    · exact .casync ((section_keys h.casync hgr).keys k raw hk)
    · exact .streaming ((section_keys h.streaming hgr).keys k raw hk)
    · obtain ⟨p, -, hp⟩ := section_keys h.polling hgr
      exact .polling (hp.keys k raw hk)
    · exact .encryption ((section_keys h.encryption hgr).keys k raw hk)
    · have := (section_keys h.autoinstall hgr).keys k raw hk
      rw [List.mem_singleton] at this
      subst this
      exact .autoinstall
    · exact .handlers ((section_keys h.handlers hgr).keys k raw hk)
  · obtain ⟨r, -, n', -, hr⟩ := forall₂_left h.loggers (a := (c!"log." ++ n, kvs))
      (List.mem_filter.2 ⟨hg, List.isPrefixOf_iff_prefix.2 ⟨n, rfl⟩⟩)
    exact .log (hr.keys k raw hk)
  · obtain ⟨parsed, hs, -⟩ := h.slots
    obtain ⟨s, -, hr⟩ := forall₂_left hs (a := (g, kvs)) (List.mem_filter.2 ⟨hg, decide_eq_true h1⟩)
    obtain ⟨cls, idx, he, -⟩ := hr.name
    exact .slot he (hr.keys k raw hk)
  · obtain ⟨r, -, hr⟩ := forall₂_left h.repos (a := (g, kvs)) (List.mem_filter.2 ⟨hg, decide_eq_true h1⟩)
    exact .artifacts hr.name (hr.keys k raw hk)

/-- The options of the keyring that control verification are on or off as written: `true`/`1` or `false`/`0` (default: off), any other text
prevents loading. -/
theorem C59_keyring_flags {E : Env} (hE : JoinOk E) {kf : KeyFile} (hn : kf.GroupsNodup) {c : Cfg} (h : loadConfig E [] kf = some c)
    {k : Str} {b : Bool} (hk : (k, b) ∈ [(c!"check-crl", c.keyring.checkCrl), (c!"allow-partial-chain", c.keyring.partialChain),
      (c!"use-bundle-signing-time", c.keyring.signingTime)]) :
    (b = true ↔ ∃ raw, kf.get c!"keyring" k = some raw ∧ (chomp raw = c!"true" ∨ chomp raw = c!"1")) ∧
    ∀ raw, kf.get c!"keyring" k = some raw → chomp raw ∈ [c!"true", c!"1", c!"false", c!"0"] := by
  have h : LoadSpec E kf c := (C59_exact hE hn).1 h
  have key : (kf.group c!"keyring" = none ∧ b = false) ∨ ∃ kvs, kf.group c!"keyring" = some kvs ∧ Flag kvs k false b := by
    rcases h.keyring with ⟨h1, h2⟩ | ⟨kvs, h1, h2⟩
    · left
      rw [h2] at hk
      simp only [List.mem_cons, Prod.mk.injEq, List.not_mem_nil, or_false] at hk
      rcases hk with ⟨-, rfl⟩ | ⟨-, rfl⟩ | ⟨-, rfl⟩ <;> exact ⟨h1, rfl⟩
    · right
      refine ⟨kvs, h1, ?_⟩
      simp only [List.mem_cons, Prod.mk.injEq, List.not_mem_nil, or_false] at hk
      rcases hk with ⟨rfl, rfl⟩ | ⟨rfl, rfl⟩ | ⟨rfl, rfl⟩
      · exact h2.checkCrl
      · exact h2.partialChain
      · exact h2.signingTime
  unfold KeyFile.get
  rcases key with ⟨h1, rfl⟩ | ⟨kvs, h1, hf⟩
  · simp [h1]
  · rw [h1]
    simp only [Option.bind_some]
    rcases hf with ⟨ha, rfl⟩ | ⟨raw, hr, hv⟩
    · unfold Absent at ha
      simp [ha]
    · rw [hr]
      simp only [Option.some.injEq, exists_eq_left', forall_eq']
      rcases hv with ⟨rfl, hv⟩ | ⟨rfl, hv⟩
      · simp only [hv, true_iff, true_and]
        rcases hv with hv | hv <;> rw [hv] <;> decide
      · have : ¬ (chomp raw = c!"true" ∨ chomp raw = c!"1") := by rcases hv with hv | hv <;> rw [hv] <;> decide
        simp only [Bool.false_eq_true, this, true_and]
        rcases hv with hv | hv <;> rw [hv] <;> decide

/-- Limits and modes of an accepted configuration are usable: a signature limit, at least one bundle format, a boot loader with its
mandatory settings, and boot attempts only where they are supported. -/
theorem C59_usable {E : Env} (hE : JoinOk E) (hres : ∀ p, E.resolve p ≠ c!"per-slot") {kf : KeyFile} (hn : kf.GroupsNodup) {ovs : List (Str × Str × Str)} {c : Cfg}
    (h : loadConfig E ovs kf = some c) :
    0 < c.system.maxSignature ∧ 0 < c.system.maxDownload ∧ 0 ≤ c.system.attempts ∧ 0 ≤ c.system.attemptsPrimary ∧
    (∃ f, c.system.formats.has f = true) ∧
    (c.system.bootloader = some c!"custom" → c.system.customBackend ≠ none) ∧
    (c.system.bootloader = some c!"grub" → c.system.grubenv ≠ none) ∧
    (c.system.dataDir ≠ none → c.system.statusFile ≠ c!"per-slot") := by
  have h := (C59_exact hE hn).1 h
  obtain ⟨kvs, -, hs⟩ := h.system
  refine ⟨Nat.pos_of_ne_zero hs.maxSignature.2, Nat.pos_of_ne_zero hs.maxDownload.2, hs.attempts.2, hs.attemptsPrimary.2, ?_, ?_, ?_, ?_⟩
  · obtain ⟨o, -, hf⟩ := hs.formats
    cases o with
    | none => rw [← Option.some.inj hf]; exact ⟨.plain, by decide⟩
    | some v =>
      unfold formatsOf at hf
      simp only [] at hf
      rw [Option.ite_none_right_eq_some] at hf
      obtain ⟨h1, h2⟩ := hf
      rw [← Option.some.inj h2]
      have hx := (Config.mask_ne_zero (Config.parseBundleFormats ⟨true, true, true⟩ v).2).1
      refine hx ?_
      unfold Config.parseBundleFormats at h1 ⊢
      split at h1
      · cases h1
      · split at h1
        · cases h1
        · rename_i hset
          rw [if_neg hset]
          split at h1
          · cases h1
          · rename_i hz
            rw [if_neg hz]
            exact hz
  · intro hb
    have := hs.custom
    rw [if_pos hb] at this
    obtain ⟨p, -, e⟩ := this
    simp [e]
  · intro hb
    have := hs.grubenv
    rw [if_pos hb] at this
    obtain ⟨o, -, e⟩ := this
    simp [e]
  · intro hd
    have hst := hs.status
    generalize c.system.dataDir = d at hd hst
    generalize c.system.statusFile = f at hst ⊢
    cases hst with
    | perSlot => exact absurd rfl hd
    | central => exact absurd rfl hd
    | both => exact hres _
    | dir => exact hres _

/-- An override on the command line replaces the value in the file. -/
theorem C59_override_wins (kf : KeyFile) (ovs : List (Str × Str × Str)) (g k v : Str) :
    (override kf (ovs ++ [(g, k, v)])).get g k = some v ∧
    ∀ g' k', (g', k') ≠ (g, k) → (override kf (ovs ++ [(g, k, v)])).get g' k' = (override kf ovs).get g' k' := by
  unfold override
  rw [List.foldl_append]
  simp only [List.foldl_cons, List.foldl_nil]
  refine ⟨by rw [KeyFile.get_set]; simp, ?_⟩
  intro g' k' hne
  rw [KeyFile.get_set]
  split
  · rename_i h
    exact absurd (Prod.ext h.1 h.2) hne
  · rfl

/-- Finding: an option that is read with errors ignored and has no value (`path=` in [keyring]) is silently treated as missing, so the keyring
may be absent although it was configured. The same holds for `directory`, the [encryption] paths, handlers, [streaming] TLS options. -/
theorem C59_finding_empty_is_missing {E : Env} {kvs : Kvs} {r : Keyring} (h : parseKeyring E kvs = some r) (he : Empty kvs c!"path") :
    r.path = none := by
  obtain ⟨o, ho, e⟩ := (parseKeyring_iff.1 h).path
  cases o with
  | none => exact e
  | some v =>
    obtain ⟨raw, h1, h2⟩ := he
    obtain ⟨raw', h1', h2', h3⟩ := ho
    rw [h1] at h1'; cases h1'
    rw [h2] at h2'; cases h2'
    exact absurd rfl h3

/-! ### Examples -/

/-- a typical configuration -/
def exConf : KeyFile :=
  [(c!"system", [(c!"compatible", c!"Board"), (c!"bootloader", c!"uboot"), (c!"boot-attempts", c!"4"), (c!"data-directory", c!"/data"),
      (c!"bundle-formats", c!"-plain"), (c!"max-bundle-signature-size", c!"131072")]),
   (c!"keyring", [(c!"path", c!"/etc/rauc/ca.pem"), (c!"check-crl", c!"true"), (c!"allowed-signer-cns", c!"A;B")]),
   (c!"log.main", [(c!"filename", c!"events.log"), (c!"events", c!"install;mark"), (c!"max-size", c!"1M")]),
   (c!"slot.rootfs.0", [(c!"device", c!"/dev/a"), (c!"type", c!"ext4"), (c!"bootname", c!"A")]),
   (c!"slot.rootfs.1", [(c!"device", c!"/dev/b"), (c!"type", c!"ext4"), (c!"bootname", c!"B"), (c!"readonly", c!"false")]),
   (c!"artifacts.apps", [(c!"path", c!"/srv/apps"), (c!"type", c!"files")])]

example : JoinOk {} := by intro d; show d ++ '/' :: _ ≠ _; intro h; have := congrArg (fun l => decide ('/' ∈ l)) h; simp at this
example : exConf.GroupsNodup := by unfold KeyFile.GroupsNodup KeyFile.groups exConf; decide

set_option synthInstance.maxSize 1000 in
set_option synthInstance.maxHeartbeats 200000 in
example : ((loadConfig {} [] exConf).map fun c => (c.system.attempts, c.system.maxSignature, c.system.statusFile, c.keyring.checkCrl,
    c.keyring.signerCns, c.loggers.map (fun l => (l.filename, l.maxSize)))) =
    some (4, 131072, c!"/data/central.raucs", true, some [c!"A", c!"B"], [(c!"/data/events.log", 1048576)]) := by decide +kernel

/-- a misspelt option, a misplaced one, an invalid flag: not loaded -/
example : (loadConfig {} [(c!"keyring", c!"check_crl", c!"true")] exConf).isNone = true := by decide +kernel
example : (loadConfig {} [(c!"system", c!"grubenv", c!"/x")] exConf).isNone = true := by decide +kernel
example : (loadConfig {} [(c!"keyring", c!"check-crl", c!"yes")] exConf).isNone = true := by decide +kernel

/-- finding: with `path=` the configuration loads without a keyring -/
example : ((loadConfig {} [(c!"keyring", c!"path", [])] exConf).map (fun c => c.keyring.path)) = some none := by decide +kernel

/-- finding: `max-bundle-signature-size=-1` is accepted and means 2^64 - 1 (GLib accepts signs for unsigned numbers) -/
theorem C59_finding_negative_limit :
    ((loadConfig {} [(c!"system", c!"max-bundle-signature-size", c!"-1")] exConf).map (fun c => c.system.maxSignature)) = some (2 ^ 64 - 1) := by
  decide +kernel

end Rauc.ConfigFile
