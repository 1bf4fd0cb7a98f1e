import Verif.Model.EventRoute
import Verif.Props.ConfigFile
import Verif.Props.EventLog
import Verif.Props.JsonView
import Mathlib.Tactic.Tauto

/-!
# C82: events reach exactly the loggers that want them, and the records can be read back
-/

namespace Rauc.Events

open ConfigFile (Logger LogFormat)
open StatusView (Doc Distinct member Fields look)

/-! ## Specification -/

/-- the type of an event, as documented for the option `events` -/
def kind : Occ → Str
  | .installStarted _ => c!"install"
  | .installDone .. => c!"install"
  | .marked .. => c!"mark"
  | .service (.booted ..) => c!"boot"
  | .service (.external _) => c!"boot"
  | .service .restarted => c!"service"
  | .service .started => c!"service"
  | .updatingSlot _ => c!"writeslot"
  | .updatingArtifact .. => c!"writeslot"

/-- the lists of events the configuration accepts -/
structure EventsOk (events : List Str) : Prop where
  all : c!"all" ∈ events → events = [c!"all"]
  known : ∀ e ∈ events, e ∈ [c!"all", c!"boot", c!"mark", c!"install", c!"service", c!"writeslot"]

/-- the logger is configured for all events, or for events of this type -/
def Wants (l : Logger) (o : Occ) : Prop := l.events = [c!"all"] ∨ kind o ∈ l.events

instance (l : Logger) (o : Occ) : Decidable (Wants l o) := by unfold Wants; infer_instance

/-- what an event tells, besides its type: the message and further data -/
def facts : Occ → List (Str × Str)
  | .installStarted t => [(c!"MESSAGE", c!"Installation " ++ t.take 8 ++ c!" started"), (c!"TRANSACTION_ID", t)]
  | .installDone t none h d v => [(c!"MESSAGE", c!"Installation " ++ t.take 8 ++ c!" succeeded"), (c!"TRANSACTION_ID", t), (c!"BUNDLE_HASH", h.getD []),
      (c!"BUNDLE_DESCRIPTION", d.getD []), (c!"BUNDLE_VERSION", v.getD [])]
  | .installDone t (some (rejected, m)) h d v => [(c!"MESSAGE", c!"Installation " ++ t.take 8 ++ (if rejected then c!" rejected: " else c!" failed: ") ++ m),
      (c!"TRANSACTION_ID", t), (c!"BUNDLE_HASH", h.getD []), (c!"BUNDLE_DESCRIPTION", d.getD []), (c!"BUNDLE_VERSION", v.getD [])]
  | .marked .active s b h => [(c!"MESSAGE", c!"Marked slot " ++ s ++ c!" as active"), (c!"SLOT_NAME", s), (c!"SLOT_BOOTNAME", b.getD []), (c!"BUNDLE_HASH", h.getD [])]
  | .marked .good s b _ => [(c!"MESSAGE", c!"Marked slot " ++ s ++ c!" as good"), (c!"SLOT_NAME", s), (c!"SLOT_BOOTNAME", b.getD [])]
  | .marked .bad s b _ => [(c!"MESSAGE", c!"Marked slot " ++ s ++ c!" as bad"), (c!"SLOT_NAME", s), (c!"SLOT_BOOTNAME", b.getD [])]
  | .service (.booted s b i h) => [(c!"MESSAGE", c!"Booted into " ++ s ++ c!" (" ++ b ++ c!")"), (c!"SLOT_NAME", s), (c!"SLOT_BOOTNAME", b), (c!"BOOT_ID", i), (c!"BUNDLE_HASH", h)]
  | .service (.external i) => [(c!"MESSAGE", c!"Booted from external source"), (c!"BOOT_ID", i)]
  | .service .restarted => [(c!"MESSAGE", c!"Service restarted")]
  | .service .started => [(c!"MESSAGE", c!"Service started")]
  | .updatingSlot s => [(c!"MESSAGE", c!"Updating slot " ++ s)]
  | .updatingArtifact a r => [(c!"MESSAGE", c!"Updating artifact '" ++ a ++ c!"' in repo '" ++ r ++ c!"'")]

/-- which kind of event it is exactly; events with a message ID have different ones -/
def outcome : Occ → Nat
  | .installStarted _ => 1
  | .installDone _ none .. => 2
  | .installDone _ (some (false, _)) .. => 3
  | .installDone _ (some (true, _)) .. => 4
  | .marked .active .. => 5
  | .marked .good .. => 6
  | .marked .bad .. => 7
  | .service (.booted ..) => 8
  | .service (.external _) => 9
  | _ => 0

/-- Specification: the JSON object of an event -/
def EventDoc (ts : Str) (o : Occ) (j : Json) : Prop :=
  Fields j [(c!"TS", some (.str ts)), (c!"GLIB_DOMAIN", some (.str c!"rauc-event")), (c!"PRIORITY", some (.str c!"5")), (c!"RAUC_EVENT_TYPE", some (.str (kind o)))] ∧
  Fields j ((facts o).map (fun f => (f.1, some (.str f.2)))) ∧
  ∀ k v, member k j = some v → k ∈ [c!"TS", c!"GLIB_DOMAIN", c!"PRIORITY", c!"RAUC_EVENT_TYPE", c!"MESSAGE_ID"] ++ (facts o).map (·.1)

/-- the lines of a text -/
def lines : Str → List Str
  | [] => []
  | c :: r => if c = '\n' then [] :: lines r else match lines r with | [] => [[c]] | l :: ls => (c :: l) :: ls

/-- a sequence of JSON values -/
inductive ReadsAll : Str → List Json → Prop
  | nil {s : Str} (h : Json.skip s = []) : ReadsAll s []
  | cons {s r : Str} {j : Json} {js : List Json} (f : Nat) (h : Json.readVal f s = some (j, r)) (t : ReadsAll r js) : ReadsAll s (j :: js)

/-- what is written for a list of events -/
def journal (fmt : LogFormat) (es : List (Str × Occ)) : Str := es.flatMap (fun e => record fmt e.1 (fieldsOf e.2))

/-- the events a logger has to log, with what the system calls of this logger (the `i`th) do -/
def due (l : Logger) (i : Nat) : Entry → Option EventLog.Ev
  | .event ts o f => if Wants l o then some (.log ⟨bytes (journal l.format [(ts, o)]), (f i).rename, (f i).final, (f i).reopen, (f i).write⟩) else none
  | .other .. => none

/-! ## Routing -/

theorem type_kind (o : Occ) : firstVal c!"RAUC_EVENT_TYPE" (fieldsOf o) = some (kind o) := by
  rcases o with t | ⟨t, err, h, d, v⟩ | ⟨m, s, b, h⟩ | e | s | ⟨a, r⟩
  · rfl
  · rfl
  · cases m <;> rfl
  · cases e <;> rfl
  · rfl
  · rfl

theorem domain_event (o : Occ) : firstVal c!"GLIB_DOMAIN" (fieldsOf o) = some domain := by
  rcases o with t | ⟨t, err, h, d, v⟩ | ⟨m, s, b, h⟩ | e | s | ⟨a, r⟩
  · rfl
  · rfl
  · cases m <;> rfl
  · cases e <;> rfl
  · rfl
  · rfl

theorem selects_iff {l : Logger} (h : EventsOk l.events) (o : Occ) : selects l.events (some (kind o)) = true ↔ Wants l o := by
  simp only [selects, Wants, Bool.or_eq_true, decide_eq_true_eq, List.contains_iff_mem]
  constructor
  · rintro (hh | hh)
    · exact .inl (h.all (List.mem_of_mem_head? (by rw [hh]; rfl)))
    · exact .inr hh
  · rintro (hh | hh)
    · left; rw [hh]; rfl
    · exact .inr hh

theorem step_len (sinks : List Sink) (e : Entry) : (step sinks e).length = sinks.length := by
  cases e <;> (simp only [step, logWriter]; split <;> (try split) <;> simp)

theorem step_at (sinks : List Sink) (e : Entry) (hok : ∀ k ∈ sinks, EventsOk k.cfg.events)
    (ho : ∀ ts fields f, e = .other ts fields f → firstVal c!"GLIB_DOMAIN" fields ≠ some domain) (i : Nat) (k : Sink) (hk : sinks[i]? = some k) :
    (step sinks e)[i]? = some ⟨k.cfg, match due k.cfg i e with | none => k.st | some ev => EventLog.step (rotation k.cfg) k.st ev⟩ := by
  cases e with
  | other ts fields f =>
    have : step sinks (.other ts fields f) = sinks := by
      simp only [step, logWriter]
      split
      · rfl
      · rename_i d hd
        rw [if_neg (fun e => ho ts fields f rfl (by rw [hd, e]))]
    rw [this, hk]
    rfl
  | event ts o f =>
    simp only [step, logWriter, domain_event, if_true, List.getElem?_mapIdx, hk, Option.map_some, type_kind, due]
    have hs := selects_iff (hok k (List.mem_of_getElem? hk)) o
    by_cases hw : Wants k.cfg o
    · rw [if_pos (hs.2 hw), if_pos hw]
      simp only [writeTo, journal, List.flatMap_cons, List.flatMap_nil, List.append_nil]
    · rw [if_neg (fun e => hw (hs.1 e)), if_neg hw]

theorem step_cfg (sinks : List Sink) (e : Entry) (hok : ∀ k ∈ sinks, EventsOk k.cfg.events) : ∀ k ∈ step sinks e, EventsOk k.cfg.events := by
  have key : ∀ ts fields f, ∀ k ∈ logWriter ts fields f sinks, EventsOk k.cfg.events := by
    intro ts fields f k hk
    simp only [logWriter] at hk
    split at hk
    · exact hok k hk
    · split at hk
      · rw [List.mem_mapIdx] at hk
        obtain ⟨i, hi, rfl⟩ := hk
        split
        · exact hok sinks[i] (List.getElem_mem hi)
        · exact hok sinks[i] (List.getElem_mem hi)
      · exact hok k hk
  cases e with
  | event ts o f => exact key _ _ _
  | other ts fields f => exact key _ _ _

/-- **C82** For every history of log messages, every logger is in the state it would be in if it was alone and got exactly the events it is configured for, in order:
no event is missed or logged twice, other messages are not logged, and no failure of one logger affects another. -/
theorem C82_route (sinks : List Sink) (h : List Entry) (hok : ∀ k ∈ sinks, EventsOk k.cfg.events)
    (ho : ∀ ts fields f, Entry.other ts fields f ∈ h → firstVal c!"GLIB_DOMAIN" fields ≠ some domain) :
    (runAll sinks h).length = sinks.length ∧
    ∀ (i : Nat) (k : Sink), sinks[i]? = some k → (runAll sinks h)[i]? = some ⟨k.cfg, EventLog.run (rotation k.cfg) k.st (h.filterMap (due k.cfg i))⟩ := by
  induction h generalizing sinks with
  | nil => exact ⟨rfl, fun i k hk => hk⟩
  | cons e h ih =>
    obtain ⟨h1, h2⟩ := ih (step sinks e) (step_cfg sinks e hok) (fun ts fields f hm => ho ts fields f (by simp [hm]))
    refine ⟨by rw [← step_len sinks e]; exact h1, fun i k hk => ?_⟩
    have := h2 i _ (step_at sinks e hok (fun ts fields f he => ho ts fields f (by simp [he])) i k hk)
    refine this.trans ?_
    simp only [List.filterMap_cons]
    cases due k.cfg i e <;> rfl

/-- **C82** The conditions of `C82_route` on the event lists are checked when the configuration is read. -/
theorem C82_config {E : ConfigFile.Env} {d : Option Str} {n : Str} {kvs : ManifestFile.Kvs} {l : Logger} (h : ConfigFile.parseLogger E d n kvs = some l) : EventsOk l.events :=
  ⟨(ConfigFile.parseLogger_iff.1 h).eventsAll, (ConfigFile.parseLogger_iff.1 h).eventsKnown⟩

/-- **C82** Every event has one of the types a logger can be configured for, and every such type occurs. -/
theorem C82_kinds : (∀ o, kind o ∈ [c!"boot", c!"mark", c!"install", c!"service", c!"writeslot"]) ∧
    ∀ t ∈ ConfigFile.eventTypes, t = c!"all" ∨ ∃ o, kind o = t := by
  constructor
  · intro o
    rcases o with t | ⟨t, err, h, d, v⟩ | ⟨m, s, b, h⟩ | e | s | ⟨a, r⟩
    · simp [kind]
    · simp [kind]
    · simp [kind]
    · cases e <;> simp [kind]
    · simp [kind]
    · simp [kind]
  · intro t ht
    simp only [ConfigFile.eventTypes, List.mem_cons, List.not_mem_nil, or_false] at ht
    rcases ht with rfl | rfl | rfl | rfl | rfl | rfl
    · exact .inl rfl
    · exact .inr ⟨.service (.external []), rfl⟩
    · exact .inr ⟨.marked .good [] none none, rfl⟩
    · exact .inr ⟨.installStarted [], rfl⟩
    · exact .inr ⟨.service .started, rfl⟩
    · exact .inr ⟨.updatingSlot [], rfl⟩

/-! ### The file of a logger without rotation -/

/-- the events of a history a logger wants, with their times -/
def wanted (l : Logger) (h : List Entry) : List (Str × Occ) :=
  h.filterMap (fun e => match e with | .event ts o _ => if Wants l o then some (ts, o) else none | .other .. => none)

theorem bytes_append (a b : Str) : bytes (a ++ b) = bytes a ++ bytes b := by simp [bytes]

theorem journal_cons (fmt : LogFormat) (e : Str × Occ) (es : List (Str × Occ)) : journal fmt (e :: es) = journal fmt [e] ++ journal fmt es := by
  simp [journal]

theorem run_file (l : Logger) (hmax : l.maxSize = 0) (i : Nat) (h : List Entry) (hf : ∀ ts o f, Entry.event ts o f ∈ h → (f i).write = none) :
    ∀ (fs : EventLog.FS) (n : Nat), fs.cur ≠ none →
      let s := EventLog.run (rotation l) ⟨fs, .up n⟩ (h.filterMap (due l i))
      s.fs.cur = some (fs.cur.getD [] ++ bytes (journal l.format (wanted l h))) ∧ s.fs.old = fs.old ∧ ∃ m, s.logger = .up m := by
  induction h with
  | nil =>
    intro fs n hc
    cases hcur : fs.cur with
    | none => exact absurd hcur hc
    | some b => simp [EventLog.run, wanted, journal, bytes, hcur]
  | cons e h ih =>
    intro fs n hc
    have ih := ih (fun ts o f hm => hf ts o f (by simp [hm]))
    cases e with
    | other ts fields f => exact ih fs n hc
    | event ts o f =>
      simp only [List.filterMap_cons, due, wanted]
      by_cases hw : Wants l o
      · simp only [if_pos hw, EventLog.run]
        have hwr := hf ts o f (by simp)
        have hst : EventLog.step (rotation l) ⟨fs, .up n⟩ (.log ⟨bytes (journal l.format [(ts, o)]), (f i).rename, (f i).final, (f i).reopen, (f i).write⟩) =
            ⟨EventLog.append fs (bytes (journal l.format [(ts, o)])), .up (n + (bytes (journal l.format [(ts, o)])).length)⟩ := by
          simp only [EventLog.step, EventLog.log, rotation, hmax, true_or, if_true, EventLog.write, hwr]
        rw [hst]
        obtain ⟨h1, h2, h3⟩ := ih (EventLog.append fs (bytes (journal l.format [(ts, o)]))) _ (by simp [EventLog.append])
        refine ⟨?_, h2, h3⟩
        rw [h1]
        simp only [EventLog.append, Option.getD_some, List.append_assoc, ← bytes_append, ← journal_cons]
        rfl
      · simp only [if_neg hw]
        exact ih fs n hc

/-- **C82** The file of a working logger without rotation, after any history in which its writes succeed: the records of the events it wants, in order, after what was
there before. -/
theorem C82_file (sinks : List Sink) (h : List Entry) (hok : ∀ k ∈ sinks, EventsOk k.cfg.events)
    (ho : ∀ ts fields f, Entry.other ts fields f ∈ h → firstVal c!"GLIB_DOMAIN" fields ≠ some domain)
    (i : Nat) (k : Sink) (hk : sinks[i]? = some k) (hmax : k.cfg.maxSize = 0) (n : Nat) (hup : k.st.logger = .up n) (old : List UInt8) (hold : k.st.fs.cur = some old)
    (hf : ∀ ts o f, Entry.event ts o f ∈ h → (f i).write = none) :
    ∃ k', (runAll sinks h)[i]? = some k' ∧ k'.st.fs.cur = some (old ++ bytes (journal k.cfg.format (wanted k.cfg h))) := by
  refine ⟨_, (C82_route sinks h hok ho).2 i k hk, ?_⟩
  obtain ⟨cfg, fs, lg⟩ := k
  simp only at hup hold
  subst hup
  obtain ⟨h1, -⟩ := run_file cfg hmax i h hf fs n (by rw [hold]; simp)
  rw [h1, hold]
  rfl

/-! ## JSON -/

theorem setMember_new (l : List (Str × Json)) (k : Str) (v : Json) (h : k ∉ l.map (·.1)) : Json.setMember l k v = l ++ [(k, v)] := by
  unfold Json.setMember
  rw [if_neg]
  simp only [List.any_eq_true, beq_iff_eq, not_exists, not_and]
  intro p hp e
  exact h (List.mem_map.2 ⟨p, hp, e⟩)

theorem foldl_set (fields : List Field) : ∀ (l : List (Str × Json)), (l.map (·.1) ++ fields.map (·.1)).Nodup →
    fields.foldl (fun l f => Json.setMember l f.1 (.str f.2)) l = l ++ fields.map (fun f => (f.1, .str f.2)) := by
  induction fields with
  | nil => intro l _; simp
  | cons f fields ih =>
    intro l h
    rw [List.foldl_cons, setMember_new, ih]
    · simp
    · simpa using h
    · intro hm
      rw [List.nodup_append] at h
      exact h.2.2 f.1 hm f.1 (by simp) rfl

theorem keys_nodup (o : Occ) : (c!"TS" :: (fieldsOf o).map (·.1)).Nodup := by
  rcases o with t | ⟨t, err, h, d, v⟩ | ⟨m, s, b, h⟩ | e | s | ⟨a, r⟩
  · simp [fieldsOf, structured]
  · simp [fieldsOf]
  · cases m <;> simp [fieldsOf, structured]
  · cases e <;> simp [fieldsOf, structured, plain]
  · simp [fieldsOf, structured, plain]
  · simp [fieldsOf, structured, plain]

theorem jsonRecord_eq (ts : Str) (o : Occ) : jsonRecord ts (fieldsOf o) = .obj ((c!"TS", .str ts) :: (fieldsOf o).map (fun f => (f.1, .str f.2))) := by
  unfold jsonRecord
  rw [foldl_set (fieldsOf o) [(c!"TS", .str ts)] (keys_nodup o)]
  rfl

theorem record_distinct (ts : Str) (o : Occ) : Distinct (jsonRecord ts (fieldsOf o)) := by
  rw [jsonRecord_eq]
  refine .obj ?_ ?_
  · have := keys_nodup o
    simpa [List.map_map, Function.comp_def] using this
  · intro e he
    rcases List.mem_cons.1 he with rfl | he
    · exact .str _
    · obtain ⟨f, -, rfl⟩ := List.mem_map.1 he
      exact .str _

theorem look_keys {k : Str} {l : List (Str × Json)} {v : Json} (h : look k l = some v) : k ∈ l.map (·.1) := by
  by_contra hc
  have : ∀ e ∈ l, e.1 ≠ k := fun e he e' => hc (List.mem_map.2 ⟨e, he, e'⟩)
  unfold look at h
  rw [List.find?_eq_none.2 (fun e he => by simpa using this e he)] at h
  cases h

theorem record_doc (ts : Str) (o : Occ) : EventDoc ts o (jsonRecord ts (fieldsOf o)) := by
  rw [jsonRecord_eq]
  refine ⟨?_, ?_, ?_⟩
  · intro e he
    simp only [List.mem_cons, List.not_mem_nil, or_false] at he
    rcases o with t | ⟨t, err, h, d, v⟩ | ⟨m, s, b, h⟩ | ev | s | ⟨a, r⟩
    · rcases he with rfl | rfl | rfl | rfl <;> rfl
    · rcases he with rfl | rfl | rfl | rfl <;> rfl
    · cases m <;> rcases he with rfl | rfl | rfl | rfl <;> rfl
    · cases ev <;> rcases he with rfl | rfl | rfl | rfl <;> rfl
    · rcases he with rfl | rfl | rfl | rfl <;> rfl
    · rcases he with rfl | rfl | rfl | rfl <;> rfl
  · intro e he
    rw [List.mem_map] at he
    obtain ⟨f, hf, rfl⟩ := he
    rcases o with t | ⟨t, err, h, d, v⟩ | ⟨m, s, b, h⟩ | ev | s | ⟨a, r⟩
    · simp only [facts, List.mem_cons, List.not_mem_nil, or_false] at hf
      rcases hf with rfl | rfl <;> rfl
    · rcases err with _ | ⟨rej, msg⟩
      · simp only [facts, List.mem_cons, List.not_mem_nil, or_false] at hf
        rcases hf with rfl | rfl | rfl | rfl | rfl <;> rfl
      · simp only [facts, List.mem_cons, List.not_mem_nil, or_false] at hf
        cases rej <;> rcases hf with rfl | rfl | rfl | rfl | rfl <;> rfl
    · cases m
      · simp only [facts, List.mem_cons, List.not_mem_nil, or_false] at hf
        rcases hf with rfl | rfl | rfl | rfl <;> rfl
      · simp only [facts, List.mem_cons, List.not_mem_nil, or_false] at hf
        rcases hf with rfl | rfl | rfl <;> rfl
      · simp only [facts, List.mem_cons, List.not_mem_nil, or_false] at hf
        rcases hf with rfl | rfl | rfl <;> rfl
    · cases ev
      · simp only [facts, List.mem_cons, List.not_mem_nil, or_false] at hf
        rcases hf with rfl | rfl | rfl | rfl | rfl <;> rfl
      · simp only [facts, List.mem_cons, List.not_mem_nil, or_false] at hf
        rcases hf with rfl | rfl <;> rfl
      · simp only [facts, List.mem_cons, List.not_mem_nil, or_false] at hf
        subst hf; rfl
      · simp only [facts, List.mem_cons, List.not_mem_nil, or_false] at hf
        subst hf; rfl
    · simp only [facts, List.mem_cons, List.not_mem_nil, or_false] at hf
      subst hf; rfl
    · simp only [facts, List.mem_cons, List.not_mem_nil, or_false] at hf
      subst hf; rfl
  · intro k v hk
    have hm := look_keys hk
    rcases o with t | ⟨t, err, h, d, v⟩ | ⟨m, s, b, h⟩ | ev | s | ⟨a, r⟩
    · simp [fieldsOf, structured, facts] at hm ⊢; tauto
    · rcases err with _ | ⟨rej, msg⟩ <;> (simp [fieldsOf, facts] at hm ⊢; tauto)
    · cases m <;> (simp [fieldsOf, structured, facts] at hm ⊢; tauto)
    · cases ev <;> (simp [fieldsOf, structured, plain, facts] at hm ⊢; tauto)
    · simp [fieldsOf, structured, plain, facts] at hm ⊢; tauto
    · simp [fieldsOf, structured, plain, facts] at hm ⊢; tauto

theorem lines_cons (l r : Str) (h : '\n' ∉ l) : lines (l ++ '\n' :: r) = l :: lines r := by
  induction l with
  | nil => simp [lines]
  | cons c l ih =>
    simp only [List.mem_cons, not_or] at h
    rw [List.cons_append, lines, if_neg (fun e => h.1 e.symm), ih h.2]

/-- **C82** The file of a logger with the format `json` has one line for each event, and each line is a JSON object, readable in one way only, with the time, the type
and all data of the event, whatever the messages, names and versions contain. -/
theorem C82_json (es : List (Str × Occ)) :
    List.Forall₂ (fun e l => ∃ j, Doc l j ∧ Distinct j ∧ EventDoc e.1 e.2 j) es (lines (journal .json es)) := by
  induction es with
  | nil => exact .nil
  | cons e es ih =>
    have : journal .json (e :: es) = Json.gen Json.compact 0 (jsonRecord e.1 (fieldsOf e.2)) ++ '\n' :: journal .json es := by
      rw [journal_cons]
      simp [journal, record]
    rw [this, lines_cons _ _ (Json.compact_nonl _ 0)]
    exact .cons ⟨_, StatusView.doc_gen Json.compact_ok _, record_distinct _ _, record_doc _ _⟩ ih

theorem readsAll_nl {r : Str} {js : List Json} (h : ReadsAll r js) : ReadsAll ('\n' :: r) js := by
  have hs : Json.skip ('\n' :: r) = Json.skip r := rfl
  cases h with
  | nil h => exact .nil (hs.trans h)
  | cons f h t =>
    refine .cons f ?_ t
    cases f with
    | zero => rw [Json.readVal] at h; cases h
    | succ f => rw [Json.readVal] at h ⊢; rw [hs]; exact h

/-- **C82** The same holds for `json-pretty`, if the file is read as a sequence of JSON values. -/
theorem C82_pretty (fmt : LogFormat) (hf : fmt = .json ∨ fmt = .jsonPretty) (es : List (Str × Occ)) :
    ∃ js, ReadsAll (journal fmt es) js ∧ List.Forall₂ (fun e j => Distinct j ∧ EventDoc e.1 e.2 j) es js := by
  induction es with
  | nil => exact ⟨[], .nil rfl, .nil⟩
  | cons e es ih =>
    obtain ⟨js, h1, h2⟩ := ih
    refine ⟨jsonRecord e.1 (fieldsOf e.2) :: js, ?_, .cons ⟨record_distinct _ _, record_doc _ _⟩ h2⟩
    obtain ⟨L, hL, hg⟩ : ∃ L : Json.Layout, L.Ok ∧ journal fmt (e :: es) = Json.gen L 0 (jsonRecord e.1 (fieldsOf e.2)) ++ '\n' :: journal fmt es := by
      rw [journal_cons]
      rcases hf with rfl | rfl
      · exact ⟨_, Json.compact_ok, by simp [journal, record]⟩
      · exact ⟨_, Json.pretty_ok, by simp [journal, record]⟩
    rw [hg]
    exact .cons _ (Json.readVal_gen hL _ 0 _ _ (fun c t he => by cases he; rfl) le_rfl) (readsAll_nl h1)

theorem readVal_end {s : Str} (h : Json.skip s = []) (f : Nat) : Json.readVal f s = none := by
  cases f with
  | zero => rw [Json.readVal]
  | succ f => rw [Json.readVal, h]; rfl

/-- a text is one sequence of JSON values only -/
theorem ReadsAll.unique {s : Str} {a b : List Json} (ha : ReadsAll s a) (hb : ReadsAll s b) : a = b := by
  induction ha generalizing b with
  | nil h =>
    cases hb with
    | nil _ => rfl
    | cons f h' _ => rw [readVal_end h] at h'; cases h'
  | cons f h t ih =>
    cases hb with
    | nil h' => rw [readVal_end h'] at h; cases h
    | cons g h' t' =>
      have e : some _ = some _ := (Json.readVal_mono f (max f g) _ _ (by omega) h).symm.trans (Json.readVal_mono g (max f g) _ _ (by omega) h')
      cases e
      rw [ih t']

def ids : List (Option Str) := [none, some c!"b05410e8a93345389cd061aab1e9516d", some c!"0163db5468ac4237b090d28490c301ed", some c!"c48141f7fd49443aafff862b4809168f",
  some c!"60bea7e4fea549ccad68af457308b13a", some c!"8b5e7435e1054d86858278e7544fe6da", some c!"3304e15a7a9a447885eb208ba7ae3a05",
  some c!"ccb0e584a47043d7a5316994bce77ae5", some c!"e60e0addd3454cb8b796eae0d497af96", some c!"dd237efdad1945d9b1e471bc2b994532"]

theorem id_of (o : Occ) : some (firstVal c!"MESSAGE_ID" (fieldsOf o)) = ids[outcome o]? := by
  rcases o with t | ⟨t, err, h, d, v⟩ | ⟨m, s, b, h⟩ | ev | s | ⟨a, r⟩
  · rfl
  · rcases err with _ | ⟨rej, msg⟩
    · rfl
    · cases rej <;> rfl
  · cases m <;> rfl
  · cases ev <;> rfl
  · rfl
  · rfl

/-- **C82** The message ID tells what happened. -/
theorem C82_message_id (a b : Occ) : firstVal c!"MESSAGE_ID" (fieldsOf a) = firstVal c!"MESSAGE_ID" (fieldsOf b) ↔ outcome a = outcome b := by
  have ha := id_of a
  have hb := id_of b
  have hn : ids.Nodup := by decide
  constructor
  · intro h
    obtain ⟨h1, e1⟩ := List.getElem?_eq_some_iff.1 ha.symm
    obtain ⟨h2, e2⟩ := List.getElem?_eq_some_iff.1 hb.symm
    exact (hn.getElem_inj_iff).1 (by rw [e1, e2, h])
  · intro h
    exact Option.some.inj (by rw [ha, hb, h])

/-! ## Readable formats -/

/-- cut at the first ": " -/
def cut : Str → Option (Str × Str)
  | [] => none
  | c :: r => if c = ':' ∧ r.head? = some ' ' then some ([], r.tail) else (cut r).map (fun x => (c :: x.1, x.2))

def indented (l : Str) : Bool := l.take 22 == List.replicate 22 ' '

/-- indented lines belong to the line before them -/
def group (ls : List Str) : List Str × List (Str × List Str) :=
  ls.foldr (fun l x => if indented l then (l :: x.1, x.2) else ([], (l, x.1) :: x.2)) ([], [])

/-- a record of a readable log file: time and message, further data -/
structure Rec where
  head : Option (Str × Str)
  details : List (Option (Str × Str))
deriving DecidableEq

/-- how a reader understands a log file in the formats `readable` and `short` -/
def readLog (t : Str) : List Rec := (group (lines t)).2.map (fun g => ⟨cut g.1, g.2.map (fun d => cut (d.drop 22))⟩)

/-- the names of the data in the readable format -/
def labels : List (Str × Str) :=
  [(c!"TRANSACTION_ID", c!"transaction ID"), (c!"BOOT_ID", c!"boot ID"), (c!"BUNDLE_HASH", c!"bundle hash"), (c!"BUNDLE_VERSION", c!"bundle version"),
   (c!"SLOT_NAME", c!"slot"), (c!"SLOT_BOOTNAME", c!"bootname")]

/-- Specification: the record of an event -/
structure RecOf (verbose : Bool) (e : Str × Occ) (r : Rec) : Prop where
  head : ∃ m, (c!"MESSAGE", m) ∈ facts e.2 ∧ r.head = some (e.1, m)
  details : ∀ d, d ∈ r.details ↔ ∃ k l v, verbose = true ∧ (k, l) ∈ labels ∧ (k, v) ∈ facts e.2 ∧ d = some (l, v)
  once : r.details.Nodup

/-- a time: one word -/
structure TimeOk (ts : Str) : Prop where
  word : ' ' ∉ ts ∧ '\n' ∉ ts
  ne : ts ≠ []

/-- the event has no line breaks -/
def OneLine (o : Occ) : Prop := ∀ f ∈ facts o, '\n' ∉ f.2

theorem cut_word (a b : Str) (h : ' ' ∉ a) : cut (a ++ c!": " ++ b) = some (a, b) := by
  induction a with
  | nil => rfl
  | cons c a ih =>
    simp only [List.mem_cons, not_or] at h
    simp only [List.cons_append, cut]
    rw [if_neg, show a ++ [':', ' '] ++ b = a ++ c!": " ++ b from rfl, ih h.2]
    · rfl
    · rintro ⟨-, hh⟩
      cases a with
      | nil => simp at hh
      | cons x a => simp at hh; simp [hh] at h

theorem cut_label (l : Str) (b : Str) (h : l ∈ labels.map (·.2)) : cut (l ++ c!": " ++ b) = some (l, b) := by
  simp only [labels, List.map_cons, List.map_nil, List.mem_cons, List.not_mem_nil, or_false] at h
  rcases h with rfl | rfl | rfl | rfl | rfl | rfl <;> simp [cut]

theorem label_iff (k l : Str) : label k = some l ↔ (k, l) ∈ labels := by
  unfold label labels
  simp only [List.mem_cons, List.not_mem_nil, or_false, Prod.mk.injEq]
  constructor
  · intro h
    split at h
    · cases h; tauto
    · split at h
      · cases h; tauto
      · split at h
        · cases h; tauto
        · split at h
          · cases h; tauto
          · split at h
            · cases h; tauto
            · split at h
              · cases h; tauto
              · cases h
  · rintro (⟨rfl, rfl⟩ | ⟨rfl, rfl⟩ | ⟨rfl, rfl⟩ | ⟨rfl, rfl⟩ | ⟨rfl, rfl⟩ | ⟨rfl, rfl⟩) <;> rfl

/-- the facts are the fields a reader sees -/
theorem mem_fields (o : Occ) (k v : Str) (hk : k = c!"MESSAGE" ∨ k ∈ labels.map (·.1)) : (k, v) ∈ fieldsOf o ↔ (k, v) ∈ facts o := by
  simp only [labels, List.map_cons, List.map_nil, List.mem_cons, List.not_mem_nil, or_false] at hk
  rcases o with t | ⟨t, err, h, d, w⟩ | ⟨m, s, b, h⟩ | ev | s | ⟨a, r⟩
  · rcases hk with rfl | rfl | rfl | rfl | rfl | rfl | rfl <;> simp [fieldsOf, structured, facts]
  · rcases err with _ | ⟨rej, msg⟩
    · rcases hk with rfl | rfl | rfl | rfl | rfl | rfl | rfl <;> simp [fieldsOf, facts]
    · cases rej <;> rcases hk with rfl | rfl | rfl | rfl | rfl | rfl | rfl <;> simp [fieldsOf, facts]
  · cases m <;> rcases hk with rfl | rfl | rfl | rfl | rfl | rfl | rfl <;> simp [fieldsOf, structured, facts]
  · cases ev <;> rcases hk with rfl | rfl | rfl | rfl | rfl | rfl | rfl <;> simp [fieldsOf, structured, plain, facts]
  · rcases hk with rfl | rfl | rfl | rfl | rfl | rfl | rfl <;> simp [fieldsOf, structured, plain, facts]
  · rcases hk with rfl | rfl | rfl | rfl | rfl | rfl | rfl <;> simp [fieldsOf, structured, plain, facts]

theorem label_inj {a b l : Str} (ha : label a = some l) (hb : label b = some l) : a = b := by
  rw [label_iff] at ha hb
  have hn : (labels.map (·.2)).Nodup := by decide
  have := List.inj_on_of_nodup_map hn ha hb rfl
  exact congrArg Prod.fst this

/-- the lines of further data -/
def detailLines (fields : List Field) : List Str := fields.filterMap (fun f => (label f.1).map (fun l => List.replicate 22 ' ' ++ l ++ c!": " ++ f.2))

theorem details_eq (fields : List Field) : fields.flatMap detail = (detailLines fields).flatMap (fun l => '\n' :: l) := by
  unfold detailLines
  induction fields with
  | nil => rfl
  | cons f fields ih =>
    rw [List.flatMap_cons, ih, List.filterMap_cons]
    unfold detail
    cases label f.1 <;> simp

theorem lines_block (h : Str) (ds : List Str) (r : Str) (hh : '\n' ∉ h) (hd : ∀ d ∈ ds, '\n' ∉ d) :
    lines (h ++ ds.flatMap (fun l => '\n' :: l) ++ '\n' :: r) = h :: (ds ++ lines r) := by
  induction ds generalizing h with
  | nil => simpa using lines_cons h r hh
  | cons d ds ih =>
    have := ih d (hd d (by simp)) (fun x hx => hd x (by simp [hx]))
    simp only [List.flatMap_cons, List.cons_append, List.append_assoc] at this ⊢
    rw [lines_cons h _ hh, this]

theorem group_indented (ds : List Str) (rest : List Str) (hd : ∀ d ∈ ds, indented d = true) :
    group (ds ++ rest) = (ds ++ (group rest).1, (group rest).2) := by
  induction ds with
  | nil => rfl
  | cons d ds ih =>
    have hi := ih (fun x hx => hd x (by simp [hx]))
    unfold group at hi ⊢
    rw [List.cons_append, List.foldr_cons, hi, if_pos (hd d (by simp))]
    rfl

theorem group_block (h : Str) (ds : List Str) (rest : List Str) (hh : indented h = false) (hd : ∀ d ∈ ds, indented d = true) (hr : (group rest).1 = []) :
    group (h :: (ds ++ rest)) = ([], (h, ds) :: (group rest).2) := by
  have := group_indented ds rest hd
  have e : group (h :: (ds ++ rest)) = (if indented h then (h :: (group (ds ++ rest)).1, (group (ds ++ rest)).2) else ([], (h, (group (ds ++ rest)).1) :: (group (ds ++ rest)).2)) := rfl
  rw [e, hh, this, hr]
  simp

theorem detail_indented {fields : List Field} {d : Str} (h : d ∈ detailLines fields) : indented d = true := by
  unfold detailLines at h
  obtain ⟨f, -, hf⟩ := List.mem_filterMap.1 h
  cases hl : label f.1 with
  | none => rw [hl] at hf; cases hf
  | some l =>
    rw [hl] at hf
    cases hf
    simp [indented, List.take_append]

theorem head_plain {ts m : Str} (h : TimeOk ts) : indented (ts ++ c!": " ++ m) = false := by
  cases hts : ts with
  | nil => exact absurd hts h.ne
  | cons c r =>
    have hc : c ≠ ' ' := fun e => h.word.1 (by rw [hts, e]; simp)
    simp [indented, hc]

theorem detail_nonl {o : Occ} (h : OneLine o) {d : Str} (hd : d ∈ detailLines (fieldsOf o)) : '\n' ∉ d := by
  unfold detailLines at hd
  obtain ⟨f, hf, hfd⟩ := List.mem_filterMap.1 hd
  cases hl : label f.1 with
  | none => rw [hl] at hfd; cases hfd
  | some l =>
    rw [hl] at hfd
    cases hfd
    have hm := label_iff f.1 l |>.1 hl
    have hv : '\n' ∉ f.2 := h (f.1, f.2) ((mem_fields o f.1 f.2 (.inr (List.mem_map.2 ⟨_, hm, rfl⟩))).1 hf)
    have hll : '\n' ∉ l := by
      simp only [labels, List.mem_cons, List.not_mem_nil, or_false, Prod.mk.injEq] at hm
      rcases hm with ⟨-, rfl⟩ | ⟨-, rfl⟩ | ⟨-, rfl⟩ | ⟨-, rfl⟩ | ⟨-, rfl⟩ | ⟨-, rfl⟩ <;> decide
    simp [hv, hll]

theorem message_of (o : Occ) : ∃ m, firstVal c!"MESSAGE" (fieldsOf o) = some m ∧ (c!"MESSAGE", m) ∈ facts o := by
  rcases o with t | ⟨t, err, h, d, v⟩ | ⟨m, s, b, h⟩ | ev | s | ⟨a, r⟩
  · exact ⟨_, rfl, by simp [facts]⟩
  · rcases err with _ | ⟨rej, msg⟩
    · exact ⟨_, rfl, by simp [facts]⟩
    · cases rej <;> exact ⟨_, rfl, by simp [facts]⟩
  · cases m <;> exact ⟨_, rfl, by simp [facts]⟩
  · cases ev <;> exact ⟨_, rfl, by simp [facts]⟩
  · exact ⟨_, rfl, by simp [facts]⟩
  · exact ⟨_, rfl, by simp [facts]⟩

theorem details_read (fields : List Field) : (detailLines fields).map (fun d => cut (d.drop 22)) = fields.filterMap (fun f => (label f.1).map (fun l => some (l, f.2))) := by
  unfold detailLines
  rw [List.map_filterMap]
  congr 1
  funext f
  cases hl : label f.1 with
  | none => rfl
  | some l =>
    simp only [Option.map_some, List.append_assoc]
    rw [List.drop_left' (by simp), ← List.append_assoc, cut_label l f.2 (List.mem_map.2 ⟨_, (label_iff f.1 l).1 hl, rfl⟩)]

theorem readLog_eq {t : Str} {g : List (Str × List Str)} (h : group (lines t) = ([], g)) :
    readLog t = g.map (fun g => ⟨cut g.1, g.2.map (fun d => cut (d.drop 22))⟩) := by
  unfold readLog; rw [h]

/-- **C82** If messages, names, versions and hashes have no line breaks, a log file in the format `readable` or `short` can be read back: for each event there is a
record with the time and the message, and (in the format `readable`) each of the data that have a name there, once. -/
theorem C82_readable_partial (verbose : Bool) (es : List (Str × Occ)) (ht : ∀ e ∈ es, TimeOk e.1) (h : ∀ e ∈ es, OneLine e.2) :
    List.Forall₂ (RecOf verbose) es (readLog (journal (if verbose then .readable else .short) es)) := by
  have key : ∃ g, group (lines (journal (if verbose then .readable else .short) es)) = ([], g) ∧
      List.Forall₂ (RecOf verbose) es (g.map (fun g => ⟨cut g.1, g.2.map (fun d => cut (d.drop 22))⟩)) := by
    induction es with
    | nil => exact ⟨[], by simp [journal, lines, group], .nil⟩
    | cons e es ih =>
      obtain ⟨g, hg, hall⟩ := ih (fun x hx => ht x (by simp [hx])) (fun x hx => h x (by simp [hx]))
      obtain ⟨m, hm1, hm2⟩ := message_of e.2
      have hte := ht e (by simp)
      have hoe := h e (by simp)
      let ds := if verbose then detailLines (fieldsOf e.2) else []
      have hj : journal (if verbose then .readable else .short) (e :: es) =
          (e.1 ++ c!": " ++ m) ++ ds.flatMap (fun l => '\n' :: l) ++ '\n' :: journal (if verbose then .readable else .short) es := by
        rw [journal_cons]
        cases verbose <;> simp [journal, record, readable, hm1, details_eq, ds]
      have hds : ∀ d ∈ ds, indented d = true ∧ '\n' ∉ d := by
        intro d hd
        cases verbose
        · simp [ds] at hd
        · simp only [ds, if_true] at hd
          exact ⟨detail_indented hd, detail_nonl hoe hd⟩
      refine ⟨(e.1 ++ c!": " ++ m, ds) :: g, ?_, ?_⟩
      · rw [hj, lines_block _ _ _ ?_ (fun d hd => (hds d hd).2), group_block _ _ _ (head_plain hte) (fun d hd => (hds d hd).1) (by rw [hg]), hg]
        have h1 := hte.word.2
        have h2 := hoe _ hm2
        simp only [List.mem_append, not_or]
        exact ⟨⟨h1, by decide⟩, h2⟩
      · refine .cons ⟨⟨m, hm2, cut_word _ _ hte.word.1⟩, ?_, ?_⟩ hall
        · intro d
          cases verbose
          · simp [ds]
          · simp only [ds, if_true, details_read, List.mem_filterMap, Option.map_eq_some_iff, true_and]
            constructor
            · rintro ⟨f, hf, l, hl, rfl⟩
              have hk := (label_iff f.1 l).1 hl
              exact ⟨f.1, l, f.2, hk, (mem_fields e.2 f.1 f.2 (.inr (List.mem_map.2 ⟨_, hk, rfl⟩))).1 hf, rfl⟩
            · rintro ⟨k, l, v, hk, hv, rfl⟩
              exact ⟨(k, v), (mem_fields e.2 k v (.inr (List.mem_map.2 ⟨_, hk, rfl⟩))).2 hv, l, (label_iff k l).2 hk, rfl⟩
        · cases verbose
          · simp [ds]
          · simp only [ds, if_true, details_read]
            have hn : (fieldsOf e.2).Nodup := (List.nodup_cons.1 (keys_nodup e.2)).2.of_map _
            refine hn.filterMap ?_
            intro a a' b hb hb'
            simp only [Option.mem_def, Option.map_eq_some_iff] at hb hb'
            obtain ⟨l, hl, rfl⟩ := hb
            obtain ⟨l', hl', he⟩ := hb'
            simp only [Option.some.injEq, Prod.mk.injEq] at he
            obtain ⟨rfl, h2⟩ := he
            exact Prod.ext (label_inj hl hl') h2.symm
  obtain ⟨g, hg, hall⟩ := key
  rw [readLog_eq hg]
  exact hall

/-! ## Examples and findings -/

def ts1 : Str := c!"2024-05-17T12:30:01Z"
def ts2 : Str := c!"2024-05-17T12:31:07Z"

/-- the times written are words -/
theorem time_ok (d : DateTime) (h : d.ok = true) : TimeOk d.fmt := by
  have hdig : ∀ n, n < 10 → ∀ c : Char, digitVal c = none → c ≠ digitChar n := by
    intro n hn c hc e
    rw [e, digitVal_digitChar n (by omega)] at hc
    cases hc
  have hdec : ∀ n, ∀ c : Char, digitVal c = none → c ∉ toDec n := by
    intro n c hc hm
    obtain ⟨v, h1, -⟩ := Config.toDec_digits n c hm
    rw [hc] at h1; cases h1
  unfold DateTime.ok at h
  simp only [decide_eq_true_eq] at h
  obtain ⟨-, -, -, hmo, -, hda, hho, hmi, hse⟩ := h
  have h31 := daysInMonth_le d.year d.month
  have hmem : ∀ c : Char, digitVal c = none → c ≠ '-' → c ≠ 'T' → c ≠ ':' → c ≠ 'Z' → c ∉ d.fmt := by
    intro c hc n1 n2 n3 n4
    unfold DateTime.fmt dec2
    simp only [List.mem_append, List.mem_cons, List.not_mem_nil, or_false, not_or]
    exact ⟨⟨⟨⟨⟨⟨hdec _ c hc, n1, hdig _ (by omega) c hc, hdig _ (by omega) c hc⟩, n1, hdig _ (by omega) c hc, hdig _ (by omega) c hc⟩, n2, hdig _ (by omega) c hc,
      hdig _ (by omega) c hc⟩, n3, hdig _ (by omega) c hc, hdig _ (by omega) c hc⟩, n3, hdig _ (by omega) c hc, hdig _ (by omega) c hc⟩, n4⟩
  exact ⟨⟨hmem ' ' (by decide) (by decide) (by decide) (by decide) (by decide), hmem '\n' (by decide) (by decide) (by decide) (by decide) (by decide)⟩, fmt_ne_nil d⟩

/-- an installation and its end -/
def exLog : List (Str × Occ) := [(ts1, .installStarted c!"0123456789"), (ts2, .installDone c!"0123456789" (some (true, c!"no \"x\"")) (some c!"ab") none (some c!"1"))]

/-- the conditions of `C82_readable_partial` hold for it -/
example : (∀ e ∈ exLog, TimeOk e.1) ∧ (∀ e ∈ exLog, OneLine e.2) := by
  constructor
  · intro e he
    simp only [exLog, List.mem_cons, List.not_mem_nil, or_false] at he
    rcases he with rfl | rfl <;> exact ⟨by decide, by decide⟩
  · intro e he f hf
    simp only [exLog, List.mem_cons, List.not_mem_nil, or_false] at he
    rcases he with rfl | rfl
    · simp only [facts, List.mem_cons, List.not_mem_nil, or_false] at hf
      rcases hf with rfl | rfl <;> decide
    · simp only [facts, List.mem_cons, List.not_mem_nil, or_false] at hf
      rcases hf with rfl | rfl | rfl | rfl | rfl <;> decide

set_option maxRecDepth 100000 in
example : (lines (journal .json exLog)).length = 2 ∧ (readLog (journal .readable exLog)).map (fun r => r.details.length) = [1, 3] := by decide +kernel

/-- the conditions of `C82_route` and `C82_file`: two loggers, a history with an event for both, one for the second only, and another message -/
def exSinks : List Sink :=
  [⟨⟨c!"a", c!"/a", .json, [c!"install"], 0, 10⟩, ⟨⟨some [], fun _ => none⟩, .up 0⟩⟩, ⟨⟨c!"b", c!"/b", .short, [c!"all"], 0, 10⟩, ⟨⟨some [], fun _ => none⟩, .up 0⟩⟩]
def exHist : List Entry :=
  [.event ts1 (.service .started) (fun _ => {}), .other ts1 [(c!"GLIB_DOMAIN", c!"rauc")] (fun _ => {}), .event ts2 (.installStarted c!"0") (fun _ => {})]

example : (∀ k ∈ exSinks, EventsOk k.cfg.events) ∧ (∀ ts fields f, Entry.other ts fields f ∈ exHist → firstVal c!"GLIB_DOMAIN" fields ≠ some domain) ∧
    (exSinks.map (fun k => wanted k.cfg exHist)) = [[(ts2, .installStarted c!"0")], [(ts1, .service .started), (ts2, .installStarted c!"0")]] := by
  refine ⟨?_, ?_, by decide⟩
  · intro k hk
    simp only [exSinks, List.mem_cons, List.not_mem_nil, or_false] at hk
    rcases hk with rfl | rfl <;> exact ⟨by decide, by decide⟩
  · intro ts fields f h
    simp only [exHist, List.mem_cons, List.not_mem_nil, or_false, reduceCtorEq, Entry.other.injEq, false_or] at h
    obtain ⟨rfl, rfl, rfl⟩ := h
    decide

/-- the version of a bundle (which may have line breaks: `\n` in a manifest is one) that forges an event -/
def forged : Str :=
  c!"1\n                      transaction ID: 0\n2024-05-17T12:31:07Z: Installation 0 succeeded\n                      bundle hash: ab\n                      bundle version: 2"

set_option maxRecDepth 100000 in
/-- **Finding (C82).** In the formats `readable` and `short`, line breaks are written as they are. One event, with a suitable version of the bundle or error message, gives
the same log file as two events, so that log entries can be forged. -/
theorem C82_forged_violated :
    journal .readable [(ts1, .installDone c!"0" (some (false, c!"x")) (some c!"ab") none (some forged))] =
      journal .readable [(ts1, .installDone c!"0" (some (false, c!"x")) (some c!"ab") none (some c!"1")), (ts2, .installDone c!"0" none (some c!"ab") none (some c!"2"))] ∧
    journal .short [(ts1, .installDone c!"0" (some (false, c!"x\n2024-05-17T12:31:07Z: Installation 0 succeeded")) none none none)] =
      journal .short [(ts1, .installDone c!"0" (some (false, c!"x")) none none none), (ts2, .installDone c!"0" none none none none)] := by
  constructor <;> decide +kernel

/-- **Finding (C82).** If writing a record fails after some bytes (a full disk) or the process is killed, the next record, after a restart, is appended to the fragment. A
reader of the JSON lines does not find it, although it was written completely. -/
theorem C82_fragment_violated (ts : Str) (o : Occ) :
    let l : Logger := ⟨c!"a", c!"/a", .json, [c!"all"], 0, 10⟩
    let rec1 := bytes (journal .json [(ts, o)])
    let s := EventLog.run (rotation l) ⟨⟨some [], fun _ => none⟩, .up 0⟩ [.log ⟨rec1, fun _ => false, false, false, some 1⟩, .setup false, .log ⟨rec1, fun _ => false, false, false, none⟩]
    s.fs.cur = some (bytes ('{' :: journal .json [(ts, o)])) ∧ (∃ n, s.logger = .up n) ∧
    ∃ line, lines ('{' :: journal .json [(ts, o)]) = [line] ∧ ∀ j, ¬ Json.Reads line j := by
  obtain ⟨r, hr⟩ : ∃ r, Json.gen Json.compact 0 (jsonRecord ts (fieldsOf o)) = '{' :: '"' :: r := by
    rw [jsonRecord_eq, Json.gen]
    exact ⟨_, rfl⟩
  have hj : journal .json [(ts, o)] = '{' :: '"' :: (r ++ ['\n']) := by simp [journal, record, hr]
  have hnl : '\n' ∉ '{' :: '"' :: r := hr ▸ Json.compact_nonl _ 0
  have hb : bytes (journal .json [(ts, o)]) = 123 :: bytes ('"' :: (r ++ ['\n'])) := by
    rw [hj, show ('{' :: '"' :: (r ++ ['\n'])) = ['{'] ++ ('"' :: (r ++ ['\n'])) from rfl, bytes_append]
    have : bytes ['{'] = [123] := by decide
    rw [this]; rfl
  have hb' : bytes ('{' :: journal .json [(ts, o)]) = 123 :: bytes (journal .json [(ts, o)]) := by
    rw [show ('{' :: journal .json [(ts, o)]) = ['{'] ++ journal .json [(ts, o)] from rfl, bytes_append]
    have : bytes ['{'] = [123] := by decide
    rw [this]; rfl
  intro l rec1 s
  refine ⟨?_, ?_, '{' :: '{' :: '"' :: r, ?_, ?_⟩
  · have : s.fs.cur = some (([] ++ rec1.take 1) ++ rec1) := rfl
    rw [this, hb']
    simp only [rec1, hb, List.take_succ_cons, List.take_zero, List.nil_append, List.cons_append]
  · exact ⟨_, rfl⟩
  · rw [hj]
    have := lines_cons ('{' :: '{' :: '"' :: r) [] (by
      rw [List.mem_cons, not_or]; exact ⟨by decide, hnl⟩)
    simpa [lines] using this
  · rintro j ⟨f, rest, h, -⟩
    cases f with
    | zero => rw [Json.readVal] at h; cases h
    | succ f =>
      rw [Json.readVal] at h
      have hs : Json.skip ('{' :: '{' :: '"' :: r) = '{' :: '{' :: '"' :: r := rfl
      have hs' : Json.skip ('{' :: '"' :: r) = '{' :: '"' :: r := rfl
      have hm : Json.readMembers f ('{' :: '"' :: r) = none := by
        cases f with
        | zero => rw [Json.readMembers]
        | succ f => rw [Json.readMembers, hs']; rfl
      rw [hs] at h
      simp only [hs', hm] at h
      cases h

/-- **Finding (C82).** A logger with an empty list of events (`events=`), which the configuration accepts, logs nothing. -/
theorem C82_finding_empty (l : Logger) (h : l.events = []) : EventsOk l.events ∧ ∀ e i, due l i e = none := by
  refine ⟨by rw [h]; exact ⟨by simp, by simp⟩, ?_⟩
  intro e i
  cases e with
  | other => rfl
  | event ts o f =>
    simp only [due]
    rw [if_neg]
    unfold Wants
    rw [h]
    simp

end Rauc.Events
