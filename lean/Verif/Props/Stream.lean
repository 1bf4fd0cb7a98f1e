import Verif.Model.Stream

/-!
# C72: the options given for a bundle are the ones that are used, all of them and no others
-/

namespace Rauc.Stream

/-! ## Dictionaries -/

theorem get_insert (d : VDict) (k k' : Str) (v : V) : (d.insert k v).get k' = if k' = k then some v else d.get k' := by
  unfold VDict.insert VDict.get
  by_cases h : k' = k
  · subst h; simp
  · rw [if_neg h, List.find?_cons_of_neg (by simpa using fun e => h e.symm)]
    induction d with
    | nil => rfl
    | cons p l ih =>
      by_cases hp : p.1 = k
      · rw [List.filter_cons_of_neg (by simp [hp]), ih, List.find?_cons_of_neg (by simp [hp]; exact fun e => h e.symm)]
      · rw [List.filter_cons_of_pos (by simp [hp])]
        by_cases hq : p.1 = k'
        · rw [List.find?_cons_of_pos (by simp [hq]), List.find?_cons_of_pos (by simp [hq])]
        · rw [List.find?_cons_of_neg (by simp [hq]), List.find?_cons_of_neg (by simp [hq]), ih]

theorem get_insertO (d : VDict) (k k' : Str) (v : Option V) : (d.insertO k v).get k' = if k' = k ∧ v.isSome then v else d.get k' := by
  cases v with
  | none => simp [VDict.insertO]
  | some x => simp [VDict.insertO, get_insert]

theorem get_remove (d : VDict) (k k' : Str) : (d.remove k).get k' = if k' = k then none else d.get k' := by
  unfold VDict.remove VDict.get
  induction d with
  | nil => simp
  | cons p l ih =>
    by_cases hp : p.1 = k
    · rw [List.filter_cons_of_neg (by simp [hp]), ih]
      by_cases h : k' = k
      · simp [h]
      · rw [if_neg h, if_neg h, List.find?_cons_of_neg (by simp [hp]; exact fun e => h e.symm)]
    · rw [List.filter_cons_of_pos (by simp [hp])]
      by_cases hq : p.1 = k'
      · rw [List.find?_cons_of_pos (by simp [hq]), List.find?_cons_of_pos (by simp [hq]), if_neg (by rw [← hq]; exact hp)]
      · rw [List.find?_cons_of_neg (by simp [hq]), List.find?_cons_of_neg (by simp [hq]), ih]

theorem get_nil (k : Str) : VDict.get [] k = none := rfl

theorem eq_nil_iff (d : VDict) : d = [] ↔ ∀ k, d.get k = none := by
  constructor
  · rintro rfl k; rfl
  · intro h
    cases d with
    | nil => rfl
    | cons p l =>
      have := h p.1
      simp [VDict.get] at this

/-- Specification: the value of a key in a received dictionary; of several entries the last one counts. -/
def last (l : List (Str × V)) (k : Str) : Option V := (l.reverse.find? (fun p => decide (p.1 = k))).map (·.2)

theorem fold_get (l : List (Str × V)) (d : VDict) (k : Str) :
    (l.foldl (fun d p => VDict.insert d p.1 p.2) d).get k = (last l k).or (d.get k) := by
  induction l generalizing d with
  | nil => simp [last]
  | cons p l ih =>
    rw [List.foldl_cons, ih, get_insert]
    unfold last
    rw [List.reverse_cons, List.find?_append]
    cases (l.reverse.find? (fun q => decide (q.1 = k))) with
    | some q => simp
    | none =>
      by_cases h : k = p.1
      · subst h; simp
      · have : ¬ p.1 = k := fun e => h e.symm
        simp [h, this]

theorem fromVariant_get (l : List (Str × V)) (k : Str) : (fromVariant l).get k = last l k := by
  unfold fromVariant
  rw [fold_get, get_nil, Option.or_none]

theorem last_of_nodup {l : List (Str × V)} (h : (l.map (·.1)).Nodup) (k : Str) (v : V) : last l k = some v ↔ (k, v) ∈ l := by
  unfold last
  constructor
  · intro e
    obtain ⟨q, hq, rfl⟩ := Option.map_eq_some_iff.1 e
    have h1 := List.mem_of_find?_eq_some hq
    have h2 : q.1 = k := by simpa using List.find?_some hq
    subst h2
    exact List.mem_reverse.1 h1
  · intro hm
    cases hq : l.reverse.find? (fun p => decide (p.1 = k)) with
    | none =>
      have := List.find?_eq_none.1 hq (k, v) (List.mem_reverse.2 hm)
      simp at this
    | some q =>
      have h1 := List.mem_reverse.1 (List.mem_of_find?_eq_some hq)
      have h2 : q.1 = k := by simpa using List.find?_some hq
      have : q = (k, v) := by
        clear hq
        induction l with
        | nil => cases hm
        | cons p l ih =>
          rw [List.map_cons, List.nodup_cons] at h
          rcases List.mem_cons.1 hm with e | hm' <;> rcases List.mem_cons.1 h1 with e' | h1'
          · exact e'.trans e.symm
          · have hx := List.mem_map_of_mem (f := (·.1)) h1'
            rw [h2] at hx
            exact absurd hx (by have := h.1; rw [← e] at this; exact this)
          · have hx := List.mem_map_of_mem (f := (·.1)) hm'
            exact absurd hx (by have := h.1; rw [← e', h2] at this; exact this)
          · exact ih h.2 hm' h1'
      rw [this]; rfl

theorem get_of_nodup {d : VDict} (h : (d.map (·.1)).Nodup) (k : Str) (v : V) : d.get k = some v ↔ (k, v) ∈ d := by
  have h' : (d.reverse.map (·.1)).Nodup := by
    rw [List.map_reverse]; exact (List.reverse_perm _).nodup_iff.2 h
  have := last_of_nodup h' k v
  unfold last at this
  rw [List.reverse_reverse] at this
  rw [← List.mem_reverse]
  exact this

theorem nodup_insert {d : VDict} (h : (d.map (·.1)).Nodup) (k : Str) (v : V) : ((d.insert k v).map (·.1)).Nodup := by
  unfold VDict.insert
  rw [List.map_cons, List.nodup_cons]
  refine ⟨?_, ?_⟩
  · intro hm
    obtain ⟨q, hq, e⟩ := List.mem_map.1 hm
    have := (List.mem_filter.1 hq).2
    exact absurd e (by simpa using this)
  · exact List.Nodup.sublist (List.Sublist.map _ List.filter_sublist) h

theorem nodup_insertO {d : VDict} (h : (d.map (·.1)).Nodup) (k : Str) (v : Option V) : ((d.insertO k v).map (·.1)).Nodup := by
  cases v with
  | none => exact h
  | some x => exact nodup_insert h k x

/-- a dictionary is sent with its entries in any order -/
theorem get_sent {d : VDict} (h : (d.map (·.1)).Nodup) {l : List (Str × V)} (hp : l.Perm d) (k : Str) : (fromVariant l).get k = d.get k := by
  rw [fromVariant_get]
  apply Option.ext
  intro v
  have hl : (l.map (·.1)).Nodup := (hp.map _).nodup_iff.2 h
  rw [last_of_nodup hl, get_of_nodup h, hp.mem_iff]

/-! ## Receiving options -/

theorem take_fst {α : Type} (conv : Option V → Option α) (d : VDict) (k : Str) : (take conv d k).1 = conv (d.get k) := by
  unfold take
  cases conv (d.get k) <;> rfl

theorem take_get {α : Type} (conv : Option V → Option α) (d : VDict) (k k' : Str) :
    (take conv d k).2.get k' = if k' = k ∧ (conv (d.get k)).isSome then none else d.get k' := by
  unfold take
  cases h : conv (d.get k) with
  | none => simp
  | some x => simp [get_remove]

/-- Specification: the options of InstallBundle and their types (docs/reference.rst) -/
inductive Option.Ok : Str → V → Prop
  | ignoreCompatible (x) : Ok c!"ignore-compatible" (.b x)
  | ignoreVersionLimit (x) : Ok c!"ignore-version-limit" (.b x)
  | transaction (x) : Ok c!"transaction-id" (.s x)
  | requireHash (x) : Ok c!"require-manifest-hash" (.s x)
  | cert (x) : Ok c!"tls-cert" (.s x)
  | key (x) : Ok c!"tls-key" (.s x)
  | ca (x) : Ok c!"tls-ca" (.s x)
  | noVerify (x) : Ok c!"tls-no-verify" (.b x)
  | headers (x) : Ok c!"http-headers" (.strv x)

/-- Specification: the options of a request -/
def accessOf (get : Str → Option V) : Access :=
  { cert := asS (get c!"tls-cert"), key := asS (get c!"tls-key"), ca := asS (get c!"tls-ca")
    noVerify := decide (get c!"tls-no-verify" = some (.b true)), headers := asStrv (get c!"http-headers") }

def argsOf (get : Str → Option V) : Args :=
  { ignoreCompatible := decide (get c!"ignore-compatible" = some (.b true))
    ignoreVersionLimit := decide (get c!"ignore-version-limit" = some (.b true))
    transaction := asS (get c!"transaction-id")
    requireHash := asS (get c!"require-manifest-hash")
    access := accessOf get }

theorem asB_getD (o : Option V) : (asB o).getD false = decide (o = some (.b true)) := by
  cases o with
  | none => rfl
  | some v =>
    cases v with
    | b x => cases x <;> simp [asB]
    | _ => simp [asB]

/-- is the entry used as an option of access? -/
def usedAccess (k : Str) (o : Option V) : Prop :=
  (k = c!"tls-cert" ∧ (asS o).isSome) ∨ (k = c!"tls-key" ∧ (asS o).isSome) ∨ (k = c!"tls-ca" ∧ (asS o).isSome) ∨
  (k = c!"tls-no-verify" ∧ (asB o).isSome) ∨ (k = c!"http-headers" ∧ (asStrv o).isSome)

theorem takeAccess_fst (d : VDict) : (takeAccess d).1 = accessOf d.get := by
  unfold takeAccess accessOf
  simp [take_fst, take_get, asB_getD]

theorem takeAccess_get (d : VDict) (k : Str) :
    (takeAccess d).2.get k = none ↔ d.get k = none ∨ usedAccess k (d.get k) := by
  unfold takeAccess usedAccess
  simp only [take_get]
  by_cases h1 : k = c!"tls-cert"
  · subst h1; simp [take_get]; cases asS (d.get c!"tls-cert") <;> simp
  by_cases h2 : k = c!"tls-key"
  · subst h2; simp [take_get]; cases asS (d.get c!"tls-key") <;> simp
  by_cases h3 : k = c!"tls-ca"
  · subst h3; simp [take_get]; cases asS (d.get c!"tls-ca") <;> simp
  by_cases h4 : k = c!"tls-no-verify"
  · subst h4; simp [take_get]; cases asB (d.get c!"tls-no-verify") <;> simp
  by_cases h5 : k = c!"http-headers"
  · subst h5; simp [take_get]; cases asStrv (d.get c!"http-headers") <;> simp
  simp only [h1, h2, h3, h4, h5, false_and, if_false, or_false]

/-- Specification: an entry that is one of the options with which the bundle is accessed (InspectBundle takes only these) -/
inductive Option.AccessOk : Str → V → Prop
  | cert (x) : AccessOk c!"tls-cert" (.s x)
  | key (x) : AccessOk c!"tls-key" (.s x)
  | ca (x) : AccessOk c!"tls-ca" (.s x)
  | noVerify (x) : AccessOk c!"tls-no-verify" (.b x)
  | headers (x) : AccessOk c!"http-headers" (.strv x)

theorem asS_some {o : Option V} : (asS o).isSome ↔ ∃ x, o = some (.s x) := by
  cases o with
  | none => simp [asS]
  | some v => cases v <;> simp [asS]

theorem asB_some {o : Option V} : (asB o).isSome ↔ ∃ x, o = some (.b x) := by
  cases o with
  | none => simp [asB]
  | some v => cases v <;> simp [asB]

theorem asStrv_some {o : Option V} : (asStrv o).isSome ↔ ∃ x, o = some (.strv x) := by
  cases o with
  | none => simp [asStrv]
  | some v => cases v <;> simp [asStrv]

theorem usedAccess_iff (k : Str) (o : Option V) : usedAccess k o ↔ ∃ v, o = some v ∧ Option.AccessOk k v := by
  unfold usedAccess
  simp only [asS_some, asB_some, asStrv_some]
  constructor
  · rintro (⟨rfl, x, rfl⟩ | ⟨rfl, x, rfl⟩ | ⟨rfl, x, rfl⟩ | ⟨rfl, x, rfl⟩ | ⟨rfl, x, rfl⟩)
    · exact ⟨_, rfl, .cert x⟩
    · exact ⟨_, rfl, .key x⟩
    · exact ⟨_, rfl, .ca x⟩
    · exact ⟨_, rfl, .noVerify x⟩
    · exact ⟨_, rfl, .headers x⟩
  · rintro ⟨v, rfl, h⟩
    cases h with
    | cert x => exact Or.inl ⟨rfl, x, rfl⟩
    | key x => exact Or.inr (Or.inl ⟨rfl, x, rfl⟩)
    | ca x => exact Or.inr (Or.inr (Or.inl ⟨rfl, x, rfl⟩))
    | noVerify x => exact Or.inr (Or.inr (Or.inr (Or.inl ⟨rfl, x, rfl⟩)))
    | headers x => exact Or.inr (Or.inr (Or.inr (Or.inr ⟨rfl, x, rfl⟩)))

theorem matchNil {α : Type} (d : VDict) (x a : α) :
    (match d with | [] => some x | _ :: _ => none) = some a ↔ (∀ k, d.get k = none) ∧ x = a := by
  rw [← eq_nil_iff]
  cases d <;> simp

/-- **C72.** InspectBundle accepts a request exactly if every entry is an option of access with the right type, and then uses exactly these. -/
theorem C72_inspect (l : List (Str × V)) (a : Access) :
    inspectRequest l = some a ↔ (∀ k v, last l k = some v → Option.AccessOk k v) ∧ a = accessOf (last l) := by
  unfold inspectRequest
  have hg : (fromVariant l).get = last l := funext (fromVariant_get l)
  refine (matchNil _ _ _).trans ?_
  rw [takeAccess_fst, hg]
  refine and_congr ⟨fun h k v hv => ?_, fun h k => ?_⟩ eq_comm
  · have := (takeAccess_get (fromVariant l) k).1 (h k)
    rw [hg, hv, usedAccess_iff] at this
    rcases this with h' | ⟨w, e, hw⟩
    · cases h'
    · cases e; exact hw
  · rw [takeAccess_get, hg]
    cases e : last l k with
    | none => exact Or.inl rfl
    | some v => exact Or.inr ((usedAccess_iff k _).2 ⟨v, rfl, h k v e⟩)

/-- the dictionary after the options of InstallBundle itself were taken -/
theorem rest_get (d : VDict) (k : Str) :
    (take asS (take asS (take asB (take asB d c!"ignore-compatible").2 c!"ignore-version-limit").2 c!"transaction-id").2 c!"require-manifest-hash").2.get k =
      if (k = c!"ignore-compatible" ∧ (asB (d.get k)).isSome) ∨ (k = c!"ignore-version-limit" ∧ (asB (d.get k)).isSome) ∨
        (k = c!"transaction-id" ∧ (asS (d.get k)).isSome) ∨ (k = c!"require-manifest-hash" ∧ (asS (d.get k)).isSome) then none else d.get k := by
  simp only [take_get]
  by_cases h1 : k = c!"ignore-compatible"
  · subst h1; simp
  by_cases h2 : k = c!"ignore-version-limit"
  · subst h2; simp
  by_cases h3 : k = c!"transaction-id"
  · subst h3; simp
  by_cases h4 : k = c!"require-manifest-hash"
  · subst h4; simp
  simp only [h1, h2, h3, h4, false_and, if_false, or_false]

theorem ok_access {k : Str} {v : V} (h : Option.AccessOk k v) : Option.Ok k v := by
  cases h with
  | cert x => exact .cert x
  | key x => exact .key x
  | ca x => exact .ca x
  | noVerify x => exact .noVerify x
  | headers x => exact .headers x

/-- **C72.** InstallBundle accepts a request exactly if every entry is a documented option with the right type (so an option with a wrong type or a misspelt name is never
silently dropped), and then uses exactly the options given. -/
theorem C72_install (l : List (Str × V)) (a : Args) :
    installRequest l = some a ↔ (∀ k v, last l k = some v → Option.Ok k v) ∧ a = argsOf (last l) := by
  unfold installRequest
  have hg : (fromVariant l).get = last l := funext (fromVariant_get l)
  refine (matchNil _ _ _).trans ?_
  refine and_congr ⟨fun h k v hv => ?_, fun h k => ?_⟩ ?_
  · have := (takeAccess_get _ k).1 (h k)
    rw [rest_get, hg, hv] at this
    split at this
    · rename_i hc
      simp only [asB_some, asS_some] at hc
      rcases hc with ⟨rfl, x, e⟩ | ⟨rfl, x, e⟩ | ⟨rfl, x, e⟩ | ⟨rfl, x, e⟩ <;> cases e
      · exact .ignoreCompatible x
      · exact .ignoreVersionLimit x
      · exact .transaction x
      · exact .requireHash x
    · rw [usedAccess_iff] at this
      rcases this with h' | ⟨w, e, hw⟩
      · cases h'
      · cases e; exact ok_access hw
  · rw [takeAccess_get, rest_get, hg]
    cases e : last l k with
    | none => left; split <;> rfl
    | some v =>
      have := h k v e
      cases this with
      | ignoreCompatible x => left; simp [asB]
      | ignoreVersionLimit x => left; simp [asB]
      | transaction x => left; simp [asS]
      | requireHash x => left; simp [asS]
      | cert x => right; rw [if_neg (by simp)]; exact (usedAccess_iff _ _).2 ⟨_, rfl, .cert x⟩
      | key x => right; rw [if_neg (by simp)]; exact (usedAccess_iff _ _).2 ⟨_, rfl, .key x⟩
      | ca x => right; rw [if_neg (by simp)]; exact (usedAccess_iff _ _).2 ⟨_, rfl, .ca x⟩
      | noVerify x => right; rw [if_neg (by simp)]; exact (usedAccess_iff _ _).2 ⟨_, rfl, .noVerify x⟩
      | headers x => right; rw [if_neg (by simp)]; exact (usedAccess_iff _ _).2 ⟨_, rfl, .headers x⟩
  · refine Iff.trans (b := argsOf (last l) = a) (iff_of_eq (congrArg (· = a) ?_)) eq_comm
    rw [takeAccess_fst]
    unfold argsOf accessOf
    simp [rest_get, take_fst, take_get, asB_getD, hg]

/-! ## From the command line to the service -/

theorem nodup_nil : (([] : VDict).map (·.1)).Nodup := List.nodup_nil

theorem nodup_clientDict (a : Args) : ((clientDict a).map (·.1)).Nodup := by
  unfold clientDict
  exact nodup_insertO (nodup_insertO (nodup_insertO (nodup_insertO (nodup_insertO (nodup_insertO (nodup_insertO (nodup_insert (nodup_insert nodup_nil _ _) _ _) _ _)
    _ _) _ _) _ _) _ _) _ _) _ _

theorem sent_eq {d : VDict} (h : (d.map (·.1)).Nodup) {l : List (Str × V)} (hp : l.Perm d) : last l = d.get := by
  funext k
  rw [← fromVariant_get, get_sent h hp]

theorem insertO_case {d : VDict} {k k' : Str} {o : Option V} {v : V} (h : (d.insertO k o).get k' = some v) :
    (k' = k ∧ o = some v) ∨ d.get k' = some v := by
  rw [get_insertO] at h
  split at h
  · rename_i hc; exact Or.inl ⟨hc.1, h⟩
  · exact Or.inr h

theorem insert_case {d : VDict} {k k' : Str} {w v : V} (h : (d.insert k w).get k' = some v) : (k' = k ∧ w = v) ∨ d.get k' = some v := by
  rw [get_insert] at h
  split at h
  · rename_i hc; exact Or.inl ⟨hc, by cases h; rfl⟩
  · exact Or.inr h

theorem map_s {o : Option Str} {v : V} (h : o.map V.s = some v) : ∃ x, v = .s x := by
  cases o with
  | none => cases h
  | some x => exact ⟨x, by cases h; rfl⟩

theorem client_ok (a : Args) {k : Str} {v : V} (h : (clientDict a).get k = some v) : Option.Ok k v := by
  unfold clientDict at h
  rcases insertO_case h with ⟨rfl, e⟩ | h
  · cases ha : a.access.headers with
    | none => rw [ha] at e; cases e
    | some x => rw [ha] at e; cases e; exact .headers x
  rcases insertO_case h with ⟨rfl, e⟩ | h
  · cases ha : a.access.noVerify with
    | false => rw [ha] at e; cases e
    | true => rw [ha] at e; cases e; exact .noVerify true
  rcases insertO_case h with ⟨rfl, e⟩ | h
  · obtain ⟨x, rfl⟩ := map_s e; exact .ca x
  rcases insertO_case h with ⟨rfl, e⟩ | h
  · obtain ⟨x, rfl⟩ := map_s e; exact .key x
  rcases insertO_case h with ⟨rfl, e⟩ | h
  · obtain ⟨x, rfl⟩ := map_s e; exact .cert x
  rcases insertO_case h with ⟨rfl, e⟩ | h
  · obtain ⟨x, rfl⟩ := map_s e; exact .requireHash x
  rcases insertO_case h with ⟨rfl, e⟩ | h
  · obtain ⟨x, rfl⟩ := map_s e; exact .transaction x
  rcases insert_case h with ⟨rfl, e⟩ | h
  · subst e; exact .ignoreVersionLimit _
  rcases insert_case h with ⟨rfl, e⟩ | h
  · subst e; exact .ignoreCompatible _
  · cases h

theorem asS_if (o : Option Str) : asS (if o.isSome = true then o.map V.s else none) = o := by cases o <;> rfl
theorem asStrv_if (o : Option (List Str)) : asStrv (if o.isSome = true then o.map V.strv else none) = o := by cases o <;> rfl
theorem asB_if (b : Bool) : (asB (if b = true then if b = true then some (V.b true) else none else none)).getD false = b := by cases b <;> rfl
theorem client_args (a : Args) : argsOf (clientDict a).get = a := by
  obtain ⟨ic, iv, tx, rh, cert, key, ca, nv, hs⟩ := a
  unfold argsOf accessOf clientDict
  simp [get_insertO, get_insert, get_nil]
  exact ⟨asS_if _, asS_if _, asS_if _, asS_if _, asS_if _, asStrv_if _⟩

/-- **C72.** Whatever options `rauc install` is called with: the service uses exactly these, in whatever order the entries of the dictionary travel. -/
theorem C72_cli (a : Args) {l : List (Str × V)} (hp : l.Perm (clientDict a)) : installRequest l = some a := by
  rw [C72_install, sent_eq (nodup_clientDict a) hp]
  exact ⟨fun k v h => client_ok a h, (client_args a).symm⟩

/-! ## From the service to the HTTP requests -/

theorem nodup_configDict (s : Server) : ((configDict s).map (·.1)).Nodup := by
  unfold configDict
  exact nodup_insertO (nodup_insertO (nodup_insertO (nodup_insertO (nodup_insertO (nodup_insertO (nodup_insert nodup_nil _ _) _ _) _ _) _ _) _ _) _ _) _ _

theorem child_config (s : Server) {l : List (Str × V)} (hp : l.Perm (configDict s)) :
    child (fromVariant l) = some { url := s.url, cert := s.cert, key := s.key, ca := s.ca, noVerify := s.noVerify, headers := s.headers.getD []
                                   initial := s.headers.getD [] ++ s.infoHeaders.getD [] } := by
  have hg : (fromVariant l).get = (configDict s).get := funext (get_sent (nodup_configDict s) hp)
  obtain ⟨url, cert, key, ca, nv, hs, ih⟩ := s
  unfold child
  rw [hg]
  unfold configDict
  simp [get_insertO, get_insert, get_nil]
  simp only [asS_if, asStrv_if, asB_if]
  rfl

/-- **C72.** The whole way of the options of `rauc install`: the first request for a bundle goes to the URL given, with the credentials given on the command line, or the
configured ones where none were given, verifies the server unless this was switched off explicitly, and carries the headers given, in order, followed by the
information headers. -/
theorem C72_first_request (c : Config) (url : Str) (a : Args) (info : Option (List Str)) {l m : List (Str × V)} (hl : l.Perm (clientDict a))
    {b : Args} (hb : installRequest l = some b) (hm : m.Perm (configDict (server c url b.access info))) :
    (child (fromVariant m)).map configureRequest = some
      { url := url
        cert := a.access.cert.or c.cert, key := a.access.key.or c.key, ca := a.access.ca.or c.ca
        verifyPeer := !a.access.noVerify
        headers := a.access.headers.getD [] ++ info.getD []
        range := c!"0-3" } := by
  rw [C72_cli a hl] at hb
  obtain rfl : a = b := Option.some.inj hb
  rw [child_config _ hm]
  show some (configureRequest _) = _
  congr 1
  unfold configureRequest prepare server
  dsimp only
  split
  · rename_i h
    have h' := List.append_eq_nil_iff.1 h
    simp only [h'.1, h'.2, List.append_nil]
  · rfl

/-- **C72.** Every later request goes to the URL the first one ended at, with the same credentials and the same decision about verification, carries the headers given and
none of the information headers, whatever these are. -/
theorem C72_later_requests (c : Config) (url : Str) (a : Args) (info : Option (List Str)) {l m : List (Str × V)} (hl : l.Perm (clientDict a))
    {b : Args} (hb : installRequest l = some b) (hm : m.Perm (configDict (server c url b.access info))) (effective : Str) (off len : Nat)
    (h1 : 0 < len) (h2 : off + len < 2 ^ 64) :
    (child (fromVariant m)).map (fun x => readRequest (redirected x effective) off len) = some
      { url := effective
        cert := a.access.cert.or c.cert, key := a.access.key.or c.key, ca := a.access.ca.or c.ca
        verifyPeer := !a.access.noVerify
        headers := a.access.headers.getD []
        range := toDec off ++ c!"-" ++ toDec (off + len - 1) } := by
  rw [C72_cli a hl] at hb
  obtain rfl : a = b := Option.some.inj hb
  rw [child_config _ hm]
  show some (readRequest _ _ _) = _
  congr 1
  unfold readRequest prepare server redirected
  dsimp only
  rw [Nat.mod_eq_of_lt (by omega), show (off + len + (2 ^ 64 - 1)) % 2 ^ 64 = off + len - 1 by omega, List.append_assoc]
  rfl

/-! ## Information about the system -/

/-- Specification: the standard information headers (docs/reference.rst, `send-headers`), by the name with which they are enabled -/
inductive StdLine (i : Info) (txn : Option Str) : Str → Str → Prop
  | bootId {v} (h : i.bootId = some v) : StdLine i txn c!"boot-id" (c!"RAUC-Boot-ID: " ++ v)
  | machineId {v} (h : i.machineId = some v) : StdLine i txn c!"machine-id" (c!"RAUC-Machine-ID: " ++ v)
  | version {v} (h : i.version = some v) : StdLine i txn c!"system-version" (c!"RAUC-System-Version: " ++ v)
  | serial {v} (h : i.serial = some v) : StdLine i txn c!"serial" (c!"RAUC-Serial: " ++ v)
  | variant {v} (h : i.variant = some v) : StdLine i txn c!"variant" (c!"RAUC-Variant: " ++ v)
  | transaction {v} (h : txn = some v) : StdLine i txn c!"transaction-id" (c!"RAUC-Transaction-ID: " ++ v)
  | uptime {v} (h : i.uptime = some v) : StdLine i txn c!"uptime" (c!"RAUC-Uptime: " ++ v)
  | noUptime (h : i.uptime = none) : StdLine i txn c!"uptime" c!"RAUC-Uptime: (null)"

theorem mem_lineO {x n : Str} {o : Option Str} : x ∈ lineO n o ↔ ∃ v, o = some v ∧ x = n ++ c!": " ++ v := by
  cases o with
  | none => simp [lineO]
  | some w => simp [lineO, line]

theorem mem_std (i : Info) (txn : Option Str) (h x : Str) : x ∈ stdHeader i txn h ↔ StdLine i txn h x := by
  constructor
  · intro hx
    unfold stdHeader at hx
    simp only [List.mem_append] at hx
    rcases hx with ((((((hx | hx) | hx) | hx) | hx) | hx) | hx) <;> split at hx
    all_goals first | cases hx; done | skip
    · rename_i e; subst e; obtain ⟨v, hv, rfl⟩ := mem_lineO.1 hx; exact .bootId hv
    · rename_i e; subst e; obtain ⟨v, hv, rfl⟩ := mem_lineO.1 hx; exact .machineId hv
    · rename_i e; subst e; obtain ⟨v, hv, rfl⟩ := mem_lineO.1 hx; exact .version hv
    · rename_i e; subst e; obtain ⟨v, hv, rfl⟩ := mem_lineO.1 hx; exact .serial hv
    · rename_i e; subst e; obtain ⟨v, hv, rfl⟩ := mem_lineO.1 hx; exact .variant hv
    · rename_i e; subst e; obtain ⟨v, hv, rfl⟩ := mem_lineO.1 hx; exact .transaction hv
    · rename_i e; subst e
      cases hu : i.uptime with
      | none => rw [hu] at hx; rw [List.mem_singleton.1 hx]; exact .noUptime hu
      | some v => rw [hu] at hx; rw [List.mem_singleton.1 hx]; exact .uptime hu
  · intro hx
    cases hx with
    | bootId h => simp [stdHeader, h, lineO, line]
    | machineId h => simp [stdHeader, h, lineO, line]
    | version h => simp [stdHeader, h, lineO, line]
    | serial h => simp [stdHeader, h, lineO, line]
    | variant h => simp [stdHeader, h, lineO, line]
    | transaction h => simp [stdHeader, h, lineO, line]
    | uptime h => simp [stdHeader, h, lineO, line]
    | noUptime h => simp [stdHeader, h, lineO, line]

/-- **C72.** What a server learns about the system: a line is among the information headers exactly if it is a standard header that the configuration enables and whose value is
known, or comes from an output `RAUC_HTTP_...` of the system information handler. -/
theorem C72_privacy (i : Info) (txn : Option Str) (x : Str) :
    x ∈ infoHeaders i txn ↔
      (∃ l h, i.enabled = some l ∧ h ∈ l ∧ StdLine i txn h x) ∨
      (∃ name value, (c!"RAUC_HTTP_" ++ name, value) ∈ i.systemInfo ∧
        x = c!"RAUC-" ++ name.map (fun c => if c = '_' then '-' else c) ++ c!": " ++ value) := by
  unfold infoHeaders
  rw [List.mem_append]
  refine or_congr ?_ ?_
  · cases i.enabled with
    | none => simp
    | some l =>
      simp only [List.mem_flatMap, mem_std]
      constructor
      · rintro ⟨h, hl, hx⟩; exact ⟨l, h, rfl, hl, hx⟩
      · rintro ⟨l', h, e, hl, hx⟩; cases e; exact ⟨h, hl, hx⟩
  · rw [List.mem_flatMap]
    constructor
    · rintro ⟨⟨k, v⟩, hm, hx⟩
      unfold sysHeader at hx
      split at hx
      · rename_i hp
        obtain ⟨n, rfl⟩ := List.isPrefixOf_iff_prefix.1 hp
        exact ⟨n, v, hm, List.mem_singleton.1 hx⟩
      · cases hx
    · rintro ⟨n, v, hm, rfl⟩
      refine ⟨_, hm, ?_⟩
      unfold sysHeader
      rw [if_pos (List.isPrefixOf_iff_prefix.2 ⟨n, rfl⟩)]
      exact List.mem_singleton.2 rfl

/-! ## Location of the bundle -/

theorem isAbs_cons {c : Char} {r : Str} (h : isAbs (c :: r) = true) : c = '/' := by
  unfold isAbs at h
  split at h
  · rename_i e; exact (List.cons.inj e).1
  · cases h

theorem isAbs_build {cwd : Str} (h : isAbs cwd = true) (p : Str) : isAbs (buildFilename cwd p) = true := by
  unfold buildFilename
  split
  · exact h
  · split
    · rfl
    · cases cwd with
      | nil => cases h
      | cons c r =>
        obtain rfl := isAbs_cons h
        rfl

/-- **C72.** The name that is handed to the service is the absolute path of an existing file, or the argument itself if it has a scheme other than `file`. -/
theorem C72_location (cwd : Str) (fromUri : Str → Option (Str × Option Str)) (isFile : Str → Bool) (path p : Str) (hc : isAbs cwd = true)
    (hu : ∀ u q h, fromUri u = some (q, h) → isAbs q = true) (h : resolve cwd fromUri isFile path = some p) :
    (isAbs p = true ∧ isFile p = true) ∨ (p = path ∧ ∃ s, parseScheme path = some s ∧ s ≠ c!"file") := by
  unfold resolve at h
  dsimp only at h
  split at h
  · split at h
    · cases h; rename_i h1; exact Or.inl ⟨isAbs_build hc path, h1⟩
    · cases h
  · rename_i h0
    split at h
    · split at h
      · cases h
      · cases h
      · rename_i q hq
        split at h
        · cases h; rename_i h1; exact Or.inl ⟨hu _ _ _ hq, h1⟩
        · cases h
    · rename_i h1
      split at h
      · rename_i h2
        split at h
        · cases h
          rename_i h3
          refine Or.inl ⟨?_, h3⟩
          cases ha : isAbs path with
          | true => rfl
          | false => exact absurd ⟨h2, ha⟩ h0
        · cases h
      · rename_i h2
        cases h
        cases hs : parseScheme path with
        | none => exact absurd hs h2
        | some s => exact Or.inr ⟨rfl, s, rfl, fun e => h1 (by rw [hs, e])⟩

/-- **C72 (partial).** An existing file is found, by its absolute name and, if the name contains no colon, by its name in the working directory. Missing: relative names with a colon
(`C72_colon_violated`). -/
theorem C72_file_partial (cwd : Str) (fromUri : Str → Option (Str × Option Str)) (isFile : Str → Bool) (path : Str) :
    (isAbs path = true → isFile path = true → resolve cwd fromUri isFile path = some path) ∧
    (isAbs path = false → ':' ∉ path → isFile (buildFilename cwd path) = true → resolve cwd fromUri isFile path = some (buildFilename cwd path)) := by
  constructor
  · intro ha hf
    have hs : parseScheme path = none := by
      cases path with
      | nil => rfl
      | cons c r =>
        obtain rfl := isAbs_cons ha
        rfl
    unfold resolve
    simp [hs, ha, hf]
  · intro ha hn hf
    have hs : parseScheme path = none := by
      cases path with
      | nil => rfl
      | cons c r =>
        simp only [parseScheme]
        split
        · split
          · rename_i e
            have : ':' ∈ r.dropWhile isSchemeChar := by rw [e]; exact List.mem_cons_self
            exact absurd (List.mem_cons_of_mem _ (List.dropWhile_sublist _ |>.subset this)) hn
          · rfl
        · rfl
    unfold resolve
    simp [hs, ha, hf]

/-- a scheme, RFC 3986: a letter, then letters, digits, `+`, `-` and `.` -/
def Scheme (s : Str) : Prop :=
  ∃ c r, s = c :: r ∧ c ∈ c!"abcdefghijklmnopqrstuvwxyzABCDEFGHIJKLMNOPQRSTUVWXYZ" ∧
    ∀ d ∈ r, d ∈ c!"abcdefghijklmnopqrstuvwxyzABCDEFGHIJKLMNOPQRSTUVWXYZ0123456789+-."

theorem mem_range {c : Char} {lo : Nat} {l : Str} (h : ∀ i < l.length, l[i]? = some (Char.ofNat (lo + i))) (h1 : lo ≤ c.toNat) (h2 : c.toNat < lo + l.length) : c ∈ l := by
  have := h (c.toNat - lo) (by omega)
  rw [show lo + (c.toNat - lo) = c.toNat by omega, Char.ofNat_toNat] at this
  exact List.mem_of_getElem? this

theorem isAlpha_iff (c : Char) : isAlpha c = true ↔ c ∈ c!"abcdefghijklmnopqrstuvwxyzABCDEFGHIJKLMNOPQRSTUVWXYZ" := by
  constructor
  · intro h
    simp only [isAlpha, Bool.or_eq_true, Bool.and_eq_true, decide_eq_true_eq, ge_iff_le, UInt32.le_iff_toNat_le] at h
    rcases h with ⟨h1, h2⟩ | ⟨h1, h2⟩
    · exact List.mem_append_left c!"ABCDEFGHIJKLMNOPQRSTUVWXYZ" (mem_range (lo := 97) (l := c!"abcdefghijklmnopqrstuvwxyz") (by decide) h1 (Nat.lt_succ_of_le h2))
    · exact List.mem_append_right c!"abcdefghijklmnopqrstuvwxyz" (mem_range (lo := 65) (l := c!"ABCDEFGHIJKLMNOPQRSTUVWXYZ") (by decide) h1 (Nat.lt_succ_of_le h2))
  · intro h
    revert c
    decide

theorem isSchemeChar_iff (c : Char) : isSchemeChar c = true ↔ c ∈ c!"abcdefghijklmnopqrstuvwxyzABCDEFGHIJKLMNOPQRSTUVWXYZ0123456789+-." := by
  constructor
  · intro h
    have key : c ∈ c!"abcdefghijklmnopqrstuvwxyzABCDEFGHIJKLMNOPQRSTUVWXYZ" ∨ c ∈ c!"0123456789" ∨ c = '.' ∨ c = '+' ∨ c = '-' := by
      simp only [isSchemeChar, Bool.or_eq_true, beq_iff_eq, isAlpha_iff, Bool.and_eq_true, decide_eq_true_eq, ge_iff_le, UInt32.le_iff_toNat_le] at h
      rcases h with (((h | h) | h) | h) | h
      · exact .inl h
      · exact .inr (.inl (mem_range (lo := 48) (l := c!"0123456789") (by decide) h.1 (Nat.lt_succ_of_le h.2)))
      · exact .inr (.inr (.inl h))
      · exact .inr (.inr (.inr (.inl h)))
      · exact .inr (.inr (.inr (.inr h)))
    rcases key with h | h | rfl | rfl | rfl
    · exact List.mem_append_left c!"0123456789+-." h
    · exact List.mem_append_right c!"abcdefghijklmnopqrstuvwxyzABCDEFGHIJKLMNOPQRSTUVWXYZ" (List.mem_append_left c!"+-." h)
    · decide
    · decide
    · decide
  · intro h
    revert c
    decide

/-- **C72.** What counts as a URL: everything that starts with a scheme (RFC 3986) and a colon. -/
theorem C72_scheme (path s : Str) : parseScheme path = some s ↔ Scheme s ∧ ∃ r, path = s ++ ':' :: r := by
  constructor
  · intro h
    cases path with
    | nil => cases h
    | cons c r =>
      simp only [parseScheme] at h
      split at h
      · rename_i hc
        split at h
        · rename_i r' e
          simp only [Option.some.injEq] at h
          subst h
          refine ⟨⟨c, _, rfl, (isAlpha_iff c).1 hc, fun d hd => (isSchemeChar_iff d).1 (List.all_eq_true.1 List.all_takeWhile d hd)⟩, r', ?_⟩
          rw [List.cons_append, ← e, List.takeWhile_append_dropWhile]
        · cases h
      · cases h
  · rintro ⟨⟨c, t, rfl, h1, h2⟩, r, rfl⟩
    have hn : ∀ d ∈ t, isSchemeChar d = true := fun d hd => (isSchemeChar_iff d).2 (h2 d hd)
    have hcol : isSchemeChar ':' = false := by decide
    have ha := (isAlpha_iff c).2 h1
    have e1 : (t ++ ':' :: r).dropWhile isSchemeChar = ':' :: r := by
      rw [List.dropWhile_append_of_pos hn, List.dropWhile_cons_of_neg (by simp [hcol])]
    have e2 : (t ++ ':' :: r).takeWhile isSchemeChar = t := by
      rw [List.takeWhile_append_of_pos hn, List.takeWhile_cons_of_neg (by simp [hcol]), List.append_nil]
    clear h1 h2
    simp only [List.cons_append, parseScheme, ha, if_true, e1, e2]

/-- **C72.** Bundles are streamed for the schemes http, https, ftp, ftps, tftp and sftp, and only for these. -/
theorem C72_remote (name : Str) : isRemote name = true ↔ ∃ s ∈ [c!"ftp", c!"ftps", c!"http", c!"https", c!"sftp", c!"tftp"], ∃ r, name = s ++ ':' :: r := by
  have hperm : ∀ s, s ∈ remoteSchemes ↔ s ∈ [c!"ftp", c!"ftps", c!"http", c!"https", c!"sftp", c!"tftp"] := by
    intro s
    constructor
    · intro h; revert s; decide
    · intro h; revert s; decide
  have hsch : ∀ s ∈ [c!"ftp", c!"ftps", c!"http", c!"https", c!"sftp", c!"tftp"], Scheme s := by
    intro s hs
    simp only [List.mem_cons, List.not_mem_nil, or_false] at hs
    rcases hs with rfl | rfl | rfl | rfl | rfl | rfl <;> exact ⟨_, _, rfl, by decide, by decide⟩
  unfold isRemote
  cases h : parseScheme name with
  | none =>
    simp only [Bool.false_eq_true, false_iff]
    rintro ⟨s, hs, r, hr⟩
    rw [(C72_scheme name s).2 ⟨hsch s hs, r, hr⟩] at h
    cases h
  | some s =>
    simp only [decide_eq_true_eq, hperm]
    constructor
    · intro hs
      exact ⟨s, hs, ((C72_scheme name s).1 h).2⟩
    · rintro ⟨s', hs, r, hr⟩
      rw [(C72_scheme name s').2 ⟨hsch s' hs, r, hr⟩] at h
      cases h
      exact hs

/-- **Finding (C72).** A bundle in the working directory whose name contains a colon is not found: its name is taken for a URL and handed to the service as it is. -/
theorem C72_colon_violated (fromUri : Str → Option (Str × Option Str)) (isFile : Str → Bool) :
    resolve c!"/home/user" fromUri isFile c!"update:2.raucb" = some c!"update:2.raucb" ∧ isAbs c!"update:2.raucb" = false ∧
    isRemote c!"update:2.raucb" = false := by
  refine ⟨?_, rfl, by decide⟩
  have h : parseScheme c!"update:2.raucb" = some c!"update" := by decide
  unfold resolve
  rw [h]
  rfl

/-! ## Examples -/

def argsEx : Args :=
  { transaction := some c!"t1", access := { cert := some c!"/c.pem", noVerify := false, headers := some [c!"Authorization: x", c!"A: b"] } }
def infoEx : Info :=
  { enabled := some [c!"boot-id", c!"serial", c!"uptime"], bootId := some c!"b", machineId := some c!"m", uptime := some c!"12.3"
    systemInfo := [(c!"RAUC_SYSTEM_SERIAL", c!"4"), (c!"RAUC_HTTP_SITE_ID", c!"7")] }

example : infoHeaders infoEx (some c!"t1") = [c!"RAUC-Boot-ID: b", c!"RAUC-Uptime: 12.3", c!"RAUC-SITE-ID: 7"] := by decide
example : installRequest (clientDict argsEx) = some argsEx := C72_cli argsEx (List.Perm.refl _)
/-- an unknown option is refused, and one with a wrong type as well -/
example : installRequest [(c!"tls-noverify", .b true)] = none := by decide
example : installRequest [(c!"http-headers", .s c!"A: b")] = none := by decide
/-- the first request of an installation, with a configured CA -/
example : (child (fromVariant (configDict (server { ca := some c!"/ca", cert := some c!"/other" } c!"https://h/b" argsEx.access (some (infoHeaders infoEx none)))))).map
    configureRequest = some
      { url := c!"https://h/b", cert := some c!"/c.pem", key := none, ca := some c!"/ca", verifyPeer := true
        headers := [c!"Authorization: x", c!"A: b", c!"RAUC-Boot-ID: b", c!"RAUC-Uptime: 12.3", c!"RAUC-SITE-ID: 7"], range := c!"0-3" } := by
  have := C72_first_request { ca := some c!"/ca", cert := some c!"/other" } c!"https://h/b" argsEx (some (infoHeaders infoEx none))
    (List.Perm.refl _) (C72_cli argsEx (List.Perm.refl _)) (List.Perm.refl _)
  rw [this]
  decide

end Rauc.Stream
