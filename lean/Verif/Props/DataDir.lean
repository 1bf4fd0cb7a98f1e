import Verif.Model.DataDir

/-!
# C66: the data directory of a slot

Specification: an index found under `hash-<digest>` was computed for an image with that digest, whatever happened before (interrupted installations, failing removals, reads of the status);
only `hash-unknown` may hold an index of an earlier image. Entries which do not begin with `hash-` are never touched. Once an installation has completed exactly the image's own
subdirectory is left.
-/

namespace Rauc.DataDir

/-! ## Specification -/

/-- where the content of the entry `n` may come from: it was there before (`d0`), it is empty, it is the index of an image installed under that digest, or it was moved to `hash-unknown` -/
inductive Origin (d0 : Dir) (H : List Attempt) : Str → Entry → Prop
  | initial (n e) : d0 n = some e → Origin d0 H n e
  | empty (n) : pre.isPrefixOf n = true → Origin d0 H n (.sub none)
  | installed (a d) : a ∈ H → a.digest = some d → Origin d0 H (sub d) (.sub (some a.index))
  | moved (n e) : Origin d0 H n e → pre.isPrefixOf n = true → Origin d0 H (sub unknown) e

/-- the images an operation may have exported -/
def Op.attempts : Op → List Attempt
  | .attempt a => [a]
  | _ => []

def attemptsOf (l : List Step) : List Attempt := l.flatMap (fun x => x.op.attempts)

/-- Images with a file have a digest (manifest.c:664, checked for every bundle), so every image installed with an adaptive method has one. -/
def WfAttempt (a : Attempt) : Prop := a.adaptive = true → a.digest ≠ none

/-- directory listings name everything -/
def Lists (E : Env) : Prop := ∀ d n, d n ≠ none → n ∈ E.ls d

/-- removals work -/
def Removes (E : Env) : Prop := ∀ n, E.rm n = .done

/-! ## Runs -/

/-- all states of a run satisfy `I` -/
def Run.All {α : Type} (I : St → Prop) (r : Run α) : Prop := (∀ s ∈ r.states, I s) ∧ I r.final

theorem all_pure {α : Type} {I : St → Prop} {s : St} {a : α} (h : I s) : (Run.pure s a).All I :=
  ⟨fun t ht => by simp only [Run.pure, List.mem_singleton] at ht; exact ht ▸ h, h⟩

theorem all_bind {α β : Type} {I : St → Prop} {r : Run α} {k : St → α → Run β} (h : r.All I) (hk : I r.final → (k r.final r.val).All I) : (r.bind k).All I := by
  refine ⟨fun t ht => ?_, (hk h.2).2⟩
  simp only [Run.bind, List.mem_append] at ht
  rcases ht with ht | ht
  · exact h.1 t ht
  · exact (hk h.2).1 t ht

theorem all_two {α : Type} {I : St → Prop} {s t : St} {a : α} (h : I s) (h' : I t) : (⟨[s, t], t, a⟩ : Run α).All I :=
  ⟨fun x hx => by simp only [List.mem_cons, List.not_mem_nil, or_false] at hx; rcases hx with rfl | rfl <;> assumption, h'⟩

theorem pre_sub (d : Str) : pre.isPrefixOf (sub d) = true := by simp [sub]

theorem set_same (d : Dir) (n : Str) (x : Option Entry) : d.set n x n = x := by simp [Dir.set]
theorem set_ne (d : Dir) {n m : Str} (x : Option Entry) (h : m ≠ n) : d.set n x m = d m := by simp [Dir.set, h]

/-! ## The invariant -/

/-- names of subdirectories which may appear: `hash-unknown`, those of the installed images, and those of the statuses found on the slot -/
structure Closed (H : List Attempt) (ps : Bool) (N : Str → Prop) : Prop where
  unknown : N (sub unknown)
  image : ∀ a ∈ H, ∀ d, a.digest = some d → N (sub d)
  onSlot : ps = true → ∀ a ∈ H, ∀ d, a.onSlot.digest = some d → N (sub d)

/-- every entry has an origin, foreign entries are the initial ones, and only the names `N` appear -/
structure Inv (d0 : Dir) (H : List Attempt) (N : Str → Prop) (s : St) : Prop where
  origin : ∀ n e, s.dir n = some e → Origin d0 H n e
  foreign : ∀ n, pre.isPrefixOf n = false → s.dir n = d0 n
  names : ∀ n, pre.isPrefixOf n = true → s.dir n ≠ none → N n
  mem : ∀ st d, s.mem = some st → st.digest = some d → N (sub d)
  disk : ∀ d, s.disk.digest = some d → N (sub d)

section
variable {d0 : Dir} {H : List Attempt} {N : Str → Prop} {ps : Bool}

theorem inv_set {s : St} {n : Str} {x : Option Entry} (h : Inv d0 H N s) (hn : pre.isPrefixOf n = true) (hx : ∀ e, x = some e → Origin d0 H n e ∧ N n) :
    Inv d0 H N { s with dir := s.dir.set n x } := by
  refine ⟨fun m e he => ?_, fun m hm => ?_, fun m hm hne => ?_, h.mem, h.disk⟩
  · have he : s.dir.set n x m = some e := he
    by_cases hmn : m = n
    · subst hmn; rw [set_same] at he; exact (hx e he).1
    · rw [set_ne _ _ hmn] at he; exact h.origin m e he
  · have : m ≠ n := by rintro rfl; rw [hn] at hm; cases hm
    show s.dir.set n x m = d0 m
    rw [set_ne _ _ this]; exact h.foreign m hm
  · have hne : s.dir.set n x m ≠ none := hne
    by_cases hmn : m = n
    · subst hmn; rw [set_same] at hne
      obtain ⟨e, he⟩ := Option.ne_none_iff_exists'.1 hne
      exact (hx e he).2
    · rw [set_ne _ _ hmn] at hne; exact h.names m hm hne

theorem inv_mem {s : St} (h : Inv d0 H N s) (m : Status) (hm : ∀ d, m.digest = some d → N (sub d)) : Inv d0 H N { s with mem := some m } :=
  ⟨h.origin, h.foreign, h.names, fun st d hst hd => by cases hst; exact hm d hd, h.disk⟩

theorem rmTree_all (E : Env) {n : Str} (hn : pre.isPrefixOf n = true) {s : St} (h : Inv d0 H N s) : (rmTree E n s).All (Inv d0 H N) := by
  have h0 : Inv d0 H N { s with dir := s.dir.set n none } := inv_set h hn (by simp)
  unfold rmTree
  split
  · exact all_pure h
  · split
    · exact all_two h h0
    · exact all_pure h
  · rename_i i hi
    have he : Inv d0 H N { s with dir := s.dir.set n (some (.sub none)) } :=
      inv_set h hn (fun e he => by cases he; exact ⟨.empty n hn, h.names n hn (by rw [hi]; simp)⟩)
    split
    · exact ⟨fun x hx => by
        simp only [List.mem_cons, List.not_mem_nil, or_false] at hx
        rcases hx with rfl | rfl | rfl <;> assumption, h0⟩
    · exact all_pure h
    · exact all_two h he

theorem nameFor_none (hN : Closed H ps N) {s : St} (h : Inv d0 H N s) : N (nameFor none s.mem) := by
  unfold nameFor
  cases hm : s.mem with
  | none => exact hN.unknown
  | some st =>
    cases hd : st.digest with
    | none => simpa [hd] using hN.unknown
    | some d => simpa [hd] using h.mem st d hm hd

theorem getDir_all (E : Env) (c : Option Str) {s : St} (h : Inv d0 H N s) (hc : N (nameFor c s.mem)) : (getDir E c s).All (Inv d0 H N) := by
  unfold getDir
  simp only
  split
  · exact all_pure h
  · exact all_pure h
  · split
    · exact all_two h (inv_set h (pre_sub _) (fun e he => by cases he; exact ⟨.empty _ (pre_sub _), hc⟩))
    · exact all_pure h

theorem rename_all (hN : Closed H ps N) (E : Env) (o : Str) {s : St} (h : Inv d0 H N s) : (rename E (sub o) (sub unknown) s).All (Inv d0 H N) := by
  unfold rename
  split
  · exact all_pure h
  · rename_i x hx
    split
    · exact all_pure h
    · refine all_two h ?_
      have h1 : Inv d0 H N { s with dir := s.dir.set (sub o) none } := inv_set h (pre_sub _) (by simp)
      exact inv_set h1 (pre_sub _) (fun e he => by cases he; exact ⟨.moved _ _ (h.origin _ _ hx) (pre_sub o), hN.unknown⟩)

theorem moveDir_all (hN : Closed H ps N) (E : Env) (old : Option Str) {s : St} (h : Inv d0 H N s) : (moveDir E old none s).All (Inv d0 H N) := by
  unfold moveDir
  split
  · exact all_pure h
  · refine all_bind (rmTree_all E (pre_sub _) h) (fun h => ?_)
    split
    · exact rename_all hN E _ h
    · exact all_pure h

theorem cleanLoop_all (E : Env) (keep : Str) (l : List Str) : ∀ {s : St}, Inv d0 H N s → (cleanLoop E keep l s).All (Inv d0 H N) := by
  induction l with
  | nil => intro s h; exact all_pure h
  | cons n l ih =>
    intro s h
    unfold cleanLoop
    split
    · exact ih h
    · split
      · exact ih h
      · rename_i hp _
        exact all_bind (rmTree_all E (by simpa using hp) h) (fun h => ih h)

theorem clean_all (E : Env) {s : St} (h : Inv d0 H N s) : (clean E s).All (Inv d0 H N) := by
  unfold clean
  split
  · exact all_pure h
  · exact cleanLoop_all E _ _ h

theorem load_all (E : Env) {s : St} (h : Inv d0 H N s) : (load E s).All (Inv d0 H N) := by
  unfold load
  refine clean_all E ?_
  split
  · exact inv_mem h _ h.disk
  · exact h

theorem save_all (E : Env) {s : St} (h : Inv d0 H N s) : (save E s).All (Inv d0 H N) := by
  unfold save
  refine all_bind (clean_all E h) (fun h => ?_)
  split
  · exact all_pure h
  · rename_i st hst
    split
    · exact all_two h ⟨h.origin, h.foreign, h.names, h.mem, fun d hd => h.mem st d hst hd⟩
    · exact all_pure h

theorem getDir_val (E : Env) (c : Option Str) (s : St) {n : Str} (h : (getDir E c s).val = some n) : n = nameFor c s.mem := by
  unfold getDir at h
  simp only at h
  split at h
  · exact (Option.some.inj h).symm
  · cases h
  · split at h
    · exact (Option.some.inj h).symm
    · cases h

theorem exportSlot_all (hN : Closed H ps N) (E : Env) {a : Attempt} (ha : a ∈ H) {d : Str} (hd : a.digest = some d) {s : St} (h : Inv d0 H N s) :
    (exportSlot E a s).All (Inv d0 H N) := by
  have hn : N (nameFor a.digest s.mem) := by rw [hd]; exact hN.image a ha d hd
  unfold exportSlot
  refine all_bind (getDir_all E _ h hn) (fun h => ?_)
  split
  · exact all_pure h
  · rename_i n hn
    have e := getDir_val E _ _ hn
    rw [hd] at e
    have e : n = sub d := e
    split
    · refine all_two h (inv_set h (by rw [e]; exact pre_sub _) (fun x hx => ?_))
      cases hx
      rw [e]
      exact ⟨.installed a d ha hd, hN.image a ha d hd⟩
    · exact all_pure h

theorem handler_all (hN : Closed H ps N) (E : Env) {a : Attempt} (ha : a ∈ H) (hw : WfAttempt a) {s : St} (h : Inv d0 H N s) : (handler E a s).All (Inv d0 H N) := by
  unfold handler
  split
  · rename_i had
    obtain ⟨d, hd⟩ := Option.ne_none_iff_exists'.1 (hw had)
    refine all_bind (getDir_all E _ h (nameFor_none hN h)) (fun h => ?_)
    split
    · exact all_pure h
    · split
      · exact all_bind (exportSlot_all hN E ha hd h) (fun h => all_pure h)
      · exact all_pure h
  · exact all_pure h

theorem writeSlot_all (hN : Closed H ps N) (E : Env) {a : Attempt} (ha : a ∈ H) (hw : WfAttempt a) {s : St} (h : Inv d0 H N s) :
    (writeSlot E ps a s).All (Inv d0 H N) := by
  unfold writeSlot
  have ho : Inv d0 H N (overwrite ps a s) := by
    unfold overwrite
    split
    · rename_i hps
      exact ⟨h.origin, h.foreign, h.names, h.mem, fun d hd => hN.onSlot hps a ha d hd⟩
    · exact h
  refine all_bind (handler_all hN E ha hw ho) (fun h => ?_)
  split
  · exact save_all E (inv_mem h _ (fun d hd => hN.image a ha d hd))
  · exact all_bind (save_all E (inv_mem h _ (fun d hd => hN.image a ha d hd))) (fun h => all_pure h)

theorem attempt_all (hN : Closed H ps N) (E : Env) {a : Attempt} (ha : a ∈ H) (hw : WfAttempt a) {s : St} (h : Inv d0 H N s) :
    (attempt E ps a s).All (Inv d0 H N) := by
  unfold attempt
  refine all_bind (load_all E h) (fun h => ?_)
  simp only
  split
  · exact save_all E (inv_mem h _ (fun d hd => hN.image a ha d hd))
  · split
    · exact writeSlot_all hN E ha hw h
    · refine all_bind (moveDir_all hN E _ (inv_mem h _ (fun d hd => by cases hd))) (fun h => ?_)
      refine all_bind (save_all E h) (fun h => ?_)
      split
      · exact writeSlot_all hN E ha hw h
      · exact all_pure h

theorem op_all (hN : Closed H ps N) (E : Env) (o : Op) (hH : ∀ a ∈ o.attempts, a ∈ H ∧ WfAttempt a) {s : St} (h : Inv d0 H N s) : (o.run E ps s).All (Inv d0 H N) := by
  cases o with
  | load => exact all_bind (load_all E h) (fun h => all_pure h)
  | attempt a => exact attempt_all hN E (hH a (by simp [Op.attempts])).1 (hH a (by simp [Op.attempts])).2 h
  | seed => exact all_bind (getDir_all E _ h (nameFor_none hN h)) (fun h => all_pure h)

theorem step_inv (hN : Closed H ps N) (x : Step) (hH : ∀ a ∈ x.op.attempts, a ∈ H ∧ WfAttempt a) {s : St} (h : Inv d0 H N s) : Inv d0 H N (x.run ps s) := by
  have hA := op_all hN x.env x.op hH h
  unfold Step.run
  split
  · exact hA.2
  · rename_i k _
    have : Inv d0 H N (((x.op.run x.env ps s).states)[k]?.getD s) := by
      cases hk : ((x.op.run x.env ps s).states)[k]? with
      | none => exact h
      | some t => exact hA.1 t (List.mem_of_getElem? hk)
    exact ⟨this.origin, this.foreign, this.names, (fun st d hst => by cases hst), this.disk⟩

end

theorem history_inv {ps : Bool} {H : List Attempt} {N : Str → Prop} (hN : Closed H ps N) (d0 : Dir) (l : List Step) :
    ∀ s : St, (∀ a ∈ attemptsOf l, a ∈ H ∧ WfAttempt a) → Inv d0 H N s → Inv d0 H N (history ps l s) := by
  induction l with
  | nil => intro s _ h; exact h
  | cons x l ih =>
    intro s hH h
    have : history ps (x :: l) s = history ps l (x.run ps s) := rfl
    rw [this]
    refine ih _ (fun a ha => hH a ?_) (step_inv hN x (fun a ha => hH a ?_) h)
    · simp only [attemptsOf, List.flatMap_cons, List.mem_append]; exact Or.inr ha
    · simp only [attemptsOf, List.flatMap_cons, List.mem_append]; exact Or.inl ha

theorem closed_true (H : List Attempt) (ps : Bool) : Closed H ps (fun _ => True) := ⟨trivial, fun _ _ _ _ => trivial, fun _ _ _ _ _ => trivial⟩

theorem inv_init (H : List Attempt) (s : St) : Inv s.dir H (fun _ => True) s :=
  ⟨fun n e h => .initial n e h, fun _ _ => rfl, fun _ _ _ => trivial, fun _ _ _ _ => trivial, fun _ _ => trivial⟩

theorem history_true (ps : Bool) (l : List Step) (s : St) (hw : ∀ a ∈ attemptsOf l, WfAttempt a) : Inv s.dir (attemptsOf l) (fun _ => True) (history ps l s) :=
  history_inv (closed_true _ ps) s.dir l s (fun a ha => ⟨ha, hw a ha⟩) (inv_init _ s)

/-- **C66.** Whatever happened — installations with any outcome, crashes at any point, failing removals, moves and writes — every index in the data directory has a known origin. -/
theorem C66_origin (ps : Bool) (l : List Step) (s : St) (hw : ∀ a ∈ attemptsOf l, WfAttempt a) (n : Str) (e : Entry) (h : (history ps l s).dir n = some e) :
    Origin s.dir (attemptsOf l) n e :=
  (history_true ps l s hw).origin n e h

/-- **C66.** In particular: starting with an empty directory, an index found under a digest other than `unknown` is the index of an image which was installed under this digest. -/
theorem C66_index_of_digest (ps : Bool) (l : List Step) (s : St) (hw : ∀ a ∈ attemptsOf l, WfAttempt a) (h0 : ∀ n, s.dir n = none)
    (d : Str) (idx : List Nat) (hd : d ≠ unknown) (h : (history ps l s).dir (sub d) = some (.sub (some idx))) :
    ∃ a ∈ attemptsOf l, a.digest = some d ∧ a.index = idx := by
  have hinj : ∀ a b : Str, sub a = sub b → a = b := fun a b hab => List.append_cancel_left hab
  have ho := C66_origin ps l s hw _ _ h
  generalize hn : sub d = n at ho
  generalize he : Entry.sub (some idx) = e at ho
  cases ho with
  | initial _ _ h => rw [h0] at h; cases h
  | empty => cases he
  | installed a d' ha hd' =>
    cases he
    exact ⟨a, ha, by rw [hd', hinj _ _ hn], rfl⟩
  | moved => exact absurd (hinj _ _ hn) hd

/-- **C66.** Entries which do not begin with `hash-` are never created, changed or removed. -/
theorem C66_foreign_untouched (ps : Bool) (l : List Step) (s : St) (hw : ∀ a ∈ attemptsOf l, WfAttempt a) (n : Str) (hn : pre.isPrefixOf n = false) :
    (history ps l s).dir n = s.dir n :=
  (history_true ps l s hw).foreign n hn

/-! ## What is left -/

theorem rmTree_done (E : Env) (hr : Removes E) (n : Str) (s : St) : (rmTree E n s).final = { s with dir := s.dir.set n none } := by
  unfold rmTree
  rw [hr n]
  split
  · rename_i h
    show s = _
    have : s.dir.set n none = s.dir := by
      funext m
      by_cases hm : m = n
      · subst hm; rw [set_same, h]
      · rw [set_ne _ _ hm]
    rw [this]
  · rfl
  · rfl

theorem cleanLoop_done (E : Env) (hr : Removes E) (keep : Str) (l : List Str) : ∀ s : St,
    (cleanLoop E keep l s).final.mem = s.mem ∧ (cleanLoop E keep l s).final.disk = s.disk ∧
      ∀ n, (cleanLoop E keep l s).final.dir n = if n ∈ l ∧ pre.isPrefixOf n = true ∧ n ≠ keep then none else s.dir n := by
  induction l with
  | nil => intro s; exact ⟨rfl, rfl, fun n => by simp [cleanLoop, Run.pure]⟩
  | cons m l ih =>
    intro s
    unfold cleanLoop
    split
    · rename_i hp
      refine ⟨(ih s).1, (ih s).2.1, fun n => ?_⟩
      rw [(ih s).2.2 n]
      by_cases hnm : n = m
      · subst hnm; simp [hp]
      · simp [hnm]
    · split
      · rename_i hk
        refine ⟨(ih s).1, (ih s).2.1, fun n => ?_⟩
        rw [(ih s).2.2 n]
        by_cases hnm : n = m
        · subst hnm; simp [hk]
        · simp [hnm]
      · rename_i hp hk
        have e : (rmTree E m s).final = _ := rmTree_done E hr m s
        show (cleanLoop E keep l (rmTree E m s).final).final.mem = _ ∧ (cleanLoop E keep l (rmTree E m s).final).final.disk = _ ∧
          ∀ n, (cleanLoop E keep l (rmTree E m s).final).final.dir n = _
        rw [e]
        refine ⟨(ih _).1, (ih _).2.1, fun n => ?_⟩
        rw [(ih _).2.2 n]
        by_cases hnm : n = m
        · subst hnm
          have hp : pre.isPrefixOf n = true := by simpa using hp
          simp [hp, hk, set_same]
        · simp [hnm, set_ne]

/-- a clean which is not skipped leaves, of the names beginning with `hash-`, only the expected one, which it does not change -/
theorem clean_done (E : Env) (hl : Lists E) (hr : Removes E) (s : St) (hp : isPending s.mem = false) :
    (clean E s).final.mem = s.mem ∧ (clean E s).final.disk = s.disk ∧
      ∀ n, (clean E s).final.dir n = if pre.isPrefixOf n = true ∧ n ≠ expected s.mem then none else s.dir n := by
  unfold clean
  rw [if_neg (by rw [hp]; simp)]
  obtain ⟨h1, h2, h3⟩ := cleanLoop_done E hr (expected s.mem) (E.ls s.dir) s
  refine ⟨h1, h2, fun n => ?_⟩
  rw [h3 n]
  by_cases hn : s.dir n = none
  · rw [hn]; split <;> split <;> rfl
  · have := hl s.dir n hn
    simp [this]

theorem rmTree_kept (E : Env) (n : Str) (s : St) : (rmTree E n s).final.mem = s.mem ∧ (rmTree E n s).final.disk = s.disk := by
  unfold rmTree
  split
  · exact ⟨rfl, rfl⟩
  · split <;> exact ⟨rfl, rfl⟩
  · split <;> exact ⟨rfl, rfl⟩

theorem cleanLoop_kept (E : Env) (keep : Str) (l : List Str) : ∀ s : St, (cleanLoop E keep l s).final.mem = s.mem ∧ (cleanLoop E keep l s).final.disk = s.disk := by
  induction l with
  | nil => intro s; exact ⟨rfl, rfl⟩
  | cons m l ih =>
    intro s
    unfold cleanLoop
    split
    · exact ih s
    · split
      · exact ih s
      · have h := ih (rmTree E m s).final
        exact ⟨h.1.trans (rmTree_kept E m s).1, h.2.trans (rmTree_kept E m s).2⟩

theorem clean_kept (E : Env) (s : St) : (clean E s).final.mem = s.mem ∧ (clean E s).final.disk = s.disk := by
  unfold clean
  split
  · exact ⟨rfl, rfl⟩
  · exact cleanLoop_kept E _ _ s

/-- what a successful save means -/
theorem save_ok (E : Env) (s : St) (st : Status) (hm : s.mem = some st) (h : (save E s).val = true) :
    (save E s).final.mem = some st ∧ (save E s).final.disk = st ∧ (save E s).final.dir = (clean E s).final.dir := by
  have hc : (clean E s).final.mem = some st := (clean_kept E s).1.trans hm
  unfold save Run.bind at h ⊢
  simp only at h ⊢
  rw [hc] at h ⊢
  simp only at h ⊢
  split at h
  · rename_i ho
    rw [if_pos ho]
    exact ⟨rfl, rfl, rfl⟩
  · cases h

theorem save_val (E : Env) (s : St) (st : Status) (hm : s.mem = some st) (h : E.saveOk st = true) : (save E s).val = true := by
  have hc : (clean E s).final.mem = some st := (clean_kept E s).1.trans hm
  unfold save Run.bind
  simp only
  rw [hc]
  simp only
  rw [if_pos h]

/-- the last save of a successful attempt -/
theorem attempt_last (E : Env) (ps : Bool) (a : Attempt) (s : St) (h : (attempt E ps a s).val = true) :
    ∃ s1 : St, (attempt E ps a s).final = (save E { s1 with mem := some (finished c!"ok" a) }).final ∧
      (save E { s1 with mem := some (finished c!"ok" a) }).val = true := by
  have hW : ∀ s, (writeSlot E ps a s).val = true → ∃ s1 : St, (writeSlot E ps a s).final = (save E { s1 with mem := some (finished c!"ok" a) }).final ∧
      (save E { s1 with mem := some (finished c!"ok" a) }).val = true := by
    intro s h
    refine ⟨(handler E a (overwrite ps a s)).final, ?_⟩
    unfold writeSlot Run.bind at h ⊢
    simp only at h ⊢
    split at h
    · rename_i ho
      rw [if_pos ho]
      exact ⟨rfl, h⟩
    · simp [Run.pure] at h
  unfold attempt at h ⊢
  unfold Run.bind at h ⊢
  simp only at h ⊢
  split at h
  · rename_i hs
    rw [if_pos hs]
    exact ⟨_, rfl, h⟩
  · rename_i hs
    rw [if_neg hs]
    split at h
    · rename_i hps
      rw [if_pos hps]
      exact hW _ h
    · rename_i hps
      rw [if_neg hps]
      split at h
      · rename_i ho
        rw [if_pos ho]
        exact hW _ h
      · cases h

/-- **C66.** A successful installation records the image's digest with status `ok`; of the entries beginning with `hash-` only the one for this digest can be left, provided that removing works. -/
theorem C66_one_left (E : Env) (ps : Bool) (a : Attempt) (s : St) (d : Str) (hd : a.digest = some d) (h : (attempt E ps a s).val = true) :
    (attempt E ps a s).final.disk = ⟨some c!"ok", some d⟩ ∧ (attempt E ps a s).final.mem = some ⟨some c!"ok", some d⟩ ∧
      (Lists E → Removes E → ∀ n, pre.isPrefixOf n = true → (attempt E ps a s).final.dir n ≠ none → n = sub d) := by
  obtain ⟨s1, e, hv⟩ := attempt_last E ps a s h
  obtain ⟨h1, h2, h3⟩ := save_ok E _ _ rfl hv
  have hf : finished c!"ok" a = ⟨some c!"ok", some d⟩ := by unfold finished; rw [hd]
  rw [e]
  refine ⟨by rw [h2, hf], by rw [h1, hf], fun hl hr n hn hne => ?_⟩
  rw [h3, (clean_done E hl hr _ (by rw [hf]; rfl)).2.2 n] at hne
  refine Decidable.not_not.1 (fun hk => hne ?_)
  exact if_pos ⟨hn, by rw [hf]; exact hk⟩

/-- **C66.** Reading the status of a slot leaves, of the entries beginning with `hash-`, only the one of the recorded digest, unless an installation is under way (or was interrupted). -/
theorem C66_after_load (E : Env) (s : St) (hl : Lists E) (hr : Removes E) (n : Str) (hn : pre.isPrefixOf n = true)
    (hne : (load E s).final.dir n ≠ none) :
    n = sub ((s.mem.getD s.disk).digest.getD c!"(null)") ∨ (s.mem.getD s.disk).status = some c!"pending" := by
  obtain ⟨t, ht, hm⟩ : ∃ t : St, (load E s) = clean E t ∧ t.mem = some (s.mem.getD s.disk) := by
    unfold load
    cases hs : s.mem with
    | none => exact ⟨_, rfl, rfl⟩
    | some st => exact ⟨_, rfl, hs⟩
  rw [ht] at hne
  by_cases hp : isPending t.mem = false
  · rw [(clean_done E hl hr t hp).2.2 n] at hne
    refine Or.inl (Decidable.not_not.1 (fun hk => hne ?_))
    exact if_pos ⟨hn, by rw [hm]; exact hk⟩
  · right
    rw [hm] at hp
    simpa [isPending] using hp

/-- **C66.** If writing the slot fails the status records the digest of the *new* image with status `failed` (if the status can be saved), and only the entry for this digest can be left. -/
theorem C66_failed_left (E : Env) (ps : Bool) (a : Attempt) (s : St) (d : Str) (hd : a.digest = some d)
    (hf : (handler E a (overwrite ps a s)).val = false) (ho : E.saveOk ⟨some c!"failed", some d⟩ = true) :
    (writeSlot E ps a s).val = false ∧ (writeSlot E ps a s).final.disk = ⟨some c!"failed", some d⟩ ∧
      (Lists E → Removes E → ∀ n, pre.isPrefixOf n = true → (writeSlot E ps a s).final.dir n ≠ none → n = sub d) := by
  have hfin : finished c!"failed" a = ⟨some c!"failed", some d⟩ := by unfold finished; rw [hd]
  have hw : (writeSlot E ps a s).final = (save E { (handler E a (overwrite ps a s)).final with mem := some (finished c!"failed" a) }).final ∧
      (writeSlot E ps a s).val = false := by
    unfold writeSlot Run.bind
    simp only
    rw [if_neg (by rw [hf]; simp)]
    exact ⟨rfl, rfl⟩
  rw [hw.1, hw.2, hfin]
  have hv := save_val E { (handler E a (overwrite ps a s)).final with mem := some (⟨some c!"failed", some d⟩ : Status) } _ rfl ho
  obtain ⟨h1, h2, h3⟩ := save_ok E _ _ rfl hv
  refine ⟨rfl, h2, fun hl hr n hn hne => ?_⟩
  rw [h3, (clean_done E hl hr _ rfl).2.2 n] at hne
  exact Decidable.not_not.1 (fun hk => hne (if_pos ⟨hn, hk⟩))

/-! ## How many -/

/-- **C66.** With the status in a global file, what can accumulate: besides `hash-unknown` and what was there before, only the names for the recorded digest and for the images installed since. -/
theorem C66_names (l : List Step) (s : St) (hw : ∀ a ∈ attemptsOf l, WfAttempt a) (n : Str) (hn : pre.isPrefixOf n = true) (h : (history false l s).dir n ≠ none) :
    s.dir n ≠ none ∨ n = sub unknown ∨ (∃ d, (s.disk.digest = some d ∨ ∃ st, s.mem = some st ∧ st.digest = some d) ∧ n = sub d) ∨
      ∃ a ∈ attemptsOf l, ∃ d, a.digest = some d ∧ n = sub d := by
  refine (history_inv (H := attemptsOf l) (ps := false) (N := fun n => s.dir n ≠ none ∨ n = sub unknown ∨
    (∃ d, (s.disk.digest = some d ∨ ∃ st, s.mem = some st ∧ st.digest = some d) ∧ n = sub d) ∨ ∃ a ∈ attemptsOf l, ∃ d, a.digest = some d ∧ n = sub d)
    ⟨Or.inr (Or.inl rfl), fun a ha d hd => Or.inr (Or.inr (Or.inr ⟨a, ha, d, hd, rfl⟩)), fun h => by cases h⟩ s.dir l s (fun a ha => ⟨ha, hw a ha⟩) ?_).names n hn h
  exact ⟨fun n e h => .initial n e h, fun _ _ => rfl, fun n _ h => Or.inl h, fun st d hst hd => Or.inr (Or.inr (Or.inl ⟨d, Or.inr ⟨st, hst, hd⟩, rfl⟩)),
    fun d hd => Or.inr (Or.inr (Or.inl ⟨d, Or.inl hd, rfl⟩))⟩

/-- **C66.** After a completed installation of `d` followed by any history `l`, only the entries for `d`, for the images of `l` and `hash-unknown` are there: at most two more
than there were installations in `l`. -/
theorem C66_bounded (E : Env) (a : Attempt) (d : Str) (hd : a.digest = some d) (s : St) (hl : Lists E) (hr : Removes E) (hok : (attempt E false a s).val = true)
    (l : List Step) (hw : ∀ b ∈ attemptsOf l, WfAttempt b) (n : Str) (hn : pre.isPrefixOf n = true)
    (h : (history false l (attempt E false a s).final).dir n ≠ none) :
    n = sub d ∨ n = sub unknown ∨ ∃ b ∈ attemptsOf l, ∃ d', b.digest = some d' ∧ n = sub d' := by
  obtain ⟨h1, h2, h3⟩ := C66_one_left E false a s d hd hok
  rcases C66_names l _ hw n hn h with g | g | ⟨x, g, rfl⟩ | g
  · exact Or.inl (h3 hl hr n hn g)
  · exact Or.inr (Or.inl g)
  · left
    rw [h1, h2] at g
    rcases g with g | ⟨st, hst, g⟩
    · cases g; rfl
    · cases hst; cases g; rfl
  · exact Or.inr (Or.inr g)

/-! ## The index of the new image -/

theorem getDir_done (E : Env) (hm : E.mkdirOk = true) (c : Option Str) (s : St) (hn : ∀ x, s.dir (nameFor c s.mem) ≠ some (.other x)) :
    (getDir E c s).val = some (nameFor c s.mem) ∧ (getDir E c s).final.mem = s.mem ∧
      (∀ m, m ≠ nameFor c s.mem → (getDir E c s).final.dir m = s.dir m) ∧ ∃ i, (getDir E c s).final.dir (nameFor c s.mem) = some (.sub i) := by
  unfold getDir
  simp only
  split
  · rename_i i hi; exact ⟨rfl, rfl, fun _ _ => rfl, i, hi⟩
  · rename_i x hx; exact absurd hx (hn x)
  · rw [if_pos hm]
    exact ⟨rfl, rfl, fun m h => set_ne _ _ h, none, set_same _ _ _⟩

/-- **C66.** When an adaptive update succeeds (and the data directory is usable), the data directory afterwards contains the index of the new image under its digest: the next
update can use the slot as a source without reading all of it. -/
theorem C66_index_kept (E : Env) (ps : Bool) (a : Attempt) (s : St) (d : Str) (hd : a.digest = some d) (had : a.adaptive = true) (hc : a.copied = true)
    (hk : a.ok = true) (hm : E.mkdirOk = true) (hwo : E.writeOk = true) (hl : Lists E) (hr : Removes E) (ho : E.saveOk ⟨some c!"ok", some d⟩ = true)
    (hno : ∀ n x, s.dir n ≠ some (.other x)) :
    (writeSlot E ps a s).val = true ∧ (writeSlot E ps a s).final.dir (sub d) = some (.sub (some a.index)) ∧
      ∀ n, pre.isPrefixOf n = true → (writeSlot E ps a s).final.dir n ≠ none → n = sub d := by
  have hfin : finished c!"ok" a = ⟨some c!"ok", some d⟩ := by unfold finished; rw [hd]
  have hov : (overwrite ps a s).dir = s.dir := by unfold overwrite; split <;> rfl
  have hH : (handler E a (overwrite ps a s)).val = true ∧ (handler E a (overwrite ps a s)).final.dir (sub d) = some (.sub (some a.index)) := by
    obtain ⟨g1, g2, g3, i, g4⟩ := getDir_done E hm none (overwrite ps a s) (by rw [hov]; exact hno _)
    unfold handler
    rw [if_pos had]
    unfold Run.bind
    simp only
    rw [g1]
    simp only
    rw [if_pos hc]
    refine ⟨hk, ?_⟩
    have hx : ∀ x, (getDir E none (overwrite ps a s)).final.dir (nameFor a.digest (getDir E none (overwrite ps a s)).final.mem) ≠ some (.other x) := by
      intro x hx
      by_cases he : nameFor a.digest (getDir E none (overwrite ps a s)).final.mem = nameFor none (overwrite ps a s).mem
      · rw [he, g4] at hx; cases hx
      · rw [g3 _ he, hov] at hx; exact hno _ _ hx
    obtain ⟨k1, _, _, _⟩ := getDir_done E hm a.digest _ hx
    show (exportSlot E a (getDir E none (overwrite ps a s)).final).final.dir (sub d) = _
    unfold exportSlot Run.bind
    simp only
    rw [k1]
    simp only
    rw [if_pos hwo, hd]
    exact set_same _ _ _
  have hw : writeSlot E ps a s = (handler E a (overwrite ps a s)).bind fun s ok =>
    if ok then save E { s with mem := some (finished c!"ok" a) }
    else (save E { s with mem := some (finished c!"failed" a) }).bind fun s _ => .pure s false := rfl
  have hw1 : (writeSlot E ps a s).final = (save E { (handler E a (overwrite ps a s)).final with mem := some (finished c!"ok" a) }).final ∧
      (writeSlot E ps a s).val = (save E { (handler E a (overwrite ps a s)).final with mem := some (finished c!"ok" a) }).val := by
    rw [hw]; unfold Run.bind; simp only; rw [if_pos hH.1]; exact ⟨rfl, rfl⟩
  rw [hw1.1, hw1.2, hfin]
  have hv := save_val E { (handler E a (overwrite ps a s)).final with mem := some (⟨some c!"ok", some d⟩ : Status) } _ rfl ho
  obtain ⟨h1, h2, h3⟩ := save_ok E _ _ rfl hv
  refine ⟨hv, ?_, fun n hn hne => ?_⟩
  · rw [h3, (clean_done E hl hr _ rfl).2.2 (sub d), if_neg (by rintro ⟨_, h⟩; exact h rfl)]
    exact hH.2
  · rw [h3, (clean_done E hl hr _ rfl).2.2 n] at hne
    exact Decidable.not_not.1 (fun hk => hne (if_pos ⟨hn, hk⟩))

/-! ## Interrupted installations accumulate -/

/-- an environment in which everything works -/
def works (ls : Dir → List Str) : Env := ⟨ls, fun _ => .done, false, true, true, fun _ => true⟩

/-- an adaptive installation which is interrupted just after the index was exported -/
def interrupted (ls : Dir → List Str) (d : Str) : Step :=
  ⟨works ls, .attempt ⟨some d, false, true, true, [], true, Status.empty⟩, some 9⟩

theorem interrupted_run (ls : Dir → List Str) (d : Str) (s : St) (hm : s.mem = none) (hd : s.disk = ⟨some c!"pending", none⟩)
    (hu : s.dir (sub unknown) = some (.sub none)) (hn : s.dir (sub d) = none) :
    (interrupted ls d).run false s = { s with dir := s.dir.set (sub d) (some (.sub (some []))) } := by
  obtain ⟨dir, mem, disk⟩ := s
  simp only at hm hd hu hn
  subst hm hd
  have hu' : dir (nameFor none (some ⟨some c!"pending", none⟩)) = some (.sub none) := hu
  have hn' : dir (nameFor (some d) (some ⟨some c!"pending", none⟩)) = none := hn
  have hp : isPending (some ⟨some c!"pending", none⟩) = true := by decide
  have hsk : skips ⟨some d, false, true, true, [], true, Status.empty⟩ ⟨some c!"pending", none⟩ = false := by simp [skips]
  unfold Step.run interrupted Op.run attempt load
  simp only [Run.bind, Run.pure, clean, hp, if_true, Option.getD_some, hsk, moveDir, save, works, writeSlot, overwrite, handler, getDir, hu', exportSlot, hn']
  simp only [Bool.false_eq_true, if_false, if_true, List.cons_append, List.nil_append, Run.pure, hn', List.getElem?_cons_succ, List.getElem?_cons_zero, Option.getD_some]
  unfold restart
  simp only [hu', hn', List.cons_append, List.nil_append, List.getElem?_cons_succ, List.getElem?_cons_zero, Option.getD_some, if_true]
  congr 1
  funext m
  unfold Dir.set nameFor
  simp
  split <;> rfl

/-- **C66.** While a slot is `pending` nothing is removed: with every removal working, the entries of any number of interrupted installations accumulate (until an installation completes,
see `C66_one_left`). So the bound of `C66_bounded` is met. -/
theorem C66_interrupted_accumulate (ls : Dir → List Str) (ds : List Str) : ∀ s : St, s.mem = none → s.disk = ⟨some c!"pending", none⟩ → s.dir (sub unknown) = some (.sub none) →
    (∀ d ∈ ds, s.dir (sub d) = none) → ds.Nodup → ∀ d ∈ ds, (history false (ds.map (interrupted ls)) s).dir (sub d) = some (.sub (some [])) := by
  have keep : ∀ (ds : List Str) (s : St), s.mem = none → s.disk = ⟨some c!"pending", none⟩ → s.dir (sub unknown) = some (.sub none) →
      (∀ d ∈ ds, s.dir (sub d) = none) → ds.Nodup → ∀ n, s.dir n ≠ none → (history false (ds.map (interrupted ls)) s).dir n = s.dir n := by
    intro ds
    induction ds with
    | nil => intros; rfl
    | cons d ds ih =>
      intro s hm hd hu hn hnd n hne
      have hinj : ∀ a b : Str, sub a = sub b → a = b := fun a b hab => List.append_cancel_left hab
      have e : history false ((d :: ds).map (interrupted ls)) s = history false (ds.map (interrupted ls)) ((interrupted ls d).run false s) := rfl
      rw [e, interrupted_run ls d s hm hd hu (hn d (by simp))]
      have hnn : n ≠ sub d := by rintro rfl; exact hne (hn d (by simp))
      have hun : sub unknown ≠ sub d := by intro h; rw [h, hn d (by simp)] at hu; cases hu
      rw [List.nodup_cons] at hnd
      rw [ih ({ s with dir := s.dir.set (sub d) (some (.sub (some []))) } : St) hm hd (by show s.dir.set _ _ _ = _; rw [set_ne _ _ hun]; exact hu) (fun x hx => by
        show s.dir.set _ _ _ = _
        have : sub x ≠ sub d := fun h => hnd.1 (hinj _ _ h ▸ hx)
        rw [set_ne _ _ this]; exact hn x (List.mem_cons_of_mem _ hx)) hnd.2 n (by show s.dir.set _ _ _ ≠ none; rw [set_ne _ _ hnn]; exact hne)]
      exact set_ne _ _ hnn
  induction ds with
  | nil => intro _ _ _ _ _ _ d hd; cases hd
  | cons d ds ih =>
    intro s hm hd hu hn hnd x hx
    have hinj : ∀ a b : Str, sub a = sub b → a = b := fun a b hab => List.append_cancel_left hab
    have e : history false ((d :: ds).map (interrupted ls)) s = history false (ds.map (interrupted ls)) ((interrupted ls d).run false s) := rfl
    rw [e, interrupted_run ls d s hm hd hu (hn d (by simp))]
    have hun : sub unknown ≠ sub d := by intro h; rw [h, hn d (by simp)] at hu; cases hu
    rw [List.nodup_cons] at hnd
    have hu' : s.dir.set (sub d) (some (.sub (some []))) (sub unknown) = some (.sub none) := by rw [set_ne _ _ hun]; exact hu
    have hn' : ∀ y ∈ ds, s.dir.set (sub d) (some (.sub (some []))) (sub y) = none := fun y hy => by
      have : sub y ≠ sub d := fun h => hnd.1 (hinj _ _ h ▸ hy)
      rw [set_ne _ _ this]; exact hn y (List.mem_cons_of_mem _ hy)
    rcases List.mem_cons.1 hx with rfl | hx
    · rw [keep ds ({ s with dir := s.dir.set (sub x) (some (.sub (some []))) } : St) hm hd hu' hn' hnd.2 (sub x) (by show s.dir.set _ _ _ ≠ none; rw [set_same]; simp)]
      exact set_same _ _ _
    · exact ih ({ s with dir := s.dir.set (sub d) (some (.sub (some []))) } : St) hm hd hu' hn' hnd.2 x hx

/-! ## A concrete case -/

namespace Example

def dA : Str := c!"aa11"
def dB : Str := c!"bb22"

/-- the listing of a directory with only these names -/
def ls : Dir → List Str := fun d => [sub unknown, sub dA, sub dB, c!"notes"].filter (fun n => (d n).isSome)

def E : Env := works ls

def imgA : Attempt := ⟨some dA, false, true, true, [1, 2, 3], true, Status.empty⟩
def imgB : Attempt := ⟨some dB, false, true, true, [4, 5], true, Status.empty⟩

def start : St := ⟨fun n => if n = c!"notes" then some (.other 7) else none, none, Status.empty⟩

def look (s : St) : List (Option Entry) := [sub unknown, sub dA, sub dB, c!"notes"].map s.dir

/-- A is installed; the installation of B crashes after exporting; the next one completes -/
def steps : List Step := [⟨E, .attempt imgA, none⟩, ⟨E, .load, none⟩, ⟨E, .attempt imgB, some 12⟩]

set_option maxRecDepth 10000 in
example : look (history false (steps.take 1) start) = [none, some (.sub (some [1, 2, 3])), none, some (.other 7)] := by decide +kernel
set_option maxRecDepth 10000 in
/-- the old image's index is kept as `hash-unknown`, that of the new image under its digest -/
example : look (history false steps start) = [some (.sub (some [1, 2, 3])), none, some (.sub (some [4, 5])), some (.other 7)] := by decide +kernel
set_option maxRecDepth 10000 in
example : look (history false (steps ++ [⟨E, .attempt imgB, none⟩]) start) = [none, none, some (.sub (some [4, 5])), some (.other 7)] := by decide +kernel

theorem wf : ∀ a ∈ attemptsOf steps, WfAttempt a := by
  intro a ha _
  simp [attemptsOf, steps, Op.attempts] at ha
  rcases ha with rfl | rfl <;> simp [imgA, imgB]

set_option maxRecDepth 10000 in
example : ∃ a ∈ attemptsOf steps, a.digest = some dB ∧ a.index = [4, 5] := by
  refine ⟨imgB, ?_, rfl, rfl⟩
  simp [attemptsOf, steps, Op.attempts]

set_option maxRecDepth 10000 in
example : (attempt E false imgA start).val = true := by decide +kernel

/-- hypotheses of `C66_interrupted_accumulate` -/
example : let s : St := ⟨fun n => if n = sub unknown then some (.sub none) else none, none, ⟨some c!"pending", none⟩⟩
    s.mem = none ∧ s.dir (sub unknown) = some (.sub none) ∧ ∀ d ∈ [dA, dB], s.dir (sub d) = none := by
  refine ⟨rfl, by simp, ?_⟩
  intro d hd
  simp only [List.mem_cons, List.not_mem_nil, or_false] at hd
  rcases hd with rfl | rfl <;> simp <;> decide

end Example

/-- **C66**: a data directory is never moved to a name which is still taken: if what is there cannot be removed, the move fails, and the
directory stays where it is -/
theorem C66_move_refused (E : Env) (o : Str) (new : Option Str) (s : St) (ht : s.dir (sub (new.getD unknown)) ≠ none)
    (hr : E.rm (sub (new.getD unknown)) ≠ .done) :
    (moveDir E (some o) new s).val = false ∧ ∀ n, n ≠ sub (new.getD unknown) → (moveDir E (some o) new s).final.dir n = s.dir n := by
  unfold moveDir
  dsimp only
  generalize sub (new.getD unknown) = b at ht hr
  have key : (rmTree E b s).val = false ∧ ∀ n, n ≠ b → (rmTree E b s).final.dir n = s.dir n := by
    unfold rmTree
    cases hd : s.dir b with
    | none => exact absurd hd ht
    | some x =>
      cases x <;> cases hE : E.rm b <;>
        first
          | exact absurd hE hr
          | exact ⟨rfl, fun n _ => rfl⟩
          | (refine ⟨rfl, fun n hn => ?_⟩
             show (s.dir.set b _) n = s.dir n
             simp [Dir.set, hn])
  cases hrun : rmTree E b s with
  | mk st fin v =>
    rw [hrun] at key
    obtain ⟨h1, h2⟩ := key
    dsimp only at h1 h2
    subst h1
    exact ⟨rfl, h2⟩

end Rauc.DataDir
