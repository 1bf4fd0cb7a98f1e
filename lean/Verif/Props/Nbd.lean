import Verif.Model.Nbd
import Mathlib.Data.List.Induction

/-!
# C44: replies to streaming reads
-/

namespace Rauc.Nbd

/-! ## What the property is about -/

/-- the requests that want a reply, in the order of their arrival; their position is their number -/
def requests : List Ev → List Req
  | [] => []
  | .request r _ _ :: l => if r.kind = .read ∨ r.kind = .configure then r :: requests l else requests l
  | _ :: l => requests l

/-- the bytes received in the current attempt for request `id`: those since the request, or since the end of the attempt before -/
def attempt (id : Nat) (evs : List Ev) : Bytes :=
  (evs.foldl (fun (n, acc) e =>
    match e with
    | .request r _ _ => if r.kind = .read ∨ r.kind = .configure then (n + 1, if n = id then [] else acc) else (n, acc)
    | .chunk i b => (n, if i = id then acc ++ b else acc)
    | .complete i _ _ _ => (n, if i = id then [] else acc)
    | _ => (n, acc)) (0, ([] : Bytes))).2

/-- the number of range requests for request `id` -/
def tries (s : St) (id : Nat) : Nat := (s.http.map (·.1)).count id

/-- request `id` waits for its reply -/
def Pending (s : St) (id : Nat) : Prop := id ∈ s.active.map (·.id)

/-! ## Steps -/

theorem run_snoc (dict) (evs : List Ev) (e : Ev) : run dict (evs ++ [e]) = step dict (run dict evs) e := by
  simp [run, List.foldl_append]

/-- all that an event can do -/
inductive Effect (s : St) : Ev → St → Prop
  | idle (e : Ev) (t : St) : t.active = s.active → t.http = s.http → t.out = s.out → t.replies = s.replies → t.next = s.next →
      (t.status = .running → t.done = false → s.done = false) →
      (t.status = .running → t.done = false → requests [e] = []) →
      (∀ id b, e ≠ .chunk id b) → (∀ id ok code wr, e = .complete id ok code wr → id ∉ s.active.map (·.id)) → Effect s e t
  | new (r : Req) (m c cf : Bool) : s.done = false → r.kind = .read ∨ r.kind = .configure →
      Effect s (.request r m c) (start { s with next := s.next + 1, configured := cf } ⟨s.next, r, [], 0, 0, false⟩)
  | chunk (id : Nat) (b : Bytes) : Effect s (.chunk id b) { s with active := s.active.map fun x => if x.id = id then onChunk x b else x }
  | retry (x : Xfer) (ok : Bool) (code : Nat) (wr : Option Nat) : x ∈ s.active → x.errors < 5 → code ≠ 404 → (ok = false ∨ x.refused = true) →
      Effect s (.complete x.id ok code wr) (start { s with active := s.active.filter fun y => decide (y.id ≠ x.id) } { x with errors := x.errors + 1 })
  | replied (x : Xfer) (ok : Bool) (code : Nat) (r : Reply) (t : St) : x ∈ s.active → r.id = x.id → r.req = x.req →
      t.active = s.active.filter (fun y => decide (y.id ≠ x.id)) → t.http = s.http → t.next = s.next → t.done = s.done →
      t.out = s.out ++ encode r → t.replies = s.replies ++ [r] → (t.status = .running ∨ t.status = .exited false ∧ x.req.kind = .configure) →
      (x.req.kind ≠ .configure → r.error = 0 → ok = true ∧ x.refused = false ∧ code = 206 ∧ r.body = x.buf ∧ x.buf.length = x.size) →
      (x.req.kind ≠ .configure → r.error ≠ 0 → r.error = 5 ∧ r.body = [] ∧ (code ≠ 206 ∧ ok = true ∨ code = 404 ∨ x.errors ≥ 5)) →
      (x.req.kind = .configure → t.status = .running → ok = true ∧ x.refused = false ∧ code = 206 ∧ x.buf.length = x.size) →
      Effect s (.complete x.id ok code none) t
  | died (x : Xfer) (ok : Bool) (code : Nat) (wr : Option Nat) (t : St) (tail : Bytes) : x ∈ s.active →
      t.active = s.active.filter (fun y => decide (y.id ≠ x.id)) → t.http = s.http → t.next = s.next →
      t.out = s.out ++ tail → t.replies = s.replies → t.status = .aborted →
      (wr ≠ none ∨ ok = true ∧ code = 206 ∧ x.buf.length < x.size) →
      Effect s (.complete x.id ok code wr) t

theorem effect (dict) (s : St) (hs : s.status = .running) (hlen : ∀ x ∈ s.active, x.buf.length ≤ x.size) (e : Ev) : Effect s e (step dict s e) := by
  unfold step
  rw [if_pos hs]
  unfold event
  cases e with
  | request r m c =>
    simp only []
    by_cases hd : s.done = true
    · rw [if_pos hd]
      exact .idle _ _ rfl rfl rfl rfl rfl (fun _ h => h) (fun _ h => by simp [hd] at h) (by simp) (by simp)
    · rw [if_neg hd]
      unfold onRequest
      have hab : Effect s (.request r m c) { s with status := .aborted } :=
        .idle _ _ rfl rfl rfl rfl rfl (by simp) (by simp) (by simp) (by simp)
      cases m
      · exact hab
      · simp only [if_true]
        split
        · exact .idle _ _ rfl rfl rfl rfl rfl (by simp) (by simp) (by simp) (by simp)
        · exact hab
        · exact .new r _ _ s.configured (by simpa using hd) (by simp [*])
        · split
          · exact .new r _ _ true (by simpa using hd) (by simp [*])
          · exact hab
  | readFail =>
    simp only []
    split
    · exact .idle _ _ rfl rfl rfl rfl rfl (by simp) (by simp [requests]) (by simp) (by simp)
    · exact .idle _ _ rfl rfl rfl rfl rfl (by simp) (by simp) (by simp) (by simp)
  | chunk id b => exact Effect.chunk id b
  | exit =>
    simp only []
    split
    · exact .idle _ _ rfl rfl rfl rfl rfl (by simp) (by simp) (by simp) (by simp)
    · exact .idle _ _ rfl rfl rfl rfl rfl (by simp) (by simp [requests]) (by simp) (by simp)
  | complete id ok code wr =>
    simp only []
    split
    · rename_i hf
      refine .idle _ _ rfl rfl rfl rfl rfl (by simp) (by simp [requests]) (by simp) ?_
      intro i o k w h
      cases h
      rw [List.find?_eq_none] at hf
      intro hm
      obtain ⟨x, hx, hxi⟩ := List.mem_map.1 hm
      exact hf x hx (by simpa using hxi)
    · rename_i x hf
      have hx := List.mem_of_find?_eq_some hf
      have hid : x.id = id := by simpa using List.find?_some hf
      subst hid
      have hl := hlen x hx
      have fin : ∀ err, (err = 0 → ok = true ∧ x.refused = false) → (err ≠ 0 → err = 5 ∧ (code = 404 ∨ x.errors ≥ 5)) →
          Effect s (.complete x.id ok code wr)
            (finish dict { s with active := s.active.filter fun y => decide (y.id ≠ x.id) } x err code wr) := by
        intro err h0 h1
        unfold finish
        split
        · rename_i hk
          unfold finishConfigure
          cases wr with
          | none =>
            by_cases hc : code = 206 ∧ x.size = x.buf.length ∧ err = 0
            · rw [if_pos hc]
              refine .replied x ok code ⟨x.id, x.req, err, dict x err code⟩ _ hx rfl rfl rfl rfl rfl rfl rfl rfl (Or.inl hs) ?_ ?_ ?_
              · intro h; exact absurd hk h
              · intro h; exact absurd hk h
              · intro _ _
                exact ⟨(h0 hc.2.2).1, (h0 hc.2.2).2, hc.1, hc.2.1.symm⟩
            · rw [if_neg hc, if_pos (by exact hs)]
              refine .replied x ok code ⟨x.id, x.req, err, dict x err code⟩ _ hx rfl rfl rfl rfl rfl rfl rfl rfl (Or.inr ⟨rfl, hk⟩) ?_ ?_ ?_
              · intro h; exact absurd hk h
              · intro h; exact absurd hk h
              · intro _ h; simp at h
          | some k =>
            have hd : Effect s (.complete x.id ok code (some k)) (reply { s with active := s.active.filter fun y => decide (y.id ≠ x.id) } ⟨x.id, x.req, err, dict x err code⟩ (some k)) :=
              .died x ok code _ _ _ hx rfl rfl rfl rfl rfl rfl (Or.inl (by simp))
            by_cases hc : code = 206 ∧ x.size = x.buf.length ∧ err = 0
            · rw [if_pos hc]; exact hd
            · rw [if_neg hc, if_neg (by simp [reply, send])]; exact hd
        · rename_i hk
          have hk' : x.req.kind ≠ .configure := fun h => hk h
          unfold finishRead
          simp only []
          generalize he : (if err = 0 then (if code ≠ 206 then 5 else 0) else err) = e
          by_cases hz : e ≠ 0
          · rw [if_pos hz]
            have he5 : e = 5 ∧ (code ≠ 206 ∧ ok = true ∨ code = 404 ∨ x.errors ≥ 5) := by
              by_cases hee : err = 0
              · rw [if_pos hee] at he
                by_cases hc : code = 206
                · rw [if_neg (by simpa using hc)] at he; exact absurd he.symm hz
                · rw [if_pos hc] at he
                  exact ⟨he.symm, Or.inl ⟨hc, (h0 hee).1⟩⟩
              · rw [if_neg hee] at he
                exact ⟨he ▸ (h1 hee).1, Or.inr (h1 hee).2⟩
            cases wr with
            | none =>
              refine .replied x ok code ⟨x.id, x.req, e, []⟩ _ hx rfl rfl rfl rfl rfl rfl rfl rfl (Or.inl hs) ?_ ?_ ?_
              · intro _ h; exact absurd h hz
              · intro _ _; exact ⟨he5.1, rfl, he5.2⟩
              · intro h; exact absurd h hk'
            | some k => exact .died x ok code _ _ _ hx rfl rfl rfl rfl rfl rfl (Or.inl (by simp))
          · rw [if_neg hz]
            have hz0 : e = 0 := Decidable.not_not.1 hz
            have hee : err = 0 := by
              by_cases hee : err = 0
              · exact hee
              · rw [if_neg hee] at he; omega
            have hc : code = 206 := by
              by_cases hc : code = 206
              · exact hc
              · rw [if_pos hee, if_pos hc] at he; omega
            by_cases hb : x.size ≠ x.buf.length
            · rw [if_pos hb]
              cases wr with
              | none => exact .died x ok code _ _ (header 0 x.req.handle) hx rfl rfl rfl rfl rfl rfl (Or.inr ⟨(h0 hee).1, hc, by omega⟩)
              | some k => exact .died x ok code _ _ ((header 0 x.req.handle).take k) hx rfl rfl rfl rfl rfl rfl (Or.inl (by simp))
            · rw [if_neg hb]
              cases wr with
              | none =>
                refine .replied x ok code ⟨x.id, x.req, 0, x.buf⟩ _ hx rfl rfl rfl rfl rfl rfl rfl rfl (Or.inl hs) ?_ ?_ ?_
                · intro _ _; exact ⟨(h0 hee).1, (h0 hee).2, hc, rfl, (Decidable.not_not.1 hb).symm⟩
                · intro _ h; exact absurd rfl h
                · intro h; exact absurd h hk'
              | some k => exact .died x ok code _ _ _ hx rfl rfl rfl rfl rfl rfl (Or.inl (by simp))
      unfold onComplete
      by_cases h1 : (ok && !x.refused) = true
      · rw [if_pos h1]
        exact fin 0 (fun _ => by simpa using h1) (fun h => absurd rfl h)
      · rw [if_neg h1]
        by_cases h2 : code = 404
        · rw [if_pos h2]
          exact fin 5 (by simp) (fun _ => ⟨rfl, Or.inl h2⟩)
        · rw [if_neg h2]
          by_cases h3 : x.errors ≥ 5
          · rw [if_pos h3]
            exact fin 5 (by simp) (fun _ => ⟨rfl, Or.inr h3⟩)
          · rw [if_neg h3]
            refine .retry x ok code wr hx (by omega) h2 ?_
            cases ok <;> cases hr : x.refused <;> simp_all

/-! ## The invariant -/

theorem requests_append (a b : List Ev) : requests (a ++ b) = requests a ++ requests b := by
  induction a with
  | nil => rfl
  | cons e l ih =>
    cases e <;> simp only [List.cons_append, requests, ih]
    split <;> simp

def attStep (id : Nat) (p : Nat × Bytes) (e : Ev) : Nat × Bytes :=
  match e with
  | .request r _ _ => if r.kind = .read ∨ r.kind = .configure then (p.1 + 1, if p.1 = id then [] else p.2) else p
  | .chunk i b => (p.1, if i = id then p.2 ++ b else p.2)
  | .complete i _ _ _ => (p.1, if i = id then [] else p.2)
  | _ => p

theorem attempt_eq (id : Nat) (evs : List Ev) : attempt id evs = (evs.foldl (attStep id) (0, [])).2 := by
  unfold attempt
  congr 2

theorem att_fst (id : Nat) (evs : List Ev) : (evs.foldl (attStep id) (0, [])).1 = (requests evs).length := by
  induction evs using List.reverseRecOn with
  | nil => rfl
  | append_singleton l e ih =>
    rw [List.foldl_append, requests_append, List.length_append, ← ih]
    cases e <;> simp only [List.foldl_cons, List.foldl_nil, attStep, requests, List.length_nil, Nat.add_zero]
    split <;> simp [requests, *]

theorem attempt_chunk (id i : Nat) (b : Bytes) (evs : List Ev) : attempt id (evs ++ [.chunk i b]) = if i = id then attempt id evs ++ b else attempt id evs := by
  simp [attempt_eq, List.foldl_append, attStep]

theorem attempt_complete (id i : Nat) (ok : Bool) (code : Nat) (wr : Option Nat) (evs : List Ev) :
    attempt id (evs ++ [.complete i ok code wr]) = if i = id then [] else attempt id evs := by
  simp [attempt_eq, List.foldl_append, attStep]

theorem attempt_request (id : Nat) (r : Req) (m c : Bool) (h : r.kind = .read ∨ r.kind = .configure) (evs : List Ev) :
    attempt id (evs ++ [.request r m c]) = if (requests evs).length = id then [] else attempt id evs := by
  rw [attempt_eq, List.foldl_append]
  simp only [List.foldl_cons, List.foldl_nil, attStep, if_pos h]
  rw [att_fst, ← attempt_eq]

theorem attempt_other (id : Nat) (e : Ev) (evs : List Ev) (h1 : ∀ i b, e ≠ .chunk i b) (h2 : ∀ ok code wr, e ≠ .complete id ok code wr) (h3 : id < (requests evs).length) :
    attempt id (evs ++ [e]) = attempt id evs := by
  rw [attempt_eq, List.foldl_append, attempt_eq]
  simp only [List.foldl_cons, List.foldl_nil]
  cases e with
  | request r m c =>
    simp only [attStep]
    split
    · simp only []
      rw [if_neg]
      rw [att_fst]; omega
    · rfl
  | readFail => rfl
  | exit => rfl
  | chunk i b => exact absurd rfl (h1 i b)
  | complete i ok code wr =>
    simp only [attStep]
    rw [if_neg]
    intro h
    exact h2 ok code wr (h ▸ rfl)

/-- how a reply is accounted for -/
def Good (dict : Xfer → Nat → Nat → Bytes) (evs : List Ev) (r : Reply) : Prop :=
  ∃ pre ok code post, evs = pre ++ .complete r.id ok code none :: post ∧
    (r.req.kind ≠ .configure → r.error = 0 → ok = true ∧ code = 206 ∧ r.body = attempt r.id pre ∧ r.body.length = r.req.len) ∧
    (r.req.kind ≠ .configure → r.error ≠ 0 → r.error = 5 ∧ r.body = [] ∧ (ok = true ∧ code ≠ 206 ∨ code = 404 ∨ tries (run dict pre) r.id = 6)) ∧
    (r.req.kind = .configure → (run dict (pre ++ [.complete r.id ok code none])).status = .running → ok = true ∧ code = 206 ∧ (attempt r.id pre).length = 4)

theorem Good.snoc {dict : Xfer → Nat → Nat → Bytes} {evs : List Ev} {r : Reply} (h : Good dict evs r) (e : Ev) : Good dict (evs ++ [e]) r := by
  obtain ⟨pre, ok, code, post, h1, h2⟩ := h
  exact ⟨pre, ok, code, post ++ [e], by rw [h1]; simp, h2⟩

structure Inv (dict : Xfer → Nat → Nat → Bytes) (evs : List Ev) (s : St) : Prop where
  len : s.next ≤ (requests evs).length
  lenEq : s.status = .running → s.done = false → s.next = (requests evs).length
  lt : ∀ x ∈ s.active, x.id < s.next
  rlt : ∀ r ∈ s.replies, r.id < s.next
  one : s.status = .running → ∀ k < s.next, (s.active.map (·.id)).count k + (s.replies.map (·.id)).count k = 1
  le1 : ∀ k, (s.active.map (·.id)).count k + (s.replies.map (·.id)).count k ≤ 1
  req : ∀ x ∈ s.active, (requests evs)[x.id]? = some x.req
  size : ∀ x ∈ s.active, x.size = bufSize x.req ∧ x.buf.length ≤ x.size
  buf : s.status = .running → ∀ x ∈ s.active, x.refused = false → x.buf = attempt x.id evs
  tries1 : ∀ x ∈ s.active, tries s x.id = x.errors + 1 ∧ x.errors ≤ 5
  tries6 : ∀ k, tries s k ≤ 6
  tries0 : ∀ k, s.next ≤ k → tries s k = 0
  http : ∀ h ∈ s.http, ∃ r, (requests evs)[h.1]? = some r ∧ h.2 = range r
  wire : ∃ tail, s.out = s.replies.flatMap encode ++ tail ∧ (s.status ≠ .aborted → tail = [])
  good : ∀ r ∈ s.replies, (requests evs)[r.id]? = some r.req ∧ Good dict evs r

theorem getElem?_snoc {α : Type} {l m : List α} {k : Nat} {a : α} (h : l[k]? = some a) : (l ++ m)[k]? = some a := by
  rw [List.getElem?_append_left (by exact (List.getElem?_eq_some_iff.1 h).1)]
  exact h

theorem count_filter_ne (l : List Xfer) (i k : Nat) :
    ((l.filter fun y => decide (y.id ≠ i)).map (·.id)).count k = if k = i then 0 else (l.map (·.id)).count k := by
  induction l with
  | nil => simp
  | cons x l ih =>
    by_cases hx : x.id = i
    · rw [List.filter_cons_of_neg (by simpa using hx), ih, List.map_cons]
      by_cases hk : k = i
      · simp [hk]
      · rw [if_neg hk, if_neg hk, List.count_cons_of_ne (by omega)]
    · rw [List.filter_cons_of_pos (by simpa using hx), List.map_cons, List.map_cons]
      by_cases hk : k = i
      · rw [if_pos hk] at ih ⊢
        rw [List.count_cons_of_ne (by omega), ih]
      · rw [if_neg hk] at ih ⊢
        simp only [List.count_cons, ih]

theorem mem_count_pos {s : St} {x : Xfer} (h : x ∈ s.active) : 0 < (s.active.map (·.id)).count x.id :=
  List.count_pos_iff.2 (List.mem_map.2 ⟨x, h, rfl⟩)

theorem Inv.frozen {dict : Xfer → Nat → Nat → Bytes} {evs : List Ev} {s : St} (h : Inv dict evs s) (hr : s.status ≠ .running) (e : Ev) : Inv dict (evs ++ [e]) s where
  len := by rw [requests_append, List.length_append]; have := h.len; omega
  lenEq := fun hh => absurd hh hr
  lt := h.lt
  rlt := h.rlt
  one := fun hh => absurd hh hr
  le1 := h.le1
  req := fun x hx => by rw [requests_append]; exact getElem?_snoc (h.req x hx)
  size := h.size
  buf := fun hh => absurd hh hr
  tries1 := h.tries1
  tries6 := h.tries6
  tries0 := h.tries0
  http := fun x hx => by obtain ⟨r, h1, h2⟩ := h.http x hx; exact ⟨r, by rw [requests_append]; exact getElem?_snoc h1, h2⟩
  wire := h.wire
  good := fun r hx => ⟨by rw [requests_append]; exact getElem?_snoc (h.good r hx).1, (h.good r hx).2.snoc e⟩

theorem onChunk_id (x : Xfer) (b : Bytes) : (onChunk x b).id = x.id ∧ (onChunk x b).req = x.req ∧ (onChunk x b).size = x.size ∧ (onChunk x b).errors = x.errors := by
  unfold onChunk
  split
  · exact ⟨rfl, rfl, rfl, rfl⟩
  · split <;> exact ⟨rfl, rfl, rfl, rfl⟩

theorem Inv.step {dict : Xfer → Nat → Nat → Bytes} {evs : List Ev} {s : St} (h : Inv dict evs s) (hrun : s = run dict evs) (hr : s.status = .running) (e : Ev) (t : St)
    (htt : t = run dict (evs ++ [e])) (he : Effect s e t) : Inv dict (evs ++ [e]) t := by
  have hlen : s.next ≤ (requests (evs ++ [e])).length := by
    rw [requests_append, List.length_append]; have := h.len; omega
  have hreq : ∀ (k : Nat) (q : Req), (requests evs)[k]? = some q → (requests (evs ++ [e]))[k]? = some q := fun k q hk => by
    rw [requests_append]; exact getElem?_snoc hk
  have hgood : ∀ r ∈ s.replies, (requests (evs ++ [e]))[r.id]? = some r.req ∧ Good dict (evs ++ [e]) r :=
    fun r hx => ⟨hreq _ _ (h.good r hx).1, (h.good r hx).2.snoc e⟩
  have hhttp : ∀ x ∈ s.http, ∃ r, (requests (evs ++ [e]))[x.1]? = some r ∧ x.2 = range r := fun x hx => by
    obtain ⟨r, h1, h2⟩ := h.http x hx; exact ⟨r, hreq _ _ h1, h2⟩
  obtain ⟨tail, hw, hw'⟩ := h.wire
  have htail : tail = [] := hw' (by rw [hr]; simp)
  subst htail
  rw [List.append_nil] at hw
  cases he
  case idle hc hcm ha hh ho hrep hn hd hq =>
    constructor
    · rw [hn]; exact hlen
    · intro h1 h2
      rw [hn, requests_append, hq h1 h2, List.append_nil]
      exact h.lenEq hr (hd h1 h2)
    · rw [ha, hn]; exact h.lt
    · rw [hrep, hn]; exact h.rlt
    · rw [ha, hrep, hn]; exact fun _ => h.one hr
    · rw [ha, hrep]; exact h.le1
    · rw [ha]; exact fun x hx => hreq _ _ (h.req x hx)
    · rw [ha]; exact h.size
    · rw [ha]
      intro _ x hx hrf
      rw [attempt_other]
      · exact h.buf hr x hx hrf
      · exact hc
      · intro ok code wr heq
        exact hcm _ _ _ _ heq (List.mem_map.2 ⟨x, hx, rfl⟩)
      · have := h.lt x hx; have := h.len; omega
    · rw [ha]; unfold tries; rw [hh]; exact h.tries1
    · unfold tries; rw [hh]; exact h.tries6
    · unfold tries; rw [hh, hn]; exact h.tries0
    · rw [hh]; exact hhttp
    · exact ⟨[], by rw [ho, hrep, hw, List.append_nil], fun _ => rfl⟩
    · rw [hrep]; exact hgood
  case new r m c cf hd hk =>
    have hn := h.lenEq hr hd
    have hrq : requests (evs ++ [.request r m c]) = requests evs ++ [r] := by
      rw [requests_append]; simp [requests, hk]
    have hnew : (requests (evs ++ [.request r m c]))[s.next]? = some r := by
      rw [hrq, hn, List.getElem?_append_right (Nat.le_refl _)]; simp
    have hcnt : ∀ k, ((start { s with next := s.next + 1, configured := cf } ⟨s.next, r, [], 0, 0, false⟩).active.map (·.id)).count k
        = (s.active.map (·.id)).count k + if k = s.next then 1 else 0 := by
      intro k
      simp only [start, List.map_append, List.map_cons, List.map_nil, List.count_append, List.count_singleton]
      simp only [beq_iff_eq]
      congr 1
      by_cases hkk : k = s.next
      · rw [if_pos hkk, if_pos hkk.symm]
      · rw [if_neg hkk, if_neg (Ne.symm hkk)]
    have htr : ∀ k, tries (start { s with next := s.next + 1, configured := cf } ⟨s.next, r, [], 0, 0, false⟩) k
        = tries s k + if k = s.next then 1 else 0 := by
      intro k
      simp only [tries, start, List.map_append, List.map_cons, List.map_nil, List.count_append, List.count_singleton]
      simp only [beq_iff_eq]
      congr 1
      by_cases hkk : k = s.next
      · rw [if_pos hkk, if_pos hkk.symm]
      · rw [if_neg hkk, if_neg (Ne.symm hkk)]
    have hmem : ∀ x, x ∈ (start { s with next := s.next + 1, configured := cf } ⟨s.next, r, [], 0, 0, false⟩).active →
        x ∈ s.active ∨ x = ⟨s.next, r, [], bufSize r, 0, false⟩ := by
      intro x hx
      simpa [start] using hx
    have hzero : (s.active.map (·.id)).count s.next = 0 := by
      rw [List.count_eq_zero]
      intro hm
      obtain ⟨x, hx, hxi⟩ := List.mem_map.1 hm
      have := h.lt x hx; omega
    have hzero' : (s.replies.map (·.id)).count s.next = 0 := by
      rw [List.count_eq_zero]
      intro hm
      obtain ⟨x, hx, hxi⟩ := List.mem_map.1 hm
      have := h.rlt x hx; omega
    constructor
    · rw [hrq, List.length_append]; show s.next + 1 ≤ _; simp [hn]
    · intro _ _; rw [hrq, List.length_append]; show s.next + 1 = _; simp [hn]
    · intro x hx
      rcases hmem x hx with h1 | h1
      · have := h.lt x h1; show x.id < s.next + 1; omega
      · subst h1; show s.next < s.next + 1; omega
    · intro q hq; have := h.rlt q hq; show q.id < s.next + 1; omega
    · intro _ k hk1
      rw [hcnt]
      show _ + (s.replies.map (·.id)).count k = 1
      by_cases hkk : k = s.next
      · rw [if_pos hkk, hkk, hzero, hzero']
      · rw [if_neg hkk, Nat.add_zero]; exact h.one hr k (by have : k < s.next + 1 := hk1; omega)
    · intro k
      rw [hcnt]
      show _ + (s.replies.map (·.id)).count k ≤ 1
      by_cases hkk : k = s.next
      · rw [if_pos hkk, hkk, hzero, hzero']; exact Nat.le_refl 1
      · rw [if_neg hkk, Nat.add_zero]; exact h.le1 k
    · intro x hx
      rcases hmem x hx with h1 | h1
      · exact hreq _ _ (h.req x h1)
      · subst h1; exact hnew
    · intro x hx
      rcases hmem x hx with h1 | h1
      · exact h.size x h1
      · subst h1; exact ⟨rfl, Nat.zero_le _⟩
    · intro _ x hx hrf
      rw [attempt_request _ _ _ _ hk]
      rcases hmem x hx with h1 | h1
      · rw [if_neg]
        · exact h.buf hr x h1 hrf
        · have := h.lt x h1; omega
      · subst h1; rw [if_pos hn.symm]
    · intro x hx
      rw [htr]
      rcases hmem x hx with h1 | h1
      · rw [if_neg (by have := h.lt x h1; omega)]; exact h.tries1 x h1
      · subst h1; rw [if_pos rfl]; exact ⟨by rw [h.tries0 s.next (Nat.le_refl _)], Nat.zero_le _⟩
    · intro k
      rw [htr]
      split
      · rename_i hkk; rw [hkk, h.tries0 s.next (Nat.le_refl _)]; omega
      · exact h.tries6 k
    · intro k hk1
      rw [htr, if_neg (by have : s.next + 1 ≤ k := hk1; omega)]
      exact h.tries0 k (by have : s.next + 1 ≤ k := hk1; omega)
    · intro x hx
      have hx' : x ∈ s.http ∨ x = (s.next, range r) := by simpa [start] using hx
      rcases hx' with h1 | h1
      · exact hhttp x h1
      · subst h1; exact ⟨r, hnew, rfl⟩
    · exact ⟨[], by rw [List.append_nil]; exact hw, fun _ => rfl⟩
    · exact hgood
  case chunk id b =>
    have hids : (s.active.map fun x => if x.id = id then onChunk x b else x).map (·.id) = s.active.map (·.id) := by
      rw [List.map_map]
      apply List.map_congr_left
      intro x _
      simp only [Function.comp]
      split
      · exact (onChunk_id x b).1
      · rfl
    have hmem : ∀ y ∈ s.active.map (fun x => if x.id = id then onChunk x b else x),
        ∃ x ∈ s.active, y = (if x.id = id then onChunk x b else x) ∧ y.id = x.id ∧ y.req = x.req ∧ y.size = x.size ∧ y.errors = x.errors := by
      intro y hy
      obtain ⟨x, hx, rfl⟩ := List.mem_map.1 hy
      refine ⟨x, hx, rfl, ?_⟩
      split
      · exact onChunk_id x b
      · exact ⟨rfl, rfl, rfl, rfl⟩
    have hrq : requests (evs ++ [.chunk id b]) = requests evs := by rw [requests_append]; simp [requests]
    constructor
    · exact hlen
    · intro h1 h2; rw [hrq]; exact h.lenEq h1 h2
    · intro y hy
      obtain ⟨x, hx, _, h1, _⟩ := hmem y hy
      rw [h1]; exact h.lt x hx
    · exact h.rlt
    · intro _; rw [hids]; exact h.one hr
    · rw [hids]; exact h.le1
    · intro y hy
      obtain ⟨x, hx, _, h1, h2, _⟩ := hmem y hy
      rw [h1, h2]; exact hreq _ _ (h.req x hx)
    · intro y hy
      obtain ⟨x, hx, h0, h1, h2, h3, _⟩ := hmem y hy
      refine ⟨by rw [h2, h3]; exact (h.size x hx).1, ?_⟩
      rw [h3, h0]
      have := (h.size x hx).2
      split
      · unfold onChunk
        split
        · exact this
        · split
          · exact this
          · show (x.buf ++ b).length ≤ _
            rw [List.length_append]; omega
      · exact this
    · intro _ y hy hrf
      obtain ⟨x, hx, h0, h1, _⟩ := hmem y hy
      rw [h1, attempt_chunk]
      by_cases hxi : x.id = id
      · rw [if_pos hxi] at h0
        rw [if_pos hxi.symm]
        unfold onChunk at h0
        by_cases hx1 : x.refused = true
        · rw [if_pos hx1] at h0; rw [h0, hx1] at hrf; simp at hrf
        · rw [if_neg hx1] at h0
          by_cases hx2 : x.size - x.buf.length < b.length
          · rw [if_pos hx2] at h0; rw [h0] at hrf; simp at hrf
          · rw [if_neg hx2] at h0
            rw [h0]
            show x.buf ++ b = _
            rw [h.buf hr x hx (by simpa using hx1)]
      · rw [if_neg hxi] at h0
        rw [if_neg (Ne.symm hxi), h0]
        exact h.buf hr x hx (h0 ▸ hrf)
    · intro y hy
      obtain ⟨x, hx, h0, h1, _, _, h4⟩ := hmem y hy
      rw [h1, h4]; exact h.tries1 x hx
    · exact h.tries6
    · exact h.tries0
    · exact hhttp
    · exact ⟨[], by rw [List.append_nil]; exact hw, fun _ => rfl⟩
    · exact hgood
  case retry x ok code wr hx herr hcode hbad =>
    have hrq : requests (evs ++ [.complete x.id ok code wr]) = requests evs := by rw [requests_append]; simp [requests]
    clear htt
    generalize ht : start { s with active := s.active.filter fun y => decide (y.id ≠ x.id) } { x with errors := x.errors + 1 } = t
    have hta : t.active = (s.active.filter fun y => decide (y.id ≠ x.id)) ++ [⟨x.id, x.req, [], bufSize x.req, x.errors + 1, false⟩] := by rw [← ht]; rfl
    have hth : t.http = s.http ++ [(x.id, range x.req)] := by rw [← ht]; rfl
    have htn : t.next = s.next := by rw [← ht]; rfl
    have htr : t.replies = s.replies := by rw [← ht]; rfl
    have hts : t.status = s.status := by rw [← ht]; rfl
    have htd : t.done = s.done := by rw [← ht]; rfl
    have hto : t.out = s.out := by rw [← ht]; rfl
    have hpos := mem_count_pos hx
    have hcnt : ∀ k, (t.active.map (·.id)).count k = (s.active.map (·.id)).count k := by
      intro k
      rw [hta, List.map_append, List.count_append, count_filter_ne]
      simp only [List.map_cons, List.map_nil, List.count_singleton, beq_iff_eq]
      by_cases hk : k = x.id
      · rw [if_pos hk, if_pos hk.symm, hk]
        have := h.le1 x.id; omega
      · rw [if_neg hk, if_neg (Ne.symm hk), Nat.add_zero]
    have htries : ∀ k, tries t k = tries s k + if k = x.id then 1 else 0 := by
      intro k
      simp only [tries, hth, List.map_append, List.map_cons, List.map_nil, List.count_append, List.count_singleton, beq_iff_eq]
      congr 1
      by_cases hkk : k = x.id
      · rw [if_pos hkk, if_pos hkk.symm]
      · rw [if_neg hkk, if_neg (Ne.symm hkk)]
    have hmem : ∀ y ∈ t.active, (y ∈ s.active ∧ y.id ≠ x.id) ∨ y = ⟨x.id, x.req, [], bufSize x.req, x.errors + 1, false⟩ := by
      intro y hy
      rw [hta] at hy
      simpa [List.mem_filter] using hy
    constructor
    · rw [htn]; exact hlen
    · rw [hts, htd, htn, hrq]; exact h.lenEq
    · intro y hy
      rw [htn]
      rcases hmem y hy with h1 | h1
      · exact h.lt y h1.1
      · subst h1; exact h.lt x hx
    · rw [htr, htn]; exact h.rlt
    · intro _ k hk; rw [hcnt, htr]; exact h.one hr k (htn ▸ hk)
    · intro k; rw [hcnt, htr]; exact h.le1 k
    · intro y hy
      rcases hmem y hy with h1 | h1
      · exact hreq _ _ (h.req y h1.1)
      · subst h1; exact hreq _ _ (h.req x hx)
    · intro y hy
      rcases hmem y hy with h1 | h1
      · exact h.size y h1.1
      · subst h1; exact ⟨rfl, Nat.zero_le _⟩
    · intro _ y hy hrf
      rw [attempt_complete]
      rcases hmem y hy with h1 | h1
      · rw [if_neg (Ne.symm h1.2)]; exact h.buf hr y h1.1 hrf
      · subst h1; rw [if_pos rfl]
    · intro y hy
      rw [htries]
      rcases hmem y hy with h1 | h1
      · rw [if_neg h1.2]; exact h.tries1 y h1.1
      · subst h1
        have := (h.tries1 x hx).1
        simp only [if_true]
        exact ⟨by rw [this], by omega⟩
    · intro k
      rw [htries]
      split
      · rename_i hk; rw [hk, (h.tries1 x hx).1]; omega
      · exact h.tries6 k
    · intro k hk
      rw [htn] at hk
      rw [htries, if_neg (by have := h.lt x hx; omega)]
      exact h.tries0 k hk
    · rw [hth]
      intro q hq
      rcases List.mem_append.1 hq with h1 | h1
      · exact hhttp q h1
      · rw [List.mem_singleton] at h1; subst h1; exact ⟨x.req, hreq _ _ (h.req x hx), rfl⟩
    · exact ⟨[], by rw [List.append_nil, hto, htr]; exact hw, fun _ => rfl⟩
    · rw [htr]; exact hgood
  case replied x ok code r hx hid hrr hg0 hg1 hta hth htn htd hto htr hts hg2 =>
    have hrq : requests (evs ++ [.complete x.id ok code none]) = requests evs := by rw [requests_append]; simp [requests]
    have hpos := mem_count_pos hx
    have hle := h.le1 x.id
    have hac : ∀ k, (t.active.map (·.id)).count k = if k = x.id then 0 else (s.active.map (·.id)).count k := by
      intro k; rw [hta, count_filter_ne]
    have hrc : ∀ k, (t.replies.map (·.id)).count k = (s.replies.map (·.id)).count k + if k = x.id then 1 else 0 := by
      intro k
      rw [htr]
      simp only [List.map_append, List.map_cons, List.map_nil, List.count_append, List.count_singleton, beq_iff_eq, hid]
      congr 1
      by_cases hkk : k = x.id
      · rw [if_pos hkk, if_pos hkk.symm]
      · rw [if_neg hkk, if_neg (Ne.symm hkk)]
    have hmem : ∀ y ∈ t.active, y ∈ s.active ∧ y.id ≠ x.id := by
      intro y hy
      rw [hta] at hy
      simpa [List.mem_filter] using hy
    have htries : ∀ k, tries t k = tries s k := fun k => by unfold tries; rw [hth]
    constructor
    · rw [htn]; exact hlen
    · intro _; rw [htd, htn, hrq]; exact h.lenEq hr
    · intro y hy; rw [htn]; exact h.lt y (hmem y hy).1
    · intro q hq
      rw [htr] at hq
      rw [htn]
      rcases List.mem_append.1 hq with h1 | h1
      · exact h.rlt q h1
      · rw [List.mem_singleton] at h1; subst h1; rw [hid]; exact h.lt x hx
    · intro _ k hk
      rw [hac, hrc]
      have := h.one hr k (htn ▸ hk)
      by_cases hkk : k = x.id
      · rw [if_pos hkk, if_pos hkk]; subst hkk; omega
      · rw [if_neg hkk, if_neg hkk]; omega
    · intro k
      rw [hac, hrc]
      have := h.le1 k
      by_cases hkk : k = x.id
      · rw [if_pos hkk, if_pos hkk]; subst hkk; omega
      · rw [if_neg hkk, if_neg hkk]; omega
    · intro y hy; exact hreq _ _ (h.req y (hmem y hy).1)
    · intro y hy; exact h.size y (hmem y hy).1
    · intro _ y hy hrf
      rw [attempt_complete, if_neg (Ne.symm (hmem y hy).2)]
      exact h.buf hr y (hmem y hy).1 hrf
    · intro y hy; rw [htries]; exact h.tries1 y (hmem y hy).1
    · intro k; rw [htries]; exact h.tries6 k
    · intro k hk; rw [htries]; exact h.tries0 k (htn ▸ hk)
    · rw [hth]; exact hhttp
    · refine ⟨[], ?_, fun _ => rfl⟩
      rw [hto, htr, hw]; simp
    · intro q hq
      rw [htr] at hq
      rcases List.mem_append.1 hq with h1 | h1
      · exact hgood q h1
      · rw [List.mem_singleton] at h1; subst h1
        refine ⟨by rw [hid, hrr]; exact hreq _ _ (h.req x hx), evs, ok, code, [], by rw [hid], ?_, ?_, ?_⟩
        · intro hk h0
          rw [hrr] at hk ⊢
          obtain ⟨a, b, c, d, e⟩ := hg0 hk h0
          have hb := h.buf hr x hx b
          have hs := (h.size x hx).1
          have hbs : bufSize x.req = x.req.len := by
            unfold bufSize
            split
            · rename_i hc; exact absurd hc hk
            · rfl
          refine ⟨a, c, by rw [d, hb, hid], ?_⟩
          rw [d, e, hs, hbs]
        · intro hk h0
          rw [hrr] at hk
          obtain ⟨a, b, c⟩ := hg1 hk h0
          refine ⟨a, b, ?_⟩
          rcases c with c | c | c
          · exact Or.inl ⟨c.2, c.1⟩
          · exact Or.inr (Or.inl c)
          · refine Or.inr (Or.inr ?_)
            rw [hid, ← hrun]
            have := h.tries1 x hx
            omega
        · intro hk hst
          rw [hrr] at hk
          rw [hid, ← htt] at hst
          obtain ⟨a, b, c, d⟩ := hg2 hk hst
          refine ⟨a, c, ?_⟩
          rw [hid, ← h.buf hr x hx b, d, (h.size x hx).1]
          unfold bufSize
          rw [hk]
  case died x ok code wr tail hx hcause hta hth htn hto htr hts =>
    have hac : ∀ k, (t.active.map (·.id)).count k = if k = x.id then 0 else (s.active.map (·.id)).count k := by
      intro k; rw [hta, count_filter_ne]
    have hmem : ∀ y ∈ t.active, y ∈ s.active ∧ y.id ≠ x.id := by
      intro y hy
      rw [hta] at hy
      simpa [List.mem_filter] using hy
    have htries : ∀ k, tries t k = tries s k := fun k => by unfold tries; rw [hth]
    have hnr : t.status ≠ .running := by rw [hts]; simp
    constructor
    · rw [htn]; exact hlen
    · intro h1; exact absurd h1 hnr
    · intro y hy; rw [htn]; exact h.lt y (hmem y hy).1
    · rw [htr, htn]; exact h.rlt
    · intro h1; exact absurd h1 hnr
    · intro k; rw [hac, htr]; have := h.le1 k; split <;> omega
    · intro y hy; exact hreq _ _ (h.req y (hmem y hy).1)
    · intro y hy; exact h.size y (hmem y hy).1
    · intro h1; exact absurd h1 hnr
    · intro y hy; rw [htries]; exact h.tries1 y (hmem y hy).1
    · intro k; rw [htries]; exact h.tries6 k
    · intro k hk; rw [htries]; exact h.tries0 k (htn ▸ hk)
    · rw [hth]; exact hhttp
    · exact ⟨tail, by rw [hto, htr, hw], fun h1 => absurd hts h1⟩
    · rw [htr]; exact hgood

theorem inv_run (dict) (evs : List Ev) : Inv dict evs (run dict evs) := by
  induction evs using List.reverseRecOn with
  | nil =>
    refine ⟨Nat.le_refl _, fun _ _ => rfl, ?_, ?_, ?_, ?_, ?_, ?_, ?_, ?_, ?_, ?_, ?_, ⟨[], rfl, fun _ => rfl⟩, ?_⟩ <;>
      simp [run, init, tries]
  | append_singleton l e ih =>
    rw [run_snoc]
    by_cases hr : (run dict l).status = .running
    · exact ih.step rfl hr e _ (run_snoc dict l e).symm (effect dict _ hr (fun x hx => (ih.size x hx).2) e)
    · unfold step
      rw [if_neg hr]
      exact ih.frozen hr e

/-! ## C44 -/

/-- While the server runs, every request it has received either waits for its reply and has none yet, or was replied to exactly once.
What is missing from the property is at the end of the file: the server can die after the header of a reply. -/
theorem C44_one_reply_partial (dict) (evs : List Ev) (hr : (run dict evs).status = .running) (hd : (run dict evs).done = false) (k : Nat) (hk : k < (requests evs).length) :
    (Pending (run dict evs) k ∧ ((run dict evs).replies.filter fun r => r.id = k).length = 0) ∨
    (¬ Pending (run dict evs) k ∧ ((run dict evs).replies.filter fun r => r.id = k).length = 1) := by
  have hi := inv_run dict evs
  have h1 := hi.one hr k (by rw [hi.lenEq hr hd]; exact hk)
  have hc : ((run dict evs).replies.map (·.id)).count k = ((run dict evs).replies.filter fun r => r.id = k).length := by
    rw [List.count_eq_countP, List.countP_map, List.countP_eq_length_filter]
    congr 1
  rw [hc] at h1
  by_cases hp : Pending (run dict evs) k
  · have := List.count_pos_iff.2 hp
    exact Or.inl ⟨hp, by omega⟩
  · have : ((run dict evs).active.map (·.id)).count k = 0 := List.count_eq_zero.2 hp
    exact Or.inr ⟨hp, by omega⟩

/-- However the server ends, no request has more than one reply, and every reply belongs to a request of the client and carries its handle. -/
theorem C44_replies (dict) (evs : List Ev) :
    (∀ k, ((run dict evs).replies.filter fun r => r.id = k).length ≤ 1) ∧
    ∀ r ∈ (run dict evs).replies, (requests evs)[r.id]? = some r.req := by
  have hi := inv_run dict evs
  refine ⟨fun k => ?_, fun r hr => (hi.good r hr).1⟩
  have h1 := hi.le1 k
  have hc : ((run dict evs).replies.map (·.id)).count k = ((run dict evs).replies.filter fun r => r.id = k).length := by
    rw [List.count_eq_countP, List.countP_map, List.countP_eq_length_filter]
    congr 1
  omega

/-- A successful reply to a read is sent only at the end of a transfer with the response code 206, and carries the bytes received in this transfer, in order, of exactly the requested number. -/
theorem C44_success (dict) (evs : List Ev) (r : Reply) (hr : r ∈ (run dict evs).replies) (hk : r.req.kind = .read) (h0 : r.error = 0) :
    ∃ pre post, evs = pre ++ .complete r.id true 206 none :: post ∧ r.body = attempt r.id pre ∧ r.body.length = r.req.len := by
  obtain ⟨_, pre, ok, code, post, h1, h2, _⟩ := (inv_run dict evs).good r hr
  obtain ⟨a, b, c, d⟩ := h2 (by rw [hk]; simp) h0
  exact ⟨pre, post, by rw [h1, a, b], c, d⟩

/-- If the web server keeps to the range requests, that is, what it has sent in a transfer that ends with the response code 206 is a part of the file from the requested offset on, then
a successful reply carries exactly the bytes of the file that were asked for. -/
theorem C44_content (dict) (evs : List Ev) (file : Disk)
    (hserver : ∀ pre post id r, evs = pre ++ .complete id true 206 none :: post → (requests evs)[id]? = some r → ∃ n, attempt id pre = file.read r.off n)
    (r : Reply) (hr : r ∈ (run dict evs).replies) (hk : r.req.kind = .read) (h0 : r.error = 0) :
    r.body = file.read r.req.off r.req.len := by
  obtain ⟨pre, post, h1, h2, h3⟩ := C44_success dict evs r hr hk h0
  obtain ⟨n, hn⟩ := hserver pre post r.id r.req h1 ((inv_run dict evs).good r hr).1
  rw [hn] at h2
  rw [h2, Disk.read_length] at h3
  rw [h2, h3]

/-- Every range request to the web server is for exactly the bytes of a request of the client (for the configuration: the first four), and there are at most six for the same request. -/
theorem C44_attempts (dict) (evs : List Ev) :
    (∀ k, tries (run dict evs) k ≤ 6) ∧
    ∀ h ∈ (run dict evs).http, ∃ r, (requests evs)[h.1]? = some r ∧
      (r.kind = .read → 0 < r.len → r.off + r.len ≤ 2 ^ 64 → h.2 = (r.off, r.off + r.len - 1)) ∧
      (r.kind = .configure → h.2 = (0, 3)) := by
  have hi := inv_run dict evs
  refine ⟨hi.tries6, fun h hh => ?_⟩
  obtain ⟨r, h1, h2⟩ := hi.http h hh
  refine ⟨r, h1, ?_, ?_⟩
  · intro hk hl ho
    rw [h2]
    unfold range
    rw [hk]
    simp only [Prod.mk.injEq, true_and]
    omega
  · intro hk
    rw [h2]
    unfold range
    rw [hk]

/-- An error reply to a read has no body, and is only sent when the web server did not serve the range, does not have the file, or has failed six times. -/
theorem C44_error (dict) (evs : List Ev) (r : Reply) (hr : r ∈ (run dict evs).replies) (hk : r.req.kind = .read) (h0 : r.error ≠ 0) :
    r.error = 5 ∧ r.body = [] ∧ ∃ pre ok code post, evs = pre ++ .complete r.id ok code none :: post ∧
      (ok = true ∧ code ≠ 206 ∨ code = 404 ∨ tries (run dict pre) r.id = 6) := by
  obtain ⟨_, pre, ok, code, post, h1, _, h2, _⟩ := (inv_run dict evs).good r hr
  obtain ⟨a, b, c⟩ := h2 (by rw [hk]; simp) h0
  exact ⟨a, b, pre, ok, code, post, h1, c⟩

/-- The server goes on after a configuration only if the web server answered with 206 and exactly four bytes. -/
theorem C44_configure (dict) (evs : List Ev) (hrun : (run dict evs).status = .running) (r : Reply) (hr : r ∈ (run dict evs).replies) (hk : r.req.kind = .configure) :
    ∃ pre post, evs = pre ++ .complete r.id true 206 none :: post ∧ (attempt r.id pre).length = 4 := by
  obtain ⟨_, pre, ok, code, post, h1, _, _, h2⟩ := (inv_run dict evs).good r hr
  have hst : (run dict (pre ++ [.complete r.id ok code none])).status = .running := by
    have hev : evs = (pre ++ [.complete r.id ok code none]) ++ post := by rw [h1]; simp
    rw [hev] at hrun
    clear h2 h1 hr hev
    induction post using List.reverseRecOn with
    | nil => rw [List.append_nil] at hrun; exact hrun
    | append_singleton l e ih =>
      apply ih
      rw [← List.append_assoc, run_snoc] at hrun
      by_cases hx : (run dict (pre ++ [.complete r.id ok code none] ++ l)).status = .running
      · exact hx
      · unfold step at hrun
        rw [if_neg hx] at hrun
        exact hrun
  obtain ⟨a, b, c⟩ := h2 hk hst
  exact ⟨pre, post, by rw [h1, a, b], c⟩

/-- What the client sees is a sequence of complete replies, never mixed with each other; only if the server dies, a part of one more may follow. -/
theorem C44_wire_partial (dict) (evs : List Ev) :
    ∃ tail, (run dict evs).out = (run dict evs).replies.flatMap (fun r => header r.error r.req.handle ++ r.body) ++ tail ∧
      ((run dict evs).status ≠ .aborted → tail = []) := (inv_run dict evs).wire

/-- the number of ends of transfers for request `k` -/
def ends (k : Nat) (evs : List Ev) : Nat := (evs.filter fun e => match e with | .complete i _ _ _ => decide (i = k) | _ => false).length

theorem ends_snoc (k : Nat) (evs : List Ev) (e : Ev) : ends k (evs ++ [e]) = ends k evs + ends k [e] := by
  simp [ends, List.filter_append]

theorem pending_errors (dict) (evs more : List Ev) (k : Nat) (hk : Pending (run dict evs) k) (hk' : Pending (run dict (evs ++ more)) k)
    (hr : (run dict (evs ++ more)).status = .running) : ∃ x ∈ (run dict (evs ++ more)).active, x.id = k ∧ ends k more ≤ x.errors := by
  induction more using List.reverseRecOn with
  | nil =>
    obtain ⟨x, hx, hi⟩ := List.mem_map.1 hk'
    exact ⟨x, hx, hi, Nat.zero_le _⟩
  | append_singleton l e ih =>
    rw [← List.append_assoc, run_snoc] at hk' hr ⊢
    generalize hs : run dict (evs ++ l) = s at *
    have hinv : Inv dict (evs ++ l) s := hs ▸ inv_run dict _
    have hsr : s.status = .running := by
      by_cases hx : s.status = .running
      · exact hx
      · unfold step at hr; rw [if_neg hx] at hr; exact hr
    have hlt : k < s.next := by
      obtain ⟨x, hx, hi⟩ := List.mem_map.1 hk
      have hkn := (inv_run dict evs).lt x hx
      have : ∀ m, (run dict evs).next ≤ (run dict (evs ++ m)).next := by
        intro m
        induction m using List.reverseRecOn with
        | nil => rw [List.append_nil]; exact Nat.le_refl _
        | append_singleton m e ih =>
          rw [← List.append_assoc, run_snoc]
          refine Nat.le_trans ih ?_
          by_cases hx : (run dict (evs ++ m)).status = .running
          · have := effect dict _ hx (fun x hx => ((inv_run dict _).size x hx).2) e
            revert this
            generalize step dict (run dict (evs ++ m)) e = t
            intro this
            cases this <;> simp_all [start]
          · unfold step; rw [if_neg hx]; exact Nat.le_refl _
      have h2 := this l
      rw [hs] at h2
      subst hi; omega
    have heff := effect dict s hsr (fun x hx => (hinv.size x hx).2) e
    revert hk' hr heff
    generalize step dict s e = t
    intro hk' hr heff
    have hp : Pending s k := by
      have h1 := hinv.one hsr k hlt
      obtain ⟨y, hy, hyi⟩ := List.mem_map.1 hk'
      cases heff
      case idle hc hcm ha hh ho hrep hn hd hq => rw [Pending, ← ha]; exact hk'
      case new r m c cf hd hkk =>
        have hy' : y ∈ s.active ∨ y = ⟨s.next, r, [], bufSize r, 0, false⟩ := by simpa [start] using hy
        rcases hy' with h2 | h2
        · exact List.mem_map.2 ⟨y, h2, hyi⟩
        · subst h2; simp only [] at hyi; omega
      case chunk id b =>
        obtain ⟨x, hx, rfl⟩ := List.mem_map.1 hy
        refine List.mem_map.2 ⟨x, hx, ?_⟩
        rw [← hyi]
        split
        · exact (onChunk_id x b).1.symm
        · rfl
      case retry x ok code wr hx herr hcode hbad =>
        have hy' : (y ∈ s.active ∧ y.id ≠ x.id) ∨ y = ⟨x.id, x.req, [], bufSize x.req, x.errors + 1, false⟩ := by simpa [start, List.mem_filter] using hy
        rcases hy' with h2 | h2
        · exact List.mem_map.2 ⟨y, h2.1, hyi⟩
        · subst h2; exact List.mem_map.2 ⟨x, hx, hyi⟩
      case replied x ok code r hx hid hrr hg0 hg1 hta hth htn htd hto htr hts hg2 =>
        rw [hta] at hy
        exact List.mem_map.2 ⟨y, (List.mem_filter.1 hy).1, hyi⟩
      case died x ok code wr tail hx hcause hta hth htn hto htr hts =>
        rw [hta] at hy
        exact List.mem_map.2 ⟨y, (List.mem_filter.1 hy).1, hyi⟩
    obtain ⟨x, hx, hxi, hxe⟩ := ih hp hsr
    rw [ends_snoc]
    have huniq : ∀ z ∈ s.active, z.id = k → z = x := by
      intro z hz hzi
      have hle := hinv.le1 k
      have hnd : ∀ (l : List Xfer), (l.map (·.id)).count k ≤ 1 → x ∈ l → z ∈ l → z = x := by
        intro l
        induction l with
        | nil => intro _ h; cases h
        | cons a l ihl =>
          intro hc h1 h2
          rw [List.map_cons, List.count_cons] at hc
          rcases List.mem_cons.1 h1 with h1 | h1 <;> rcases List.mem_cons.1 h2 with h2 | h2
          · rw [h1, h2]
          · have : 0 < (l.map (·.id)).count k := List.count_pos_iff.2 (List.mem_map.2 ⟨z, h2, hzi⟩)
            rw [← h1, hxi] at hc; simp at hc; omega
          · have : 0 < (l.map (·.id)).count k := List.count_pos_iff.2 (List.mem_map.2 ⟨x, h1, hxi⟩)
            rw [← h2, hzi] at hc; simp at hc; omega
          · exact ihl (by omega) h1 h2
      exact hnd s.active (by omega) hx hz
    cases heff
    case idle hc hcm ha hh ho hrep hn hd hq =>
      refine ⟨x, ha ▸ hx, hxi, ?_⟩
      have : ends k [e] = 0 := by
        cases e <;> simp only [ends, List.filter_cons, List.filter_nil] <;> try rfl
        rename_i i ok code wr
        rw [if_neg]
        · rfl
        · intro h
          exact hcm _ _ _ _ rfl (by rw [of_decide_eq_true h]; exact hp)
      omega
    case new r m c cf hd hkk =>
      exact ⟨x, by simp [start, hx], hxi, hxe⟩
    case chunk id b =>
      refine ⟨if x.id = id then onChunk x b else x, List.mem_map.2 ⟨x, hx, rfl⟩, ?_, ?_⟩
      · split
        · rw [(onChunk_id x b).1]; exact hxi
        · exact hxi
      · show ends k l + 0 ≤ _
        split
        · rw [(onChunk_id x b).2.2.2]; omega
        · omega
    case retry z ok code wr hz herr hcode hbad =>
      by_cases hzk : z.id = k
      · have := huniq z hz hzk
        subst this
        refine ⟨⟨z.id, z.req, [], bufSize z.req, z.errors + 1, false⟩, by simp [start], hxi, ?_⟩
        have : ends k [.complete z.id ok code wr] ≤ 1 := by
          unfold ends
          exact List.length_filter_le _ _
        show _ ≤ z.errors + 1
        omega
      · refine ⟨x, by simp [start, List.mem_filter, hx, hxi]; left; exact fun h => hzk h.symm, hxi, ?_⟩
        have : ends k [.complete z.id ok code wr] = 0 := by simp [ends, hzk]
        omega
    case replied z ok code r hz hid hrr hg0 hg1 hta hth htn htd hto htr hts hg2 =>
      obtain ⟨y, hy, hyi⟩ := List.mem_map.1 hk'
      rw [hta, List.mem_filter] at hy
      have hzk : z.id ≠ k := fun h => by
        have := hy.2; simp at this; exact this (hyi.trans h.symm)
      refine ⟨x, ?_, hxi, ?_⟩
      · rw [hta, List.mem_filter]; exact ⟨hx, by simp; rw [hxi]; exact Ne.symm hzk⟩
      · have : ends k [.complete z.id ok code none] = 0 := by simp [ends, hzk]
        omega
    case died z ok code wr tail hz hcause hta hth htn hto htr hts =>
      rw [hts] at hr; cases hr

/-- Every request is answered in the end: once six transfers for it have ended, it waits no longer. -/
theorem C44_terminates (dict) (evs more : List Ev) (k : Nat) (hk : Pending (run dict evs) k) (h6 : 6 ≤ ends k more)
    (hr : (run dict (evs ++ more)).status = .running) : ¬ Pending (run dict (evs ++ more)) k := by
  intro hp
  obtain ⟨x, hx, _, hxe⟩ := pending_errors dict evs more k hk hp hr
  have := ((inv_run dict (evs ++ more)).tries1 x hx).2
  omega

/-! ## The client -/

theorem be_length (n w : Nat) : (be n w).length = w := by
  induction w generalizing n with
  | zero => rfl
  | succ w ih => simp [be, ih]

theorem raucHandle_length : raucHandle.length = 8 := rfl

/-- A read of the service from its own server (below 4 GiB) gets the bytes of the reply and leaves the connection at the start of the next one; an error reply gives an error. It never aborts on a complete reply. -/
theorem C44_client (size off : Nat) (r : Reply) (rest : Bytes) (hreq : r.req = clientReq size off) (hsize : size < 2 ^ 32)
    (herr : r.error = 5 ∨ r.error = 0) (h0 : r.error = 0 → r.body.length = r.req.len) (h5 : r.error ≠ 0 → r.body = []) :
    clientRead size (encode r ++ rest) = if r.error = 0 then .data r.body rest else .failed rest := by
  obtain ⟨id, req, error, body⟩ := r
  simp only [] at hreq herr h0 h5
  subst hreq
  have hmod : size % 2 ^ 32 = size := Nat.mod_eq_of_lt hsize
  have h4 : ∀ n, (be n 4).length = 4 := fun n => be_length n 4
  have hs : encode ⟨id, clientReq size off, error, body⟩ ++ rest = be 0x67446698 4 ++ (be error 4 ++ (raucHandle ++ (body ++ rest))) := by
    simp only [encode, header, clientReq, List.append_assoc]
  rw [hs]
  generalize hm : be 0x67446698 4 = m
  have hml : m.length = 4 := by rw [← hm]; exact h4 _
  have d4 : (m ++ (be error 4 ++ (raucHandle ++ (body ++ rest)))).drop 4 = be error 4 ++ (raucHandle ++ (body ++ rest)) := by
    rw [← hml]; exact List.drop_left
  have d8 : (m ++ (be error 4 ++ (raucHandle ++ (body ++ rest)))).drop 8 = raucHandle ++ (body ++ rest) := by
    rw [show (8 : Nat) = 4 + 4 from rfl, ← List.drop_drop, d4, ← h4 error]; exact List.drop_left
  have d16 : (m ++ (be error 4 ++ (raucHandle ++ (body ++ rest)))).drop 16 = body ++ rest := by
    rw [show (16 : Nat) = 8 + 8 from rfl, ← List.drop_drop, d8, ← raucHandle_length]; exact List.drop_left
  unfold clientRead
  rw [d4, d8, d16, hm]
  rw [if_neg (by simp only [List.length_append, hml, h4, raucHandle_length]; omega)]
  rw [if_neg (by rw [Decidable.not_not, ← hml]; exact List.take_left)]
  rw [if_neg (by rw [Decidable.not_not, ← raucHandle_length]; exact List.take_left)]
  have t4 : (be error 4 ++ (raucHandle ++ (body ++ rest))).take 4 = be error 4 := by
    conv => lhs; rw [← h4 error]
    exact List.take_left
  rw [t4]
  rcases herr with rfl | rfl
  · rw [if_pos (by decide), if_neg (by simp), h5 (by decide)]; rfl
  · have hb : body.length = size := by rw [h0 rfl]; exact hmod
    rw [if_neg (by simp), if_neg (by rw [List.length_append]; omega), if_pos rfl]
    rw [← hb, List.take_left, List.drop_left]

/-- **C44.** The bytes of a reply on the connection: the magic number, the error and the handle of the request as the protocol of the Linux kernel demands, then the data. -/
theorem C44_wire (r : Reply) (herr : r.error = 5 ∨ r.error = 0) :
    encode r = [0x67, 0x44, 0x66, 0x98, 0, 0, 0, UInt8.ofNat r.error] ++ r.req.handle ++ r.body := by
  obtain ⟨id, req, error, body⟩ := r
  simp only at herr
  have hm : be 0x67446698 4 = [0x67, 0x44, 0x66, 0x98] := by decide
  have h5 : be 5 4 = [0, 0, 0, 5] := by decide
  have h0 : be 0 4 = [0, 0, 0, 0] := by decide
  rcases herr with rfl | rfl
  · simp only [encode, header, hm, h5]; rfl
  · simp only [encode, header, hm, h0]; rfl

/-- **C44.** The request of the service for `size` bytes at `off` asks for these. -/
theorem C44_client_request (size off : Nat) (hs : size < 2 ^ 32) (ho : off < 2 ^ 64) :
    (clientReq size off).kind = .read ∧ (clientReq size off).off = off ∧ (clientReq size off).len = size :=
  ⟨rfl, Nat.mod_eq_of_lt ho, Nat.mod_eq_of_lt hs⟩

/-! ## Findings -/

/-- A web server that answers a range request with 206 but fewer bytes (and a matching length, so that this is no error for libcurl) makes the streaming process
send the header of a successful reply, without data, and then die. The reading side aborts too. -/
theorem C44_finding_header : ∃ evs, let s := run (fun _ _ _ => []) evs
    s.status = .aborted ∧ s.replies = [] ∧ s.out = header 0 raucHandle ∧ clientRead 8 s.out = .aborted :=
  ⟨[.request (clientReq 8 0) true true, .chunk 0 [1, 2, 3], .complete 0 true 206 none], by decide⟩

/-- From 4 GiB on, the client waits for more bytes than it has asked for. -/
theorem C44_finding_4gib : (clientReq (2 ^ 32 + 1) 0).len = 1 := by decide

/-! ## The hypotheses can be met -/

/-- two reads at the same time, the first one retried, with data in several pieces -/
def sample : List Ev :=
  [.request ⟨.read, 10, 4, [1, 1, 1, 1, 1, 1, 1, 1]⟩ true true, .request ⟨.read, 20, 2, [2, 2, 2, 2, 2, 2, 2, 2]⟩ true true,
   .chunk 0 [10, 11], .chunk 1 [20], .complete 0 false 206 none, .chunk 1 [21], .chunk 0 [10], .complete 1 true 206 none, .chunk 0 [11, 12, 13], .complete 0 true 206 none]

example : (run (fun _ _ _ => []) sample).status = .running ∧ (run (fun _ _ _ => []) sample).done = false ∧
    (run (fun _ _ _ => []) sample).replies = [⟨1, ⟨.read, 20, 2, [2, 2, 2, 2, 2, 2, 2, 2]⟩, 0, [20, 21]⟩, ⟨0, ⟨.read, 10, 4, [1, 1, 1, 1, 1, 1, 1, 1]⟩, 0, [10, 11, 12, 13]⟩] ∧
    tries (run (fun _ _ _ => []) sample) 0 = 2 := by decide

/-- a read that fails six times -/
example : let s := run (fun _ _ _ => []) (.request (clientReq 8 0) true true :: List.replicate 6 (.complete 0 false 0 none))
    s.replies = [⟨0, clientReq 8 0, 5, []⟩] ∧ tries s 0 = 6 ∧ clientRead 8 s.out = .failed [] := by decide

/-- a read that waits -/
example : Pending (run (fun _ _ _ => []) [.request (clientReq 8 0) true true]) 0 := by unfold Pending; decide

/-- a configuration that succeeds -/
example : let s := run (fun _ _ _ => [0]) [.request ⟨.configure, 0, 30, raucHandle⟩ true true, .chunk 0 [104, 115, 113, 115], .complete 0 true 206 none]
    s.status = .running ∧ s.replies = [⟨0, ⟨.configure, 0, 30, raucHandle⟩, 0, [0]⟩] := by decide

end Rauc.Nbd
