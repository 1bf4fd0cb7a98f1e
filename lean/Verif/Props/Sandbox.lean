import Verif.Model.Sandbox

/-!
# C74: the process that talks to servers has no privileges and cannot get them back
-/

namespace Rauc.Sandbox

/-- Specification: system calls that change credentials (setreuid and seteuid are special cases of setresuid) -/
inductive Call where
  | setuid (u : Nat)
  | setresuid (r e s : Option Nat)
  | setgid (g : Nat)
  | setresgid (r e s : Option Nat)
  | setgroups (g : List Nat)
  | exec
deriving DecidableEq

/-- Specification: an argument of setresuid is allowed without privileges -/
def allowed (x : Option Nat) (a b c : Nat) : Prop := x = none ∨ x = some a ∨ x = some b ∨ x = some c

/-- Specification: what the kernel permits (credentials(7)) -/
inductive Step : Cred → Call → Cred → Prop
  | setuid {c u d} (h : c.setuid u = some d) : Step c (.setuid u) d
  | setgid {c g d} (h : c.setgid g = some d) : Step c (.setgid g) d
  | setgroups {c g d} (h : c.setgroups g = some d) : Step c (.setgroups g) d
  | setresuid {c : Cred} {r e s} (h : c.euid = 0 ∨ (allowed r c.ruid c.euid c.suid ∧ allowed e c.ruid c.euid c.suid ∧ allowed s c.ruid c.euid c.suid)) :
      Step c (.setresuid r e s) { c with ruid := r.getD c.ruid, euid := e.getD c.euid, suid := s.getD c.suid }
  | setresgid {c : Cred} {r e s} (h : c.euid = 0 ∨ (allowed r c.rgid c.egid c.sgid ∧ allowed e c.rgid c.egid c.sgid ∧ allowed s c.rgid c.egid c.sgid)) :
      Step c (.setresgid r e s) { c with rgid := r.getD c.rgid, egid := e.getD c.egid, sgid := s.getD c.sgid }
  | exec {c : Cred} : Step c .exec c.exec
  /-- a call that fails -/
  | failed {c x} : Step c x c

inductive Reach : Cred → Cred → Prop
  | refl (c) : Reach c c
  | step {a b c x} (h : Reach a b) (s : Step b x c) : Reach a c

/-- Specification: everything is as this user, with these groups -/
structure Is (c : Cred) (uid gid : Nat) (groups : List Nat) : Prop where
  ruid : c.ruid = uid
  euid : c.euid = uid
  suid : c.suid = uid
  rgid : c.rgid = gid
  egid : c.egid = gid
  sgid : c.sgid = gid
  groups : c.groups = groups

/-- **C74.** If the service runs as root, the streaming process is started only if its user exists, and then it has the user ID, the group ID and exactly the groups of
this user: nothing of the service's own identity is left. -/
theorem C74_dropped (k : Kernel) (U : Users) (fallback : Str) (user : Option Str) (c d : Cred) (hr : Is c 0 0 c.groups) (h : start k U fallback user c = some d) :
    ∃ uid gid g, U.passwd (user.getD fallback) = some (uid, gid) ∧ U.grouplist (user.getD fallback) gid = some g ∧ Is d uid gid g := by
  obtain ⟨r1, r2, r3, r4, r5, r6, -⟩ := hr
  unfold start prepare at h
  rw [if_neg (by simp [r1])] at h
  dsimp only at h
  cases hp : U.passwd (user.getD fallback) with
  | none => rw [hp] at h; cases h
  | some p =>
    obtain ⟨uid, gid⟩ := p
    rw [hp] at h
    dsimp only at h
    cases hg : U.grouplist (user.getD fallback) gid with
    | none => rw [hg] at h; cases h
    | some g =>
      rw [hg] at h
      refine ⟨uid, gid, g, rfl, hg, ?_⟩
      obtain ⟨k1, k2, k3⟩ := k
      cases k1
      · simp [childSetup, attempt] at h
      simp only [childSetup, attempt, Cred.setgroups, r2, if_true] at h
      by_cases h1 : gid = 0 <;> by_cases h2 : uid = 0
      · simp only [h1, h2, if_true, Option.map_some, Option.some.injEq] at h
        subst h; exact ⟨r1 ▸ h2.symm, r2 ▸ h2.symm, r2 ▸ h2.symm, r4 ▸ h1.symm, r5 ▸ h1.symm, r5 ▸ h1.symm, rfl⟩
      · cases k3
        · simp [h1, h2] at h
        simp only [h1, h2, if_true, if_false, Cred.setuid, r2, Option.map_some, Option.some.injEq] at h
        subst h; exact ⟨rfl, rfl, rfl, r4 ▸ h1.symm, r5 ▸ h1.symm, r5 ▸ h1.symm, rfl⟩
      · cases k2
        · simp [h1] at h
        simp only [h1, h2, if_true, if_false, Cred.setgid, r2, Option.map_some, Option.some.injEq] at h
        subst h; exact ⟨r1 ▸ h2.symm, r2 ▸ h2.symm, r2 ▸ h2.symm, rfl, rfl, rfl, rfl⟩
      · cases k2
        · simp [h1] at h
        cases k3
        · simp [h1, h2, Cred.setgid, r2] at h
        simp only [h1, h2, if_true, if_false, Cred.setgid, Cred.setuid, r2, Option.map_some, Option.some.injEq] at h
        subst h; exact ⟨rfl, rfl, rfl, rfl, rfl, rfl, rfl⟩

theorem allowed_same {x : Option Nat} {u : Nat} (h : allowed x u u u) : x.getD u = u := by
  rcases h with rfl | rfl | rfl | rfl <;> rfl

theorem is_step {c d : Cred} {uid gid : Nat} {g : List Nat} {x : Call} (hu : uid ≠ 0) (h : Is c uid gid g) (s : Step c x d) : Is d uid gid g := by
  obtain ⟨ruid, euid, suid, rgid, egid, sgid, gr⟩ := c
  obtain ⟨r1, r2, r3, r4, r5, r6, r7⟩ := h
  dsimp only at r1 r2 r3 r4 r5 r6 r7
  subst ruid; subst euid; subst suid; subst rgid; subst egid; subst sgid; subst gr
  cases s with
  | setuid h =>
    simp only [Cred.setuid, hu, if_false, or_self] at h
    split at h
    · rename_i e; subst e; cases h; exact ⟨rfl, rfl, rfl, rfl, rfl, rfl, rfl⟩
    · cases h
  | setgid h =>
    simp only [Cred.setgid, hu, if_false, or_self] at h
    split at h
    · rename_i e; subst e; cases h; exact ⟨rfl, rfl, rfl, rfl, rfl, rfl, rfl⟩
    · cases h
  | setgroups h =>
    simp only [Cred.setgroups, hu, if_false] at h
    cases h
  | setresuid h =>
    rcases h with h | ⟨h1, h2, h3⟩
    · exact absurd h hu
    · exact ⟨allowed_same h1, allowed_same h2, allowed_same h3, rfl, rfl, rfl, rfl⟩
  | setresgid h =>
    rcases h with h | ⟨h1, h2, h3⟩
    · exact absurd h hu
    · exact ⟨rfl, rfl, rfl, allowed_same h1, allowed_same h2, allowed_same h3, rfl⟩
  | exec => exact ⟨rfl, rfl, rfl, rfl, rfl, rfl, rfl⟩
  | failed => exact ⟨rfl, rfl, rfl, rfl, rfl, rfl, rfl⟩

/-- **C74.** And there is no way back: whatever system calls the streaming process (or code that took it over) makes, in any number and order, it stays this user with these
groups, given that the user is not root. -/
theorem C74_no_return (k : Kernel) (U : Users) (fallback : Str) (user : Option Str) (c d e : Cred) (hr : Is c 0 0 c.groups) (h : start k U fallback user c = some d)
    (hn : ∀ gid, U.passwd (user.getD fallback) ≠ some (0, gid)) (he : Reach d e) :
    ∃ uid gid g, uid ≠ 0 ∧ U.passwd (user.getD fallback) = some (uid, gid) ∧ U.grouplist (user.getD fallback) gid = some g ∧ Is e uid gid g := by
  obtain ⟨uid, gid, g, h1, h2, h3⟩ := C74_dropped k U fallback user c d hr h
  have hu : uid ≠ 0 := fun e => hn gid (by rw [h1, e])
  refine ⟨uid, gid, g, hu, h1, h2, ?_⟩
  induction he with
  | refl => exact h3
  | step _ s ih => exact is_step hu ih s

/-- **C74.** Without root privileges (as for `rauc info`) the streaming process runs with the identity of the caller. -/
theorem C74_user (k : Kernel) (U : Users) (fallback : Str) (user : Option Str) (c : Cred) (h1 : c.ruid ≠ 0) (h2 : c.rgid ≠ 0) : start k U fallback user c = some c.exec := by
  unfold start prepare
  rw [if_pos ⟨h1, h2⟩]
  rfl

/-- **C74.** With a configured user that does not exist, nothing is started by root (there is no fallback to another user or to root). -/
theorem C74_unknown_user (k : Kernel) (U : Users) (fallback : Str) (user : Option Str) (c : Cred) (h : c.ruid = 0) (hu : U.passwd (user.getD fallback) = none) :
    start k U fallback user c = none := by
  unfold start prepare
  rw [if_neg (by simp [h])]
  dsimp only
  rw [hu]

/-! ## Examples -/

def usersEx : Users :=
  { passwd := fun n => if n = c!"nobody" then some (65534, 65533) else if n = c!"root" then some (0, 0) else none
    grouplist := fun _ g => some [g, 7] }
def rootEx : Cred := ⟨0, 0, 0, 0, 0, 0, [0, 4, 6]⟩

example : start {} usersEx c!"nobody" none rootEx = some ⟨65534, 65534, 65534, 65533, 65533, 65533, [65533, 7]⟩ := by decide
example : Is rootEx 0 0 rootEx.groups := ⟨rfl, rfl, rfl, rfl, rfl, rfl, rfl⟩
example : start {} usersEx c!"nobody" (some c!"rauc") rootEx = none := by decide
example : start { setuid := false } usersEx c!"nobody" none rootEx = none := by decide

/-- **Finding (C74).** The decision looks at the real IDs only: a set-user-ID rauc does not drop its privileges. -/
theorem C74_real_ids_violated : start {} usersEx c!"nobody" none ⟨1000, 0, 0, 1000, 1000, 1000, [1000]⟩ = some ⟨1000, 0, 0, 1000, 1000, 1000, [1000]⟩ := by decide

end Rauc.Sandbox
