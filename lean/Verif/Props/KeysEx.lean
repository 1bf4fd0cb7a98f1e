import Verif.Props.Keys
import Verif.Props.ResignEx

/-!
# C104: examples that meet the hypotheses
-/

namespace Rauc.Keys

open Rauc.Context (Store)
open Rauc.ConfigFile (Cfg)
open Rauc.Trust (X509 Ossl SignerInfo)
open Rauc.Bundle (Res)

def exUse : Context.Cert := ⟨0#32, 0#32, 0#32, 1⟩
def exSigner : X509 := ⟨1, [[65]], 0, 2000000, exUse⟩
def exInter : X509 := ⟨2, [], 0, 9000000, exUse⟩
def exRoot : X509 := ⟨3, [], 0, 9000000, exUse⟩
def exTable : List X509 := [exSigner, exInter, exRoot]

def byId (n : Nat) : Option X509 := exTable.find? (fun x => x.id == n)

/-- the keys are numbers: those of the certificates -/
def exPair (x : X509) (k : Nat) : Prop := x ∈ exTable ∧ x.id = k

instance (x : X509) (k : Nat) : Decidable (exPair x k) := by unfold exPair; infer_instance

/-- a toy encoding: 3 or 4 and the entries 10 + id for signers, 20 + id for other certificates -/
def exInfos (s : Bytes) : List SignerInfo := s.filterMap (fun b => if 10 ≤ b.toNat ∧ b.toNat < 20 then (byId (b.toNat - 10)).map (fun x => ⟨x, []⟩) else none)

def exCarried (s : Bytes) : List X509 := s.filterMap (fun b => if 10 ≤ b.toNat ∧ b.toNat < 20 then byId (b.toNat - 10) else if 20 ≤ b.toNat ∧ b.toNat < 30 then byId (b.toNat - 20) else none)

def exO : Ossl where
  ssl := ⟨fun f _ => decide (f = some c!"/k.pem"), fun _ => true⟩
  parse := Create.otherCrypto.parse
  decrypt _ _ _ := none
  infos s := some (exInfos s)
  verifyDetached _ _ _ _ := true
  verifyInline _ _ s := some s
  embedded _ := none
  verifyCert st _ _ _ := decide (st.file = some c!"/k.pem")

def sByte (x : X509) : UInt8 := UInt8.ofNat (10 + x.id)
def cByte (x : X509) : UInt8 := UInt8.ofNat (20 + x.id)

def exL : Lib Nat where
  sign x k l d _ := if exPair x k ∧ ∀ y ∈ l, y ∈ exTable then some ((if d then 3 else 4) :: sByte x :: l.map cByte) else none
  addCert s x := if x ∈ exTable then some (s ++ [cByte x]) else none
  addSigner s x k := if exPair x k then some (s ++ [sByte x]) else none
  encrypt r content := if r = [exInter, exRoot] ∧ content.length < 2 ^ 30 then some (5 :: content) else none
  decrypt k oc e := match e with
    | 5 :: c => if (k = 2 ∧ (oc = none ∨ oc = some exInter)) ∨ (k = 3 ∧ (oc = none ∨ oc = some exRoot)) then some c else none
    | _ => none
  chain _ _ x _ := [x, exInter, exRoot]

theorem ex_bytes {x : X509} (h : x ∈ exTable) : exInfos [sByte x] = [⟨x, []⟩] ∧ exInfos [cByte x] = [] ∧ exCarried [sByte x] = [x] ∧ exCarried [cByte x] = [x] := by
  simp only [exTable, List.mem_cons, List.not_mem_nil, or_false] at h
  rcases h with rfl | rfl | rfl <;> exact ⟨rfl, rfl, rfl, rfl⟩

theorem exInfos_append (s t : Bytes) : exInfos (s ++ t) = exInfos s ++ exInfos t := by simp [exInfos]

theorem exCarried_append (s t : Bytes) : exCarried (s ++ t) = exCarried s ++ exCarried t := by simp [exCarried]

theorem ex_certs {l : List X509} (h : ∀ y ∈ l, y ∈ exTable) : exInfos (l.map cByte) = [] ∧ exCarried (l.map cByte) = l := by
  induction l with
  | nil => exact ⟨rfl, rfl⟩
  | cons a l ih =>
    obtain ⟨i1, i2⟩ := ih (fun y hy => h y (List.mem_cons_of_mem _ hy))
    obtain ⟨-, b2, -, b4⟩ := ex_bytes (h a (List.mem_cons_self ..))
    have e : (a :: l).map cByte = [cByte a] ++ l.map cByte := rfl
    rw [e, exInfos_append, exCarried_append, i1, i2, b2, b4]
    exact ⟨rfl, rfl⟩

theorem ex_lib : LibOk exL exO exPair exCarried where
  sign x k l d content s h := by
    simp only [exL] at h
    split at h
    · rename_i hp
      cases h
      obtain ⟨i1, i2⟩ := ex_certs hp.2
      obtain ⟨b1, -, b3, -⟩ := ex_bytes hp.1.1
      have e : ∀ d : Bool, (if d then (3 : UInt8) else 4) :: sByte x :: l.map cByte = [if d then (3 : UInt8) else 4] ++ ([sByte x] ++ l.map cByte) := fun _ => rfl
      have e1 : ∀ d : Bool, exInfos [if d then (3 : UInt8) else 4] = [] := by decide
      have e2 : ∀ d : Bool, exCarried [if d then (3 : UInt8) else 4] = [] := by decide
      refine ⟨hp.1, ⟨[], ?_⟩, ?_, ?_⟩
      · simp only [exO]
        rw [e, exInfos_append, exInfos_append, e1, b1, i1]
        rfl
      · intro y
        rw [e, exCarried_append, exCarried_append, e2, b3, i2]
        simp
      · cases d <;> rfl
    · cases h
  addCert s x s' h := by
    simp only [exL] at h
    split at h
    · rename_i hx
      cases h
      obtain ⟨-, b2, -, b4⟩ := ex_bytes hx
      refine ⟨by simp [exO, exInfos_append, b2], ?_⟩
      intro y
      rw [exCarried_append, b4]
      simp [or_comm]
    · cases h
  addSigner s x k s' h := by
    simp only [exL] at h
    split at h
    · rename_i hp
      cases h
      obtain ⟨b1, -, b3, -⟩ := ex_bytes hp.1
      refine ⟨hp, ⟨[], by simp [exO, exInfos_append, b1]⟩, ?_⟩
      intro y
      rw [exCarried_append, b3]
      simp [or_comm]
    · cases h
  encrypt r content e h := by
    simp only [exL] at h
    split at h
    · rename_i hr
      cases h
      obtain ⟨rfl, -⟩ := hr
      refine ⟨rfl, ?_, ?_⟩
      · intro x hx k hp
        simp only [List.mem_cons, List.not_mem_nil, or_false] at hx
        rcases hx with rfl | rfl
        · obtain ⟨-, rfl⟩ := hp
          exact ⟨by simp [exL, exInter], by simp [exL, exInter]⟩
        · obtain ⟨-, rfl⟩ := hp
          exact ⟨by simp [exL, exRoot], by simp [exL, exRoot]⟩
      · intro k oc hd
        simp only [exL] at hd
        split at hd
        · rename_i hk
          rcases hk with ⟨rfl, -⟩ | ⟨rfl, -⟩
          · exact ⟨exInter, by simp, by decide⟩
          · exact ⟨exRoot, by simp, by decide⟩
        · cases hd
    · cases h

/-- the machine for signing: certificates in files (one file has several), and a key in a token -/
def exE : Env Nat where
  pem n := if n = c!"s.pem" then some [.other, .cert exSigner] else if n = c!"i.pem" then some [.cert exInter, .cert exRoot] else if n = c!"bad.pem" then some [.cert exInter, .damaged] else none
  key n p := if n = c!"s.key" ∧ p = some c!"secret" then some 1 else if n = c!"d.key" then some 3 else none
  passphrase := some c!"secret"
  pkcs11Module := none
  pkcs11Pin := some []
  engine := some ⟨true, fun _ => true, true, fun _ => true, fun _ _ _ => none, fun _ p n => if n = c!"pkcs11:object=key" ∧ p = none then some 1 else none⟩

def exCfg (path : Option Str) : Option Cfg :=
  (Context.start (fun _ => {}) (fun _ => .data (some [(c!"system", [(c!"compatible", c!"x"), (c!"bootloader", c!"noop")]), (c!"keyring", [(c!"path", c!"/other.pem")])])) (fun _ => true)
    true .service { keyring := path })

/-- what happens: a signature with two certificates and a warning about the signer's certificate, which expires within 30 days -/
def exSign (key : Str) (inter : List Str) : Option (Res (Bytes × List (Nat × X509))) :=
  (exCfg none).map fun c => cmsSign exE exL exO 100 c (some c!"/k.pem") [9, 9] true c!"s.pem" key inter

set_option maxRecDepth 20000 in
/-- The hypotheses of `C104_sign`, `C104_checked` and `C104_finding_chain_file` are met: with a key in a file, and with one in a token -/
example : exSign c!"s.key" [c!"i.pem"] = some (.ok ([3, 11, 22], [(1, exSigner)])) ∧ exSign c!"pkcs11:object=key" [] = some (.ok ([3, 11], [(1, exSigner)])) := by
  constructor <;> rfl

set_option maxRecDepth 20000 in
/-- a key that does not belong to the certificate, and a missing certificate -/
example : exSign c!"d.key" [] = some .error ∧ exSign c!"s.key" [c!"none.pem"] = some .error := by
  constructor <;> rfl

/-- `C104_append` -/
example : cmsAppend exE exL exO [3, 13] c!"s.pem" c!"s.key" [c!"i.pem"] = .ok [3, 13, 22, 11] := by rfl

/-- `C104_encrypt`: for both of the certificates in the file; `C104_encrypt_fails`: a damaged file -/
example : cmsEncrypt exE exL [c!"i.pem"] [4, 4] = .ok [5, 4, 4] ∧ cmsEncrypt exE exL [c!"i.pem", c!"bad.pem"] [4, 4] = .error ∧
    cmsDecrypt exE exL exO [5, 4, 4] none c!"d.key" = .ok [4, 4] := ⟨rfl, rfl, rfl⟩

/-- `C104_device`: each bundle in the crypt format that the device of `ResignEx` accepts can be encrypted for both, and the device has one of the keys -/
example (b : Bundle.Bundle) (m : Manifest) (hm : b.manifest = some m) (hc : m.format = .crypt) (f : Bytes) (hl : b.size ≤ f.length) (hs : b.sig ≠ [] ∧ b.sig.length < 2 ^ 30) :
    (∃ out, Create.encrypt (fun s => okOnly (cmsEncrypt exE exL [c!"i.pem"] s)) Create.exSteps b f none = .ok (true, out)) ∧
    Create.otherConfig.maxSig < 2 ^ 64 ∧ (∀ r e, exL.encrypt r b.sig = some e → e ≠ [] ∧ e.length ≤ Create.otherConfig.maxSig ∧ e.length < 2 ^ 31) ∧
    Create.otherCrypto.parse = exO.parse ∧ (∀ s, s ≠ [] → s.length < 2 ^ 31 → Create.otherCrypto.decrypt s = okOnly (cmsDecrypt exE exL exO s none c!"d.key")) ∧
    Create.otherConfig.encryptionKey = true ∧ KeyNamed exE c!"d.key" 3 ∧ exPair exRoot 3 ∧ ∃ n ∈ [c!"i.pem"], ∃ secs, exE.pem n = some secs ∧ Pem.cert exRoot ∈ secs := by
  refine ⟨?_, by decide, ?_, rfl, ?_, rfl, loadKey_iff.1 rfl, by decide, c!"i.pem", by simp, _, rfl, by simp⟩
  · have hb : badBio b.sig = false := by
      simp only [badBio, Bool.or_eq_false_iff, beq_eq_false_iff_ne, decide_eq_false_iff_not]
      exact ⟨fun e => hs.1 (List.length_eq_zero_iff.1 e), by omega⟩
    have he : okOnly (cmsEncrypt exE exL [c!"i.pem"] b.sig) = some (5 :: b.sig) := by
      unfold cmsEncrypt
      rw [hb]
      have hr : loadRecipients exE [c!"i.pem"] [] = some [exInter, exRoot] := rfl
      rw [hr]
      have hen : exL.encrypt [exInter, exRoot] b.sig = some (5 :: b.sig) := by
        simp only [exL, true_and]
        exact if_pos hs.2
      simp only [Bool.false_eq_true, if_false]
      rw [hen]
      rfl
    refine ⟨some (Bundle.appendSignature (f.take b.size) (5 :: b.sig)), ?_⟩
    simp [Create.encrypt, hm, hc, Create.copyOut, Create.exSteps, Create.finish, Bundle.truncateBundle, Nat.sub_eq_zero_of_le hl, he]
  · intro r e he
    simp only [exL] at he
    split at he
    · rename_i h
      cases he
      refine ⟨by simp, ?_, ?_⟩
      · show (5 :: b.sig).length ≤ 2 ^ 63
        rw [List.length_cons]
        omega
      · rw [List.length_cons]
        omega
    · cases he
  · intro s h1 h2
    have hb : badBio s = false := by
      simp only [badBio, Bool.or_eq_false_iff, beq_eq_false_iff_ne, decide_eq_false_iff_not]
      exact ⟨fun e => h1 (List.length_eq_zero_iff.1 e), by omega⟩
    unfold cmsDecrypt
    rw [hb]
    have hk : loadKey exE c!"d.key" = some 3 := rfl
    rw [hk]
    simp only [Bool.false_eq_true, if_false, optCert]
    have hp : exO.parse s = Create.otherCrypto.parse s := rfl
    rw [hp]
    match s with
    | 5 :: c => simp [Create.otherCrypto, exL, okOnly]
    | [] => exact absurd rfl h1
    | a :: c =>
      by_cases h5 : a = 5
      · subst h5; simp [Create.otherCrypto, exL, okOnly]
      · have e1 : Create.otherCrypto.decrypt (a :: c) = none := by
          simp only [Create.otherCrypto]
          split
          · rename_i h; cases h; exact absurd rfl h5
          · rfl
        rw [e1]
        split
        · rename_i d hd
          simp only [Create.otherCrypto] at hd
          split at hd
          · cases hd
          · cases hd
          · rename_i h; cases h; exact absurd rfl h5
          · cases hd
        · rfl

/-- `C104_spki`, `C104_spki_unique` -/
example : pubkeyHash (List.replicate 31 171 ++ [5]) = (List.replicate 31 c!"AB:").flatten ++ c!"05" ∧
    (pubkeyHashes (fun x => some (List.replicate 32 (UInt8.ofNat x.id))) [exSigner, exRoot]).isSome = true := by
  constructor <;> rfl

end Rauc.Keys
