import Verif.Props.BootSpec
import Verif.Props.BootQuery

/-!
# Refinement between boot loader backends

`Sim T B`: the concrete backend `T` (command lines and output of the boot loader's tool) behaves as the abstract backend `B`
on the environments described by `wf`. The specifications C01 - C05 and C55 carry over.
-/

namespace Rauc.Boot

structure Sim (T B : Backend) where
  abs : T.Env → B.Env
  /-- the abstract transaction of a concrete one, issued by a request in the given environment -/
  tx : T.Env → T.Txn → B.Txn
  wf : List Slot → T.Env → Prop
  getState : ∀ slots env rd s, wf slots env → s ∈ slots → T.getState rd env s = B.getState rd (abs env) s
  getPrimary : ∀ slots env rd, wf slots env → T.getPrimary rd slots env = B.getPrimary rd slots (abs env)
  txns : ∀ slots, SlotsWF slots → ∀ env rd r ts, wf slots env → r.slot ∈ slots → T.txns rd slots env r = some ts →
    B.txns rd slots (abs env) r = some (ts.map (tx env))
  step : ∀ slots, SlotsWF slots → ∀ env rd r ts n, wf slots env → r.slot ∈ slots → T.txns rd slots env r = some ts →
    wf slots (T.appAll env (ts.take n)) ∧ abs (T.appAll env (ts.take n)) = B.appAll (abs env) ((ts.map (tx env)).take n)

variable {T B : Backend} (S : Sim T B)

namespace Sim

theorem full {slots} (hwf : SlotsWF slots) {env rd r ts} (hw : S.wf slots env) (hr : r.slot ∈ slots)
    (h : T.txns rd slots env r = some ts) :
    S.wf slots (T.appAll env ts) ∧ S.abs (T.appAll env ts) = B.appAll (S.abs env) (ts.map (S.tx env)) := by
  have := S.step slots hwf env rd r ts ts.length hw hr h
  rw [List.take_length] at this
  rw [List.take_of_length_le (by simp)] at this
  exact this

/-- every history of the concrete backend is one of the abstract backend, with the same requests -/
theorem run {slots} (hwf : SlotsWF slots) (hist : List Ev) (hr : ∀ e ∈ hist, e.req.slot ∈ slots) (env : T.Env) (hw : S.wf slots env) :
    S.wf slots (T.run slots env hist) ∧
    ∃ hist' : List Ev, hist'.map Ev.req = hist.map Ev.req ∧ hist'.map Ev.rd = hist.map Ev.rd ∧
      S.abs (T.run slots env hist) = B.run slots (S.abs env) hist' := by
  induction hist generalizing env with
  | nil => exact ⟨hw, [], rfl, rfl, rfl⟩
  | cons e es ih =>
    have hes := fun x hx => hr x (List.mem_cons_of_mem _ hx)
    cases ht : T.txns e.rd slots env e.req with
    | none =>
      have he : T.ev slots env e = env := by unfold Backend.ev; rw [ht]
      obtain ⟨h1, h', hq, hd, h2⟩ := ih hes env hw
      refine ⟨by simpa [Backend.run, he] using h1, { e with done := 0 } :: h', by simp [hq], by simp [hd], ?_⟩
      have hb : B.ev slots (S.abs env) { e with done := 0 } = S.abs env := by
        unfold Backend.ev
        split
        · rfl
        · simp [Backend.appAll]
      simp only [Backend.run, List.foldl_cons, he, hb] at h2 ⊢
      exact h2
    | some ts =>
      have hst := S.step slots hwf env e.rd e.req ts e.done hw (hr e (by simp)) ht
      have he : T.ev slots env e = T.appAll env (ts.take e.done) := by unfold Backend.ev; rw [ht]
      have hb : B.ev slots (S.abs env) e = B.appAll (S.abs env) ((ts.map (S.tx env)).take e.done) := by
        unfold Backend.ev; rw [S.txns slots hwf env e.rd e.req ts hw (hr e (by simp)) ht]
      obtain ⟨h1, h', hq, hd, h2⟩ := ih hes _ hst.1
      refine ⟨by simpa [Backend.run, he] using h1, e :: h', by simp [hq], by simp [hd], ?_⟩
      simp only [Backend.run, List.foldl_cons, he, hb] at h2 ⊢
      rw [h2, hst.2]

theorem markBadSticks {P} (h : MarkBadSticks B P) :
    MarkBadSticks T (fun slots env s => S.wf slots env ∧ P slots (S.abs env) s) := by
  intro slots hwf s hs env rd ts hP ht hist hh rd'
  have ht' := S.txns slots hwf env rd (.setState s false) ts hP.1 hs ht
  obtain ⟨w1, a1⟩ := S.full hwf hP.1 (r := .setState s false) hs ht
  obtain ⟨w2, h', hq, _, a2⟩ := S.run hwf hist (fun e he => (hh e he).1) _ w1
  have := h slots hwf s hs (S.abs env) rd _ hP.2 ht' h' (by
    intro e he
    have : e.req ∈ hist.map Ev.req := hq ▸ List.mem_map_of_mem he
    obtain ⟨e', he', hee⟩ := List.mem_map.1 this
    rw [← hee]
    exact hh e' he') rd'
  rw [S.getState slots _ _ _ w2 hs, S.getPrimary slots _ _ w2, a2, a1]
  exact this

theorem activateMakesPrimary {P} (h : ActivateMakesPrimary B P) :
    ActivateMakesPrimary T (fun slots env s => S.wf slots env ∧ P slots (S.abs env) s) := by
  intro slots hwf s hs env rd ts hP ht
  have ht' := S.txns slots hwf env rd (.setPrimary s) ts hP.1 hs ht
  obtain ⟨w1, a1⟩ := S.full hwf hP.1 (r := .setPrimary s) hs ht
  have := h slots hwf s hs (S.abs env) rd _ hP.2 ht'
  refine ⟨?_, fun rd' => ?_⟩
  · rw [S.getPrimary slots _ _ w1, a1]; exact this.1
  · rw [S.getPrimary slots _ _ w1, a1]; exact this.2 rd'

theorem crashSafe {P} (h : CrashSafe B P) :
    CrashSafe T (fun slots env s => S.wf slots env ∧ P slots (S.abs env) s) := by
  intro slots hwf env rd r ts hr hP hns ht n rd'
  have ht' := S.txns slots hwf env rd r ts hP.1 hr ht
  obtain ⟨w1, a1⟩ := S.full hwf hP.1 hr ht
  obtain ⟨w2, a2⟩ := S.step slots hwf env rd r ts n hP.1 hr ht
  have := h slots hwf (S.abs env) rd r _ hr hP.2 hns ht' n rd'
  rw [S.getPrimary slots _ _ w1, S.getPrimary slots _ _ w2, S.getPrimary slots _ _ hP.1, a1, a2]
  refine ⟨this.1, fun s hs => ?_⟩
  have hsm : s ∈ slots := by subst hs; exact hr
  rw [S.getState slots _ _ _ w2 hsm, S.getState slots _ _ _ hP.1 hsm, a2]
  exact this.2 s hs

theorem markGoodWorks {P} (h : MarkGoodWorks B P) :
    MarkGoodWorks T (fun slots env s => S.wf slots env ∧ P slots (S.abs env) s) := by
  intro slots hwf s hs env rd ts hP ht
  have ht' := S.txns slots hwf env rd (.setState s true) ts hP.1 hs ht
  obtain ⟨w1, a1⟩ := S.full hwf hP.1 (r := .setState s true) hs ht
  rw [S.getState slots _ _ _ w1 hs, a1]
  exact h slots hwf s hs (S.abs env) rd _ hP.2 ht'

theorem othersUntouched {P} (h : OthersUntouched B P) :
    OthersUntouched T (fun slots env rd r t => S.wf slots env ∧ P slots (S.abs env) rd r t) := by
  intro slots hwf env rd r ts hr t htm hne hP ht n
  have ht' := S.txns slots hwf env rd r ts hP.1 hr ht
  obtain ⟨w2, a2⟩ := S.step slots hwf env rd r ts n hP.1 hr ht
  rw [S.getState slots _ _ _ w2 htm, S.getState slots _ _ _ hP.1 htm, a2]
  exact h slots hwf (S.abs env) rd r _ hr t htm hne hP.2 ht' n

theorem primaryIsGood {P} (h : PrimaryIsGood B P) :
    PrimaryIsGood T (fun slots env => S.wf slots env ∧ P slots (S.abs env)) := by
  intro slots hwf env rd s hP hs
  rw [S.getPrimary slots _ _ hP.1] at hs
  obtain ⟨hm, hg⟩ := h slots hwf (S.abs env) rd s hP.2 hs
  exact ⟨hm, by rw [S.getState slots _ _ _ hP.1 hm]; exact hg⟩

end Sim
end Rauc.Boot
