import Verif.Props.CreateText
import Verif.Props.CreateEx

/-!
# C61: the hypotheses of `C61_text_partial` are met
-/

namespace Rauc.Create

open ManifestFile (reload)

theorem ex_text {f : Str} (hs : succeeds (create toy exRun c!"1.14" 5 (exDir f) none) = true) (hok : ManifestFile.textCheck (reload (exFile f)) = true)
    (hcv : ∀ g ∈ reload (exFile f), (c!"convert", []) ∉ g.2) (hlen : (toy.text (exFile f)).length < 2 ^ 63) :
    ∃ file, create toy exRun c!"1.14" 5 (exDir f) none = (true, some file) ∧
      ∃ m b w', Bundle.checkBundle toyCrypto toyConfig (loadText toy) {} { enforce := true, check := true } (.file true file) = some b ∧ extract toy c!"1.14" b = .ok w' ∧ Holds toy (exDir f) m w' := by
  obtain ⟨file, hf⟩ := succeeds_iff hs
  have hsz : ∀ n b, openFile (exDir f) n = some b → b.length < 2 ^ 63 := by
    intro n b hb
    unfold openFile at hb
    split at hb
    · rename_i c hc
      cases hb
      obtain ⟨x, hx⟩ := target_file hc
      simp only [exDir, lookup] at hx
      split at hx
      · cases hx; exact hlen
      · split at hx
        · cases hx; decide
        · cases hx
    · cases hb
  have ht : openFile (exDir f) c!"manifest.raucm" = some (toy.text (exFile f)) := by
    simp [openFile, exDir, target, maxLinks, lookup, workName]
  obtain ⟨-, m0, m, -, -, h⟩ := C61_text_partial toy toy_sound toyCrypto toyConfig toy_trusted exRun (by intro s h; cases h; rfl) (by intro s h; cases h; rfl)
    c!"1.14" 5 (exDir f) none file hf (exDir f) (ex_link f) _ ht _ (toy_sound.text _) (ManifestFile.textCheck_ok hok) hcv hsz { enforce := true, check := true } ⟨rfl, rfl⟩
  obtain ⟨b, w', h1, h2, -, -, h3, -⟩ := h rfl
  exact ⟨file, hf, m, b, w', h1, h2, h3⟩

example := ex_text ex_verity (by decide) (by decide) (by decide +kernel)
example := ex_text ex_crypt (by decide) (by decide) (by decide +kernel)

end Rauc.Create
