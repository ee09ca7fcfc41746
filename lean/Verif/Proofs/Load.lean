import Verif.Model.Load
import Verif.Proofs.Path
import Verif.Proofs.Wire
/-
Lemmas for C69 and C70: loading of configurations.
-/
namespace Coniks
open Json Spec

theorem initSTR_roundtrip (s : DirSTR) (hs : Utf8STR s) :
    initSTROf (encSTR s).print = if s.core.epoch = 0 then some (some s) else some none := by
  obtain ⟨h1, h2, h3⟩ := rtSTR s (cleanSTR_of s hs) ⟨none, none⟩
  unfold initSTROf
  rw [parse_print _ h1, h2, Option.bind_some]
  have : decPtr ⟨none, none⟩ decSTR (some ⟨none, none⟩) (encSTR s) = some (some (DirSTR.wire s)) := by
    unfold decPtr encSTR
    simp only [Option.getD_some]
    unfold encSTR at h3
    rw [h3]; rfl
  rw [this]
  simp only [DirSTR.wire]
  by_cases h : s.core.epoch = 0
  · rw [if_neg (by simpa using h), if_pos h]
  · rw [if_pos h, if_neg h]

/-- reading a place that was just written -/
theorem write_new {D : Disk} {cwd : Place} {path buf : Bytes} (h : D (locate cwd path) = none) :
    D.write cwd path buf = (fun p => if p = locate cwd path then some buf else D p, true) := by
  unfold Disk.write; rw [h]; rfl

theorem write_old {D : Disk} {cwd : Place} {path buf old : Bytes} (h : D (locate cwd path) = some old) :
    D.write cwd path buf = (D, false) := by
  unfold Disk.write; rw [h]; rfl

/-- a write changes at most the place of its path, and only if there was nothing -/
theorem write_other {D : Disk} {cwd : Place} {path buf : Bytes} {p : Place} (h : p ≠ locate cwd path ∨ (D p).isSome) :
    (D.write cwd path buf).1 p = D p := by
  unfold Disk.write
  split
  · rfl
  · rename_i hn
    show (if p = locate cwd path then some buf else D p) = D p
    rcases h with h | h
    · rw [if_neg h]
    · rw [if_neg]
      rintro rfl
      exact hn h

end Coniks
