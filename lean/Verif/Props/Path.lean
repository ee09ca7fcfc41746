import Verif.Proofs.Path
/-
C68: the paths of a configuration.
-/
namespace Coniks.Props
open Coniks Spec

/-- C68. The path `ResolvePath(file, other)` leads to where `file` leads for a process that works in the directory of `other`. This holds
for every working directory, and for all paths, with `.`, `..` and doubled slashes anywhere. -/
theorem C68_place (cwd : Place) (file other : Bytes) : locate cwd (resolvePath file other) = beside cwd other file :=
  resolve_beside cwd file other

/-- C68. "The directory of `other`" means: `other` is a path `a` that is empty or ends in a slash, followed by one name, and the place is where
`a` leads. Every path has this form. -/
theorem C68_directory_of (other : Bytes) : ∃ a base, other = a ++ base ∧ 0x2F ∉ base ∧ (a = [] ∨ ∃ a', a = a' ++ [0x2F]) ∧
    ∀ cwd file, beside cwd other file = locate (locate cwd a) file := by
  obtain ⟨a, base, rfl, hb, ha⟩ := exists_base other
  exact ⟨a, base, rfl, hb, ha, fun cwd file => by unfold beside; rw [upToSlash_append a base hb ha]⟩

/-- C68. A path that starts with a slash is returned as it is. -/
theorem C68_absolute_unchanged (file other : Bytes) (h : Absolute file) : resolvePath file other = file := by
  unfold resolvePath
  rw [if_pos ((isAbs_iff file).mpr h)]

/-- C68, PARTIAL: the comment of `ResolvePath` promises an absolute path. The result is absolute exactly if one of the arguments is.
Missing: with two relative paths it is relative, see the counterexample. -/
theorem C68_absolute_partial (file other : Bytes) : Absolute (resolvePath file other) ↔ Absolute file ∨ Absolute other :=
  resolve_abs file other

/-- C68. If the base is absolute then what the result leads to does not depend on the working directory, and a relative path becomes the
canonical path of its place: a slash before every name, no `.`, no `..`. -/
theorem C68_canonical (file other : Bytes) (hf : ¬ Absolute file) (ho : Absolute other) (cwd : Place) :
    resolvePath file other = pathOf (locate cwd (resolvePath file other)) := by
  have h := (resolve_abs file other).mpr (.inr ho)
  unfold resolvePath at h ⊢
  rw [if_neg fun h => hf ((isAbs_iff file).mp h)] at h ⊢
  unfold pathJoin at h ⊢
  rw [if_pos (show pathDir other ≠ [] from cleanPath_ne_nil _)] at h ⊢
  rw [locate_clean]
  exact cleanPath_canonical _ ((cleanPath_abs _).mp h) cwd

/-- C68. So two relative paths that lead to the same place resolve to the same path. -/
theorem C68_same_place (f₁ f₂ other : Bytes) (h₁ : ¬ Absolute f₁) (h₂ : ¬ Absolute f₂) (ho : Absolute other) (cwd : Place)
    (h : locate cwd (resolvePath f₁ other) = locate cwd (resolvePath f₂ other)) : resolvePath f₁ other = resolvePath f₂ other := by
  rw [C68_canonical f₁ other h₁ ho cwd, C68_canonical f₂ other h₂ ho cwd, h]

/-- text for the examples -/
def txt (s : String) : Bytes := s.toList.map fun c => UInt8.ofNat c.toNat

/-- C68: the promise of an absolute path is broken for the default `--config config.toml`, and resolving twice is not the same as resolving
once, and the two results lead to different places. -/
theorem C68_relative_counterexample :
    resolvePath (txt "sign.priv") (txt "config.toml") = txt "sign.priv" ∧ ¬ Absolute (resolvePath (txt "sign.priv") (txt "config.toml")) ∧
    resolvePath (txt "k.pem") (txt "conf/config.toml") = txt "conf/k.pem" ∧
    resolvePath (resolvePath (txt "k.pem") (txt "conf/config.toml")) (txt "conf/config.toml") = txt "conf/conf/k.pem" ∧
    locate [] (txt "conf/k.pem") ≠ locate [] (txt "conf/conf/k.pem") := by decide +kernel

/-- C68. An empty path (a key that the configuration does not set) leads to the directory of the configuration itself. -/
theorem C68_empty (cwd : Place) (other : Bytes) :
    locate cwd (resolvePath [] other) = locate cwd (upToSlash other) ∧ resolvePath [] other ≠ [] := by
  constructor
  · rw [C68_place]; rfl
  · unfold resolvePath pathJoin
    rw [if_neg (by decide), if_pos (show pathDir other ≠ [] from cleanPath_ne_nil _)]
    exact cleanPath_ne_nil _

example : resolvePath (txt "../keys//./sign.priv") (txt "/etc/coniks/../server/config.toml") = txt "/etc/keys/sign.priv" := by decide +kernel
example : resolvePath (txt "../../../sign.priv") (txt "a/config.toml") = txt "../../sign.priv" := by decide +kernel
example : locate [txt "op", txt "home"] (txt "../x/./y") = [txt "y", txt "x", txt "home"] := by decide +kernel
example : beside [] (txt "/etc/coniks/config.toml") (txt "../k") = [txt "k", txt "etc"] := by decide +kernel

end Coniks.Props
