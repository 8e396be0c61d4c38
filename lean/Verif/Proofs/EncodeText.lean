import Verif.Spec.Util
/-!
# How texts are written
-/

namespace Sqlf

open Spec

theorem encode_text (L : GoLib) (layout : Str) {v : Val} {t : Str} (h : textOf v = some t) :
    encodeValue L layout v = .ok (quoteString t) := by
  fun_induction textOf v with
  | case1 => simp at h; subst h; rfl
  | case2 => simp at h; subst h; rfl
  | case3 _ _ _ _ ih => simpa [encodeValue] using ih h
  | case4 => simp at h

end Sqlf
