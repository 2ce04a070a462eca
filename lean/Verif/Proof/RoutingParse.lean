import Verif.Model.Routing

/-! # The sizes of what is made of a name -/

namespace Verif.Routing

open Verif

theorem split_sizes (s : Bytes) :
    (split s).2.length ≤ s.count dot ∧
      (split s).1.length + ((split s).2.map (fun t => t.length + 1)).sum ≤ s.length := by
  fun_induction split s with
  | case1 => simp
  | case2 cs ih =>
    by_cases e : cs = []
    · subst e; simp
    · rw [if_neg e]
      simp only [List.length_cons, List.length_nil, List.count_cons_self, List.map_cons, List.sum_cons]
      omega
  | case3 c cs e ih =>
    rw [List.count_cons_of_ne (fun h => e h)]
    simp only [List.length_cons]
    omega

theorem tokenize_ok {s : Bytes} (h1 : s.count 46 < 32) (h2 : s.length < 512) :
    tokenize s = .ok (tokens s) := by
  have := split_sizes s
  have hd : s.count dot = s.count 46 := rfl
  unfold tokenize
  rw [if_pos]
  unfold tokens maxTokens maxBuffer
  split
  · simp
  · simp only [List.length_cons, List.map_cons, List.sum_cons]
    omega

theorem tokenize_ub {s : Bytes} (h : 32 < (tokens s).length) : tokenize s = .ub := by
  unfold tokenize
  rw [if_neg]
  unfold maxTokens
  omega

end Verif.Routing
