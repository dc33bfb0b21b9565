import Verif.Model.CaptureWindows
import Verif.Props.Capture
/-
C73: printf-style messages on Windows.
-/
namespace G3.Props
open G3 G3.Spec

/-- C73, what the code does: a text that fits appears in full; of a text that does not fit nothing appears, it is reported as a formatting
failure; a formatting failure is reported with the format string. -/
theorem C73_exact (size : Nat) (hs : 1 ≤ size) (fmt t : Str) (hnul : Char.ofNat 0 ∉ t) :
    capturefWindows size fmt (some t) = .ok (if t.length < size then t else printfFailure fmt) ∧
    capturefWindows size fmt none = .ok (printfFailure fmt) := by
  have h0 : ¬ ((size : Int) < 0) := by omega
  have h1 : ¬ ((size : Int) = 0) := by omega
  have hn : ((size : Int)).toNat = size := by omega
  have hp : "\n\tERROR LOG MSG NOTIFICATION: Failure to successfully parse the message".toList ++ (['"'] ++ fmt ++ ['"'] ++ ['\n']) =
      printfFailure fmt := by unfold printfFailure; simp
  unfold capturefWindows
  rw [if_neg h0, if_neg h1, if_neg h0, if_neg h1, hn]
  constructor
  · by_cases h : t.length < size
    · have hv : vsnprintf_s size (some t) = ((t.length : Int), t.take (size - 1)) := by unfold vsnprintf_s; simp only [h, if_true]
      rw [hv, if_pos h]
      simp only
      rw [if_neg (by omega), if_neg (by omega), List.take_of_length_le (by omega), cstr_eq_self hnul]
    · have hv : vsnprintf_s size (some t) = (-1, t.take (size - 1)) := by unfold vsnprintf_s; simp only [h, if_false]
      rw [hv, if_neg h]
      simp only
      rw [if_pos (by omega), hp]
  · exact congrArg Except.ok hp

/-- C73 (partial: texts that fit): as promised. Missing: texts that do not fit. -/
theorem C73_partial (size : Nat) (fmt t : Str) (hnul : Char.ofNat 0 ∉ t) (h : t.length < size) :
    capturefWindows size fmt (some t) = .ok (printfText size t) ∧ capturefWindows size fmt none = .ok (printfFailure fmt) := by
  obtain ⟨a, b⟩ := C73_exact size (by omega) fmt t hnul
  refine ⟨?_, b⟩
  rw [a, if_pos h]
  unfold printfText
  rw [if_pos h]

/-- C73 is false for every text that does not fit: the promised mark is never written, whatever the size. -/
theorem C73_negation (size : Nat) (hs : 1 ≤ size) (t : Str) (hnul : Char.ofNat 0 ∉ t) (h : size ≤ t.length) :
    capturefWindows size [] (some t) ≠ .ok (printfText size t) := by
  rw [(C73_exact size hs [] t hnul).1, if_neg (by omega)]
  intro e
  have e := congrArg List.getLast? (Except.ok.inj e)
  unfold printfFailure printfText at e
  rw [if_neg (by omega), List.getLast?_append, List.getLast?_append] at e
  have h1 : "\"\n".toList.getLast? = some '\n' := by decide
  have h2 : "[...truncated...]".toList.getLast? = some ']' := by decide
  rw [h1, List.getLast?_append, h2] at e
  simp at e

/-- Nothing of an overlong text is kept: two such texts give the same message. -/
theorem C73_lost (size : Nat) (hs : 1 ≤ size) (fmt t u : Str) (ht : Char.ofNat 0 ∉ t) (hu : Char.ofNat 0 ∉ u)
    (h : size ≤ t.length) (h' : size ≤ u.length) : capturefWindows size fmt (some t) = capturefWindows size fmt (some u) := by
  rw [(C73_exact size hs fmt t ht).1, (C73_exact size hs fmt u hu).1, if_neg (by omega), if_neg (by omega)]

example : 1 ≤ 3 ∧ Char.ofNat 0 ∉ "abc".toList ∧ 3 ≤ "abc".toList.length ∧ Char.ofNat 0 ∉ "xyz!".toList ∧ 3 ≤ "xyz!".toList.length ∧
    capturefWindows 4 "%s".toList (some "abc".toList) = .ok "abc".toList := by decide

end G3.Props
