import Verif.Spec.Capture
import Verif.Proofs.Str
/-
Properties of captured messages: C35, C54 (and the routing part of C20).
-/
namespace G3.Props
open G3 G3.Spec

theorem capturef_some (size : Nat) (hs : 1 ≤ size) (fmt t : Str) :
    capturef size fmt (some t) =
      if t.length ≤ size then .ok (cstr (t.take (size - 1)))
      else .ok (cstr (t.take (size - 1)) ++ "[...truncated...]".toList) := by
  have h0 : ¬ ((size : Int) < 0) := by omega
  have h1 : ¬ ((size : Int) = 0) := by omega
  have hn : ((size : Int)).toNat = size := by omega
  have ht : truncatedText = "[...truncated...]".toList := rfl
  unfold capturef
  rw [if_neg h0]
  simp only
  rw [if_neg h1, hn, ht]
  generalize "[...truncated...]".toList = T
  by_cases h : t.length ≤ size
  · rw [if_pos h, if_neg (by omega)]
  · rw [if_neg h, if_pos (by omega)]

theorem capturef_none (size : Nat) (fmt : Str) : capturef size fmt none = .ok (printfFailure fmt) := by
  have h0 : ¬ ((size : Int) < 0) := by omega
  unfold capturef printfFailure
  rw [if_neg h0]
  simp

/-! ### C35 -/

/-- C35 (partial: every length except exactly the buffer size): a printf-style message appears in full if
it fits and otherwise cut and marked; a formatting failure is reported with the format string. -/
theorem C35_capturef_partial (size : Nat) (hs : 1 ≤ size) (fmt t : Str) (hnul : Char.ofNat 0 ∉ t) (hne : t.length ≠ size) :
    capturef size fmt (some t) = .ok (printfText size t) ∧ capturef size fmt none = .ok (printfFailure fmt) := by
  refine ⟨?_, capturef_none size fmt⟩
  have hc : cstr (t.take (size - 1)) = t.take (size - 1) :=
    cstr_eq_self (fun h => hnul (List.mem_of_mem_take h))
  rw [capturef_some size hs, hc]
  unfold printfText
  generalize "[...truncated...]".toList = T
  by_cases hlt : t.length < size
  · rw [if_pos (by omega), if_pos hlt, List.take_of_length_le (by omega)]
  · rw [if_neg (by omega), if_neg hlt]

/-- C35, the missing case: a text of exactly the buffer size silently loses its last character. -/
theorem C35_boundary (size : Nat) (hs : 1 ≤ size) (fmt t : Str) (hnul : Char.ofNat 0 ∉ t) (he : t.length = size) :
    capturef size fmt (some t) = .ok t.dropLast := by
  have hc : cstr (t.take (size - 1)) = t.take (size - 1) :=
    cstr_eq_self (fun h => hnul (List.mem_of_mem_take h))
  rw [capturef_some size hs, hc, if_pos (by omega), List.dropLast_eq_take, he]

/-- C35 is false with the default size: a message of 2048 characters loses its last one without a mark. -/
theorem C35_negation : ∃ t : Str, Char.ofNat 0 ∉ t ∧
    capturef defaultMessageSize [] (some t) ≠ .ok (printfText defaultMessageSize.toNat t) ∧
    capturef defaultMessageSize [] (some t) = .ok (t.take 2047) := by
  have hl : (List.replicate 2048 'a').length = 2048 := List.length_replicate
  have hm : Char.ofNat 0 ∉ List.replicate 2048 'a' := by
    intro h; have := List.eq_of_mem_replicate h; revert this; decide
  have hb := C35_boundary 2048 (by decide) [] (List.replicate 2048 'a') hm hl
  have hd : defaultMessageSize = ((2048 : Nat) : Int) := rfl
  refine ⟨List.replicate 2048 'a', hm, ?_, ?_⟩
  · rw [hd, hb]
    intro h
    have h := congrArg List.length (Except.ok.inj h)
    have hx : (((2048 : Nat) : Int)).toNat = 2048 := rfl
    unfold printfText at h
    rw [hx, hl, if_neg (by omega), List.length_append, List.length_dropLast, List.length_take, hl] at h
    have : "[...truncated...]".toList.length = 17 := by decide
    omega
  · rw [hd, hb, List.dropLast_eq_take, hl]

/-- C35: a size set with `setMaxMessageSize` is the one used, as long as it fits an `int`. -/
theorem C35_setMax (n : Nat) (h : n < 2147483648) : setMaxMessageSize n = n := by
  unfold setMaxMessageSize toInt32
  have : n % 4294967296 = n := Nat.mod_eq_of_lt (by omega)
  rw [this, if_pos h]

/-- C35: outside that range the size is not respected: 2 GiB makes every LOGF throw, 4 GiB makes it read
from an empty buffer. -/
theorem C35_setMax_negation (fmt t : Str) :
    capturef (setMaxMessageSize 2147483648) fmt (some t) = .error .lengthError ∧
    capturef (setMaxMessageSize 4294967296) fmt (some t) = .error .undefined := by
  have h1 : setMaxMessageSize 2147483648 = -2147483648 := by decide
  have h2 : setMaxMessageSize 4294967296 = 0 := by decide
  rw [h1, h2]
  exact ⟨rfl, rfl⟩

example : (1 : Nat) ≤ 4 ∧ Char.ofNat 0 ∉ "abcdef".toList ∧ "abcdef".toList.length ≠ 4 ∧
    capturef 4 "%s".toList (some "abcdef".toList) = .ok "abc[...truncated...]".toList := by decide

example : capturef 4 [] (some "abcd".toList) = .ok "abc".toList := by decide

/-! ### C54 -/

theorem capturef_ok (size : Nat) (hs : 1 ≤ size) (fmt : Str) (r : Option Str) :
    capturef size fmt r = .ok (insText size (.printf fmt r)) := by
  cases r with
  | none => exact capturef_none size fmt
  | some t =>
    rw [capturef_some size hs]
    unfold insText
    simp only
    generalize "[...truncated...]".toList = T
    by_cases he : t.length = size
    · rw [if_pos (by omega), if_pos he]
    · by_cases hlt : t.length < size
      · rw [if_pos (by omega), if_neg he, if_pos hlt, List.take_of_length_le (by omega)]
      · rw [if_neg (by omega), if_neg he, if_neg hlt]

theorem insertAll_spec (size : Nat) (hs : 1 ≤ size) (is : List Ins) (c : LogCapture) :
    c.insertAll size is = .ok { c with stream := c.stream ++ is.flatMap (insText size) } := by
  induction is generalizing c with
  | nil => simp [LogCapture.insertAll]
  | cons i is ih =>
    unfold LogCapture.insertAll
    have hi : c.insert size i = .ok { c with stream := c.stream ++ insText size i } := by
      cases i with
      | stream t => rfl
      | printf f r => simp only [LogCapture.insert, capturef_ok size hs]
    rw [hi]
    simp only
    rw [ih]
    simp

/-- C54: whatever is streamed or printed into a LOG/CHECK expression, in any order and number, the message
produced when the expression ends carries exactly that text (up to the first NUL), with the given
file, line, function, level and expression; it goes down the fatal path iff the level is fatal, and
then with the stack trace and the signal. -/
theorem C54_text (size : Nat) (hs : 1 ≤ size) (full : Bool) (now : Int) (tid : Nat) (file fn expr dump : Str) (line sig : Int)
    (level : Level) (is : List Ins) :
    ∃ c, (LogCapture.new file line fn level expr sig dump).insertAll size is = .ok c ∧
      c.destroy full now tid =
        let m : LogMessage :=
          { detailsFn := .default, timestamp := now, threadId := tid
            file := if full then file else splitFileName file
            filePath := file, line := line, function := fn
            level := ⟨level.value, cstr level.text⟩
            expression := expr
            message := cstr (is.flatMap (insText size)) }
        if 1000 ≤ level.value then .fatal (cstr ("\n*******\tSTACKDUMP *******\n".toList ++ dump)) m sig
        else .push m := by
  refine ⟨_, insertAll_spec size hs is _, ?_⟩
  have e1 : (LogCapture.new file line fn level expr sig dump).stream = [] := rfl
  unfold LogCapture.destroy saveMessage LogMessage.new Level.copy
  simp only [e1, List.nil_append, cstr_idem]
  have hw : ∀ l : Level, wasFatal l = decide (1000 ≤ l.value) := fun l => rfl
  by_cases hf : 1000 ≤ level.value
  · simp [LogCapture.new, hw, hf]
  · simp [LogCapture.new, hw, hf]

/-- C54: a signal capture has no file, function or expression but the same text rule. -/
theorem C54_signal (sig : Int) (dump : Str) :
    LogCapture.newSignal FATAL_SIGNAL sig dump =
      { stream := [], stackTrace := "\n*******\tSTACKDUMP *******\n".toList ++ dump, file := [], line := 0, function := [],
        level := FATAL_SIGNAL, expression := [], fatalSignal := sig } := by
  have : wasFatal FATAL_SIGNAL = true := by decide
  simp [LogCapture.newSignal, LogCapture.new, this]

example : ∃ c, (LogCapture.new "a.cpp".toList 1 "f".toList INFO [] SIGABRT []).insertAll 2048
      [.stream "x=".toList, .printf "%d".toList (some "42".toList), .stream "!".toList] = .ok c ∧
    c.stream = "x=42!".toList := ⟨_, rfl, by decide⟩

/-- C20: a message takes the fatal path exactly when its level value is at least 1000. -/
theorem C20_routing (full : Bool) (now : Int) (tid : Nat) (c : LogCapture) :
    (∃ tr m s, c.destroy full now tid = .fatal tr m s) ↔ 1000 ≤ c.level.value := by
  have hw : wasFatal c.level = decide (1000 ≤ c.level.value) := rfl
  unfold LogCapture.destroy saveMessage
  by_cases hf : 1000 ≤ c.level.value
  · simp [hw, hf]
  · simp [hw, hf]

end G3.Props
