import Verif.Model.Active
import Mathlib.Data.List.Basic
/-
Properties of the active object: C17.
-/
namespace G3.Props
open G3

/-- Specification: the tasks sent before the destructor's final task, as the history of a run tells. -/
def sentBefore : List ALabel → List Nat
  | [] => []
  | .send i :: r => i :: sentBefore r
  | .dtorSend :: _ => []
  | _ :: r => sentBefore r

/-- The tasks completed, as the history tells: the n-th completion is the n-th task. -/
def usersOf (l : List ATask) : List Nat := l.filterMap fun | .user i => some i | .stop => none

/-- Tasks before the first final task. -/
def beforeStop : List ATask → List Nat
  | [] => []
  | .user i :: r => i :: beforeStop r
  | .stop :: _ => []

theorem beforeStop_append (a b : List ATask) (h : .stop ∉ a) : beforeStop (a ++ b) = usersOf a ++ beforeStop b := by
  induction a with
  | nil => rfl
  | cons x a ih =>
    cases x with
    | user i =>
      have := ih (fun hm => h (List.mem_cons_of_mem _ hm))
      simp [beforeStop, usersOf, this]
    | stop => exact absurd (by simp) h

/-- The invariant: what was sent is what has been done, what is running and what is queued. -/
structure AInv (s : AState) : Prop where
  parts : s.flag = false → s.sent = s.ran.map .user ++ s.running.toList ++ s.q
  after : s.flag = true → ∃ rest, s.sent = s.ran.map .user ++ [.stop] ++ rest ∧ s.running = none
  exit : s.exited = true → s.flag = true
  dtor : s.dtor = .notStarted ↔ .stop ∉ s.sent
  join : s.dtor = .joined → s.exited = true

theorem ainv_step (s s' : AState) (l : ALabel) (hi : AInv s) (h : aStep s l = some s') : AInv s' := by
  obtain ⟨i1, i2, i3, i4, i5⟩ := hi
  cases l with
  | send i =>
    simp only [aStep] at h
    split at h
    · cases h
    · cases h
      refine ⟨fun hf => by simp only [i1 hf, List.append_assoc], fun hf => ?_, i3, by simpa using i4, i5⟩
      obtain ⟨r, hr, hn⟩ := i2 hf
      exact ⟨r ++ [.user i], by simp only [hr, List.append_assoc], hn⟩
  | dtorSend =>
    simp only [aStep] at h
    split at h
    · cases h
      refine ⟨fun hf => by simp only [i1 hf, List.append_assoc], fun hf => ?_, i3, by simp, fun hj => by cases hj⟩
      obtain ⟨r, hr, hn⟩ := i2 hf
      exact ⟨r ++ [.stop], by simp only [hr, List.append_assoc], hn⟩
    · cases h
  | pop =>
    simp only [aStep] at h
    split at h
    · next hc =>
      obtain ⟨c1, c2, c3⟩ := hc
      split at h
      · cases h
      · next x r hq =>
        cases h
        refine ⟨fun hf => ?_, fun hf => ?_, i3, i4, i5⟩
        · rw [i1 c1, c3, hq]; simp
        · simp only at hf; rw [c1] at hf; cases hf
    · cases h
  | finish =>
    simp only [aStep] at h
    split at h
    · next i hr =>
      cases h
      have hflag : s.flag = false := by
        cases hf : s.flag with
        | false => rfl
        | true => obtain ⟨_, _, hn⟩ := i2 hf; rw [hr] at hn; cases hn
      refine ⟨fun hf => ?_, fun hf => ?_, i3, i4, i5⟩
      · rw [i1 hflag, hr]; simp
      · simp only at hf; rw [hflag] at hf; cases hf
    · next hr =>
      cases h
      have hflag : s.flag = false := by
        cases hf : s.flag with
        | false => rfl
        | true => obtain ⟨_, _, hn⟩ := i2 hf; rw [hr] at hn; cases hn
      refine ⟨fun hf => (by cases hf), fun _ => ⟨s.q, by rw [i1 hflag, hr]; rfl, rfl⟩, fun _ => rfl, i4, i5⟩
    · cases h
  | leave =>
    simp only [aStep] at h
    split at h
    · next hc =>
      cases h
      exact ⟨i1, i2, fun _ => hc.1, i4, fun _ => rfl⟩
    · cases h
  | join =>
    simp only [aStep] at h
    split at h
    · next hc =>
      cases h
      refine ⟨i1, i2, i3, ?_, fun _ => hc.2⟩
      constructor
      · intro hx; cases hx
      · intro hx
        have := i4.2 hx
        rw [hc.1] at this; cases this
    · cases h

theorem ainv_start : AInv AState.start :=
  ⟨fun _ => rfl, fun h => (by cases h), fun h => (by cases h), by simp [AState.start], fun h => (by cases h)⟩

theorem arun_induct {P : AState → Prop} (hstep : ∀ s s' l, P s → aStep s l = some s' → P s') (ls : List ALabel) :
    ∀ s s', P s → aRun s ls = some s' → P s' := by
  induction ls with
  | nil => intro s s' h hr; cases hr; exact h
  | cons l ls ih =>
    intro s s' h hr
    simp only [aRun] at hr
    cases hl : aStep s l with
    | none => rw [hl] at hr; cases hr
    | some u => rw [hl] at hr; exact ih u s' (hstep s u l h hl) hr

/-- What the ghost list of sent tasks says is what the labels say. -/
theorem sent_labels (ls : List ALabel) : ∀ s s', aRun s ls = some s' →
    ∃ new, s'.sent = s.sent ++ new ∧ (s.dtor = .notStarted → beforeStop new = sentBefore ls) := by
  induction ls with
  | nil => intro s s' h; cases h; exact ⟨[], by simp, fun _ => rfl⟩
  | cons l ls ih =>
    intro s s' h
    simp only [aRun] at h
    cases hl : aStep s l with
    | none => rw [hl] at h; cases h
    | some u =>
      rw [hl] at h
      obtain ⟨new, hn, hb⟩ := ih u s' h
      cases l with
      | send i =>
        simp only [aStep] at hl
        split at hl
        · cases hl
        · cases hl
          exact ⟨.user i :: new, by simp [hn], fun hd => by simp only [beforeStop, sentBefore]; rw [hb hd]⟩
      | dtorSend =>
        simp only [aStep] at hl
        split at hl
        · cases hl
          exact ⟨.stop :: new, by simp [hn], fun _ => rfl⟩
        · cases hl
      | join =>
        simp only [aStep] at hl
        split at hl
        · next hc =>
          cases hl
          refine ⟨new, hn, fun hd => ?_⟩
          rw [hc.1] at hd; cases hd
        · cases hl
      | _ =>
        simp only [aStep] at hl
        repeat' (split at hl)
        all_goals first
          | (cases hl; done)
          | (cases hl; exact ⟨new, hn, hb⟩)

/-- C17: at any time, in every schedule, the tasks that have run are an initial part of those sent before the destructor's final
task, in the order of sending, each once; when the destructor has returned it is all of them. -/
theorem C17_exactly_those (ls : List ALabel) (s : AState) (h : aRun AState.start ls = some s) :
    s.ran <+: sentBefore ls ∧ (s.dtor = .joined → s.ran = sentBefore ls) := by
  have hi : AInv s := arun_induct (fun s s' l hi hs => ainv_step s s' l hi hs) ls _ s ainv_start h
  obtain ⟨new, hn, hb⟩ := sent_labels ls _ s h
  have hsent : beforeStop s.sent = sentBefore ls := by rw [hn]; exact hb rfl
  have hu : ∀ l : List Nat, usersOf (l.map ATask.user) = l := by
    intro l; induction l with
    | nil => rfl
    | cons a l ih => exact congrArg (a :: ·) ih
  have hs : ∀ l : List Nat, ATask.stop ∉ l.map ATask.user := by intro l; simp
  rw [← hsent]
  cases hf : s.flag with
  | false =>
    have he := hi.parts hf
    constructor
    · rw [he, List.append_assoc, beforeStop_append _ _ (hs _), hu]
      exact List.prefix_append _ _
    · intro hj
      have := hi.exit (hi.join hj)
      rw [hf] at this; cases this
  | true =>
    obtain ⟨rest, he, _⟩ := hi.after hf
    have : beforeStop s.sent = s.ran := by
      rw [he, List.append_assoc, beforeStop_append _ _ (hs _), hu]
      exact List.append_nil _
    rw [this]
    exact ⟨List.prefix_refl _, fun _ => rfl⟩

/-- C17: after the thread has ended nothing runs any more, whatever is sent. -/
theorem C17_nothing_later (ls ls' : List ALabel) (s s' : AState) (h : aRun AState.start ls = some s) (he : s.exited = true)
    (h' : aRun s ls' = some s') : s'.ran = s.ran := by
  have hi : AInv s := arun_induct (fun s s' l hi hs => ainv_step s s' l hi hs) ls _ s ainv_start h
  have : ∀ u u' l, (AInv u ∧ u.exited = true ∧ u.ran = s.ran) → aStep u l = some u' → (AInv u' ∧ u'.exited = true ∧ u'.ran = s.ran) := by
    intro u u' l ⟨a, b, c⟩ hs
    refine ⟨ainv_step u u' l a hs, ?_⟩
    obtain ⟨_, _, hn⟩ := a.after (a.exit b)
    cases l <;> simp only [aStep] at hs <;> repeat' (split at hs)
    all_goals first
      | (cases hs; done)
      | (cases hs; exact ⟨b, c⟩)
      | simp_all
  exact (arun_induct this ls' s s' ⟨hi, he, rfl⟩ h').2.2

/-- Steps of the background thread and the waiting destructor. -/
def progressLabels : List ALabel := [.pop, .finish, .leave, .join]

/-- C17: the destructor never hangs: as long as it has not returned some such step is possible, and there can be only finitely
many of them without new tasks. -/
theorem C17_destructor_returns (ls : List ALabel) (s : AState) (h : aRun AState.start ls = some s) (hd : s.dtor = .sent) :
    (∃ l ∈ progressLabels, ∃ s', aStep s l = some s') ∧
    ∀ l ∈ progressLabels, ∀ s', aStep s l = some s' →
      3 * s'.q.length + (if s'.running.isSome then 2 else 0) + (if s'.exited then 0 else 1) + (if s'.dtor = .joined then 0 else 1) <
      3 * s.q.length + (if s.running.isSome then 2 else 0) + (if s.exited then 0 else 1) + (if s.dtor = .joined then 0 else 1) := by
  have hi : AInv s := arun_induct (fun s s' l hi hs => ainv_step s s' l hi hs) ls _ s ainv_start h
  constructor
  · have hstop : ATask.stop ∈ s.sent := by
      by_contra hn
      have := hi.dtor.2 hn
      rw [hd] at this; cases this
    cases he : s.exited with
    | true => exact ⟨.join, by simp [progressLabels], _, by simp only [aStep]; rw [if_pos ⟨hd, he⟩]⟩
    | false =>
      cases hr : s.running with
      | some x => cases x <;> exact ⟨.finish, by simp [progressLabels], _, by simp only [aStep, hr]; rfl⟩
      | none =>
        cases hf : s.flag with
        | true => exact ⟨.leave, by simp [progressLabels], _, by simp only [aStep]; rw [if_pos ⟨hf, he, hr⟩]⟩
        | false =>
          cases hq : s.q with
          | nil =>
            rw [hi.parts hf, hr, hq] at hstop
            simp at hstop
          | cons x r => exact ⟨.pop, by simp [progressLabels], { s with q := r, running := some x }, by simp only [aStep]; rw [if_pos ⟨hf, he, hr⟩, hq]⟩
  · intro l hl s' hs
    simp only [progressLabels, List.mem_cons, List.not_mem_nil, or_false] at hl
    rcases hl with rfl | rfl | rfl | rfl
    · simp only [aStep] at hs
      split at hs
      · next hc =>
        split at hs
        · cases hs
        · next x r hq => cases hs; simp [hc.2.2, hq]; omega
      · cases hs
    · simp only [aStep] at hs
      split at hs
      · next hr => cases hs; simp [hr]
      · next hr => cases hs; simp [hr]
      · cases hs
    · simp only [aStep] at hs
      split at hs
      · next hc => cases hs; simp [hc.2.1]
      · cases hs
    · simp only [aStep] at hs
      split at hs
      · next hc => cases hs; simp [hc.1]
      · cases hs

example : ∃ s, aRun AState.start [.send 1, .pop, .send 2, .finish, .dtorSend, .send 3, .pop, .finish, .pop, .finish, .leave, .join] = some s ∧
    s.ran = [1, 2] ∧ s.dtor = .joined := ⟨_, rfl, rfl, rfl⟩

end G3.Props
