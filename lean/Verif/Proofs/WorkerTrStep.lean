import Verif.Props.WorkerTr
import Verif.Proofs.SinkUseStep
/-
Every case of `Tr` is a step of the worker model.
-/
namespace G3.Props
open G3

variable {M : Type}

theorem step_eq {s : WState M} (hu : s.ub = false) (hd : s.wpc.isDead = false) (l : WLabel M) :
    wStep s l = match l with
      | .save m => if s.phase.bgNull then some { s with ub := true } else some (pushTask s (.save m))
      | .fatal m => if s.phase.bgNull then some { s with ub := true } else some (pushTask s (.fatal m))
      | .add => some (addStep s)
      | .remove i => if i < s.n then some (beginCall s (.remove i) (.remove i)) else none
      | .clear => some (beginCall s .clear .clear)
      | .ret k => retStep s k
      | .hold i =>
        if i < s.n ∧ owned s i = true then some { s with sk := updSink s.sk i fun k => { k with refs := k.refs + 1 } } else none
      | .holdFail i c => if i < s.n ∧ owned s i = false then some { s with failed := s.failed ++ [c] } else none
      | .call i c => if i < s.n ∧ 0 < (s.sk i).refs then some { s with sk := updSink s.sk i (·.push (.call c)) } else none
      | .release i =>
        if i < s.n ∧ 0 < (s.sk i).refs then some (clientDrop { s with sk := updSink s.sk i fun k => { k with refs := k.refs - 1 } } i) else none
      | .reap i =>
        if i < s.n ∧ (s.sk i).reaping = true ∧ (s.sk i).exited = true then
          some { s with sk := updSink s.sk i fun k => { k with destroyed := true, reaping := false } }
        else none
      | .dtor => dtorStep s
      | .work => workStep s
      | .sinkPop i => sinkPop s i
      | .sinkFin i => sinkFin s i
      | .sinkFatal i m =>
        if i < s.n ∧ (s.sk i).blocked = false ∧ (s.sk i).running.any (fun x => !x.isStop) = true then
          if s.phase.bgNull then some { s with ub := true }
          else some { pushTask s (.fatal m) with sk := updSink s.sk i fun k => { k with blocked := true } }
        else none := by
  unfold wStep
  rw [if_neg (by simp [hu, hd])]
  cases l <;> rfl

theorem bgNull_ret {p : DPhase} (h : p.bgNull = false) : p ≠ .returned := by rintro rfl; cases h

theorem dead_of_wpc {p q : WPc M} (h : p = q) (hq : q.isDead = false) : p.isDead = false := by rw [h]; exact hq

theorem work_step {s s' : WState M} (hu : s.ub = false) (hd : s.wpc.isDead = false) (h : workStep s = some s') : wStep s .work = some s' := by
  rw [step_eq hu hd]; exact h

theorem take_step {s s' : WState M} (hu : s.ub = false) (hp : s.wpc = .idle) (h : takeTask s = some s') : wStep s .work = some s' := by
  refine work_step hu (dead_of_wpc hp rfl) ?_
  unfold workStep; rw [hp]; exact h

/-- Except for undefined behaviour, which has several causes. -/
theorem step_of_tr {s s' : WState M} (hu : s.ub = false) (hd : s.wpc.isDead = false) (hu' : s'.ub = false)
    (hret : s.phase = .returned → s'.calls.length = s.calls.length) (h : Tr s s') : ∃ l, wStep s l = some s' := by
  cases h with
  | ub => cases hu'
  | save m hb => exact ⟨.save m, by rw [step_eq hu hd]; simp [hb]⟩
  | fatal m hb => exact ⟨.fatal m, by rw [step_eq hu hd]; simp [hb]⟩
  | addQ hb => exact ⟨.add, by rw [step_eq hu hd]; simp [addStep, beginCall, pushTask, hb, bgNull_ret hb]⟩
  | addN hb hr => exact ⟨.add, by rw [step_eq hu hd]; simp [addStep, beginCall, hb, hr]⟩
  | rmQ i hi hb => exact ⟨.remove i, by rw [step_eq hu hd]; simp [beginCall, pushTask, hb, bgNull_ret hb, hi]⟩
  | rmN i hi hb =>
    by_cases hr' : s.phase = .returned
    · have := hret hr'; simp at this
    · exact ⟨.remove i, by rw [step_eq hu hd]; simp [beginCall, hb, hr', hi]⟩
  | clrQ hb => exact ⟨.clear, by rw [step_eq hu hd]; simp [beginCall, pushTask, hb, bgNull_ret hb]⟩
  | clrN hb =>
    by_cases hr' : s.phase = .returned
    · have := hret hr'; simp at this
    · exact ⟨.clear, by rw [step_eq hu hd]; simp [beginCall, hb, hr']⟩
  | retAddKeep k i c hc h1 h2 hk ho =>
    refine ⟨.ret k, ?_⟩
    rw [step_eq hu hd]
    simp only [retStep, hc, h1, h2, and_self, if_true, hk, clientDrop]
    simp only [hk] at ho
    rw [if_pos ho]
  | retAddDrop k i c hc h1 h2 hk ho =>
    refine ⟨.ret k, ?_⟩
    rw [step_eq hu hd]
    simp only [retStep, hc, h1, h2, and_self, if_true, hk, clientDrop]
    simp only [hk] at ho
    rw [if_neg (by rw [ho]; simp)]
  | retOther k c hc h1 h2 hk =>
    refine ⟨.ret k, ?_⟩
    rw [step_eq hu hd]
    simp only [retStep, hc, h1, h2, and_self, if_true]
    try (cases e : c.kind with
    | add i => exact absurd e (hk i)
    | _ => rfl)
  | hold i hi ho => exact ⟨.hold i, by rw [step_eq hu hd]; simp [hi, ho]⟩
  | holdFail i c hi ho => exact ⟨.holdFail i c, by rw [step_eq hu hd]; simp [hi, ho]⟩
  | call i c hi hr => exact ⟨.call i c, by rw [step_eq hu hd]; simp [hi, hr]⟩
  | relKeep i hi hr ho => exact ⟨.release i, by rw [step_eq hu hd]; simp only [hi, hr, and_self, if_true, clientDrop]; rw [if_pos ho]⟩
  | relDrop i hi hr ho => exact ⟨.release i, by rw [step_eq hu hd]; simp only [hi, hr, and_self, if_true, clientDrop]; rw [if_neg (by rw [ho]; simp), updSink_updSink]⟩
  | reap i hi h1 h2 => exact ⟨.reap i, by rw [step_eq hu hd]; simp [hi, h1, h2]⟩
  | dStart hp => exact ⟨.dtor, by rw [step_eq hu hd]; simp [dtorStep, hp, pushTask]⟩
  | dStop p hp hc => exact ⟨.dtor, by rw [step_eq hu hd]; simp [dtorStep, hp, hc, pushTask]⟩
  | dJoin hp hw => exact ⟨.dtor, by rw [step_eq hu hd]; simp [dtorStep, hp, hw, WPc.isEnded]⟩
  | dRet hp ha => exact ⟨.dtor, by rw [step_eq hu hd]; simp [dtorStep, hp, ha]⟩
  | dKeep i r hp ha ho => exact ⟨.dtor, by rw [step_eq hu hd]; simp only [hp] at ho; simp only [dtorStep, hp, ha]; rw [if_pos ho]⟩
  | dDrop i r hp ha ho => exact ⟨.dtor, by rw [step_eq hu hd]; simp only [hp] at ho; simp only [dtorStep, hp, ha]; rw [if_neg (by rw [ho]; simp)]⟩
  | dReap i hp he => exact ⟨.dtor, by rw [step_eq hu hd]; simp [dtorStep, hp, he]⟩
  | tSaveNone m r hp hq ha => exact ⟨.work, take_step hu hp (by simp [takeTask, hq, ha])⟩
  | tSave m r hp hq ha => exact ⟨.work, take_step hu hp (by simp [takeTask, hq, ha])⟩
  | tFatal m r hp hq => exact ⟨.work, take_step hu hp (by simp [takeTask, hq])⟩
  | tAdd i r hp hq => exact ⟨.work, take_step hu hp (by simp [takeTask, hq])⟩
  | tRmYes i r hp hq ho => exact ⟨.work, take_step hu hp (by simp [takeTask, hq, ho])⟩
  | tRmNo i r hp hq ho => exact ⟨.work, take_step hu hp (by simp [takeTask, hq, ho])⟩
  | tClear r hp hq => exact ⟨.work, take_step hu hp (by simp [takeTask, hq])⟩
  | tDone r hp hq => exact ⟨.work, take_step hu hp (by simp [takeTask, hq])⟩
  | send x i rest hp => exact ⟨.work, work_step hu hd (by simp [workStep, hp])⟩
  | sendEndF m hp => exact ⟨.work, work_step hu hd (by simp [workStep, hp])⟩
  | sendEnd x hp hx =>
    refine ⟨.work, work_step hu hd ?_⟩
    cases x with
    | fatal m => exact absurd rfl (hx m)
    | _ => simp [workStep, hp]
  | rmKeep i hp ho => exact ⟨.work, work_step hu hd (by simp only [workStep, hp]; rw [if_pos ho])⟩
  | rmDrop i hp ho => exact ⟨.work, work_step hu hd (by simp only [workStep, hp]; rw [if_neg (by rw [ho]; simp)])⟩
  | rmReap i hp he => exact ⟨.work, work_step hu hd (by simp [workStep, hp, he])⟩
  | clrEndF hp ha => exact ⟨.work, work_step hu hd (by simp [workStep, hp, ha])⟩
  | clrEnd hp ha => exact ⟨.work, work_step hu hd (by simp [workStep, hp, ha])⟩
  | clrKeep f i r hp ha ho => exact ⟨.work, work_step hu hd (by simp only [hp] at ho; simp only [workStep, hp, ha]; rw [if_pos ho])⟩
  | clrDrop f i r hp ha ho => exact ⟨.work, work_step hu hd (by simp only [hp] at ho; simp only [workStep, hp, ha]; rw [if_neg (by rw [ho]; simp)])⟩
  | clrReap i f hp he => exact ⟨.work, work_step hu hd (by simp [workStep, hp, he])⟩
  | sPop i x r hi h1 h2 hq => exact ⟨.sinkPop i, by rw [step_eq hu hd]; simp [sinkPop, hi, h1, h2, hq]⟩
  | sFinStop i hi h1 h2 => exact ⟨.sinkFin i, by rw [step_eq hu hd]; simp [sinkFin, hi, h1, h2]⟩
  | sFin i x hi h1 h2 h3 =>
    refine ⟨.sinkFin i, ?_⟩
    rw [step_eq hu hd]
    cases x with
    | stop => exact absurd rfl h3
    | _ => simp [sinkFin, hi, h1, h2]
  | sFatal i x m hi h1 h2 h3 hb =>
    refine ⟨.sinkFatal i m, ?_⟩
    rw [step_eq hu hd]
    cases x with
    | stop => exact absurd rfl h3
    | _ => simp [hi, h1, h2, hb, pushTask, SItem.isStop]

/-- After the destruction of the worker no synchronous call begins. -/
theorem step_returned {s s' : WState M} {l : WLabel M} (h : wStep s l = some s') (hp : s.phase = .returned) (hu' : s'.ub = false) :
    s'.calls.length = s.calls.length := by
  obtain ⟨hu, hd, _⟩ := tr_of_step h
  have hd' : s.wpc.isDead = false := by
    cases e : s.wpc <;> first | rfl | exact absurd e hd
  cases hc : beginsKind s.n l with
  | none =>
    have := (clTr_step h).1
    generalize s'.calls = x at this
    cases this with
    | same => rfl
    | more d hb => rw [hc] at hb; cases hb
    | set k c => simp
  | some d =>
    rw [step_eq hu hd'] at h
    cases l with
    | add => simp only [addStep, hp, if_true, Option.some.injEq] at h; subst h; cases hu'
    | remove i =>
      simp only [beginCall, hp, if_true] at h
      split at h
      · cases h; cases hu'
      · cases h
    | clear => simp only [beginCall, hp, if_true, Option.some.injEq] at h; subst h; cases hu'
    | _ => cases hc

end G3.Props
