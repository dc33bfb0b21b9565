import Verif.Model.Worker
/-
The steps of the worker model, case by case.
-/
namespace G3.Props
open G3

variable {M : Type}

/-- Every branch of `wStep`. -/
inductive Tr : WState M → WState M → Prop
  | ub (s) : Tr s { s with ub := true }
  | save (s) (m : M) : s.phase.bgNull = false → Tr s (pushTask s (.save m))
  | fatal (s) (m : M) : s.phase.bgNull = false → Tr s (pushTask s (.fatal m))
  | addQ (s) : s.phase.bgNull = false →
      Tr s { s with n := s.n + 1, sk := updSink s.sk s.n (fun _ => .fresh), wq := s.wq ++ [.add s.n], sub := s.sub ++ [.add s.n],
                    calls := s.calls ++ [⟨.add s.n, some s.sub.length, false⟩] }
  | addN (s) : s.phase.bgNull = true → s.phase ≠ .returned →
      Tr s { s with n := s.n + 1, sk := updSink s.sk s.n (fun _ => .fresh), calls := s.calls ++ [⟨.add s.n, none, false⟩] }
  | rmQ (s) (i) : i < s.n → s.phase.bgNull = false →
      Tr s { s with wq := s.wq ++ [.remove i], sub := s.sub ++ [.remove i], calls := s.calls ++ [⟨.remove i, some s.sub.length, false⟩] }
  | rmN (s) (i) : i < s.n → s.phase.bgNull = true → Tr s { s with calls := s.calls ++ [⟨.remove i, none, false⟩] }
  | clrQ (s) : s.phase.bgNull = false →
      Tr s { s with wq := s.wq ++ [.clear], sub := s.sub ++ [.clear], calls := s.calls ++ [⟨.clear, some s.sub.length, false⟩] }
  | clrN (s) : s.phase.bgNull = true → Tr s { s with calls := s.calls ++ [⟨.clear, none, false⟩] }
  | retAddKeep (s) (k i) (c : WCall) : s.calls[k]? = some c → c.returned = false → ready s c = true → c.kind = .add i →
      owned { s with calls := s.calls.set k { c with returned := true } } i = true →
      Tr s { s with calls := s.calls.set k { c with returned := true } }
  | retAddDrop (s) (k i) (c : WCall) : s.calls[k]? = some c → c.returned = false → ready s c = true → c.kind = .add i →
      owned { s with calls := s.calls.set k { c with returned := true } } i = false →
      Tr s { s with calls := s.calls.set k { c with returned := true }, sk := updSink s.sk i fun k => { k.stop with reaping := true } }
  | retOther (s) (k) (c : WCall) : s.calls[k]? = some c → c.returned = false → ready s c = true → (∀ i, c.kind ≠ .add i) →
      Tr s { s with calls := s.calls.set k { c with returned := true } }
  | hold (s) (i) : i < s.n → owned s i = true → Tr s { s with sk := updSink s.sk i fun k => { k with refs := k.refs + 1 } }
  | holdFail (s) (i c) : i < s.n → owned s i = false → Tr s { s with failed := s.failed ++ [c] }
  | call (s) (i c) : i < s.n → 0 < (s.sk i).refs → Tr s { s with sk := updSink s.sk i (·.push (.call c)) }
  | relKeep (s) (i) : i < s.n → 0 < (s.sk i).refs →
      owned { s with sk := updSink s.sk i fun k => { k with refs := k.refs - 1 } } i = true →
      Tr s { s with sk := updSink s.sk i fun k => { k with refs := k.refs - 1 } }
  | relDrop (s) (i) : i < s.n → 0 < (s.sk i).refs →
      owned { s with sk := updSink s.sk i fun k => { k with refs := k.refs - 1 } } i = false →
      Tr s { s with sk := updSink s.sk i fun k => { ({ k with refs := k.refs - 1 } : SinkSt M).stop with reaping := true } }
  | reap (s) (i) : i < s.n → (s.sk i).reaping = true → (s.sk i).exited = true →
      Tr s { s with sk := updSink s.sk i fun k => { k with destroyed := true, reaping := false } }
  | dStart (s) : s.phase = .notStarted →
      Tr s { s with wq := s.wq ++ [.clear], sub := s.sub ++ [.clear], phase := .clearing s.sub.length }
  | dStop (s) (p) : s.phase = .clearing p → p < s.completed →
      Tr s { s with wq := s.wq ++ [.done], sub := s.sub ++ [.done], phase := .stopping }
  | dJoin (s) : s.phase = .stopping → s.wpc = .ended → Tr s { s with wq := [], phase := .dropping }
  | dRet (s) : s.phase = .dropping → s.att = [] → Tr s { s with phase := .returned }
  | dKeep (s) (i r) : s.phase = .dropping → s.att = i :: r → owned { s with att := r } i = true → Tr s { s with att := r }
  | dDrop (s) (i r) : s.phase = .dropping → s.att = i :: r → owned { s with att := r } i = false →
      Tr s { s with att := r, sk := updSink s.sk i (·.stop), phase := .waitSink i }
  | dReap (s) (i) : s.phase = .waitSink i → (s.sk i).exited = true →
      Tr s { s with sk := updSink s.sk i (fun k => { k with destroyed := true }), phase := .dropping }
  | tSaveNone (s) (m : M) (r) : s.wpc = .idle → s.wq = .save m :: r → s.att = [] →
      Tr s { s with wq := r, err := s.err ++ [.noSinks m], completed := s.completed + 1 }
  | tSave (s) (m : M) (r) : s.wpc = .idle → s.wq = .save m :: r → s.att ≠ [] → Tr s { s with wq := r, wpc := .sending (.msg m) s.att }
  | tFatal (s) (m : M) (r) : s.wpc = .idle → s.wq = .fatal m :: r →
      Tr s { s with wq := r, err := s.err ++ [.fatal m], wpc := .sending (.fatal m) s.att }
  | tAdd (s) (i r) : s.wpc = .idle → s.wq = .add i :: r → Tr s { s with wq := r, att := s.att ++ [i], completed := s.completed + 1 }
  | tRmYes (s) (i r) : s.wpc = .idle → s.wq = .remove i :: r → owned s i = true →
      Tr s { s with wq := r, att := s.att.filter (fun j => decide (j ≠ i)), wpc := .rmHeld i }
  | tRmNo (s) (i r) : s.wpc = .idle → s.wq = .remove i :: r → owned s i = false → Tr s { s with wq := r, completed := s.completed + 1 }
  | tClear (s) (r) : s.wpc = .idle → s.wq = .clear :: r → Tr s { s with wq := r, wpc := .clearing false }
  | tDone (s) (r) : s.wpc = .idle → s.wq = .done :: r → Tr s { s with wq := r, wpc := .ended, completed := s.completed + 1 }
  | send (s) (x i rest) : s.wpc = .sending x (i :: rest) → Tr s { s with sk := updSink s.sk i (·.push x), wpc := .sending x rest }
  | sendEndF (s) (m : M) : s.wpc = .sending (.fatal m) [] → Tr s { s with wpc := .clearing true }
  | sendEnd (s) (x) : s.wpc = .sending x [] → (∀ m, x ≠ .fatal m) → Tr s { s with wpc := .idle, completed := s.completed + 1 }
  | rmKeep (s) (i) : s.wpc = .rmHeld i → owned { s with wpc := .rmWait i } i = true →
      Tr s { s with wpc := .idle, completed := s.completed + 1 }
  | rmDrop (s) (i) : s.wpc = .rmHeld i → owned { s with wpc := .rmWait i } i = false →
      Tr s { s with sk := updSink s.sk i (·.stop), wpc := .rmWait i }
  | rmReap (s) (i) : s.wpc = .rmWait i → (s.sk i).exited = true →
      Tr s { s with sk := updSink s.sk i (fun k => { k with destroyed := true }), wpc := .idle, completed := s.completed + 1 }
  | clrEndF (s) : s.wpc = .clearing true → s.att = [] → Tr s { s with wpc := .dead }
  | clrEnd (s) : s.wpc = .clearing false → s.att = [] → Tr s { s with wpc := .idle, completed := s.completed + 1 }
  | clrKeep (s) (f i r) : s.wpc = .clearing f → s.att = i :: r → owned { s with att := r } i = true → Tr s { s with att := r }
  | clrDrop (s) (f i r) : s.wpc = .clearing f → s.att = i :: r → owned { s with att := r } i = false →
      Tr s { s with att := r, sk := updSink s.sk i (·.stop), wpc := .clrWait i f }
  | clrReap (s) (i f) : s.wpc = .clrWait i f → (s.sk i).exited = true →
      Tr s { s with sk := updSink s.sk i (fun k => { k with destroyed := true }), wpc := .clearing f }
  | sPop (s) (i x r) : i < s.n → (s.sk i).running = none → (s.sk i).exited = false → (s.sk i).q = x :: r →
      Tr s { s with sk := updSink s.sk i fun k => { k with q := r, running := some x } }
  | sFinStop (s) (i) : i < s.n → (s.sk i).blocked = false → (s.sk i).running = some .stop →
      Tr s { s with sk := updSink s.sk i fun k => { k with running := none, exited := true } }
  | sFin (s) (i x) : i < s.n → (s.sk i).blocked = false → (s.sk i).running = some x → x ≠ .stop →
      Tr s { s with sk := updSink s.sk i fun k => { k with running := none, done := k.done ++ [x] } }
  | sFatal (s) (i x) (m : M) : i < s.n → (s.sk i).blocked = false → (s.sk i).running = some x → x ≠ .stop → s.phase.bgNull = false →
      Tr s { s with wq := s.wq ++ [.fatal m], sub := s.sub ++ [.fatal m], sk := updSink s.sk i fun k => { k with blocked := true } }

theorem updSink_updSink (sk : Nat → SinkSt M) (i : Nat) (f g : SinkSt M → SinkSt M) :
    updSink (updSink sk i f) i g = updSink sk i (fun k => g (f k)) := by
  funext j; unfold updSink; by_cases h : j = i <;> simp [h]

theorem tr_of_take {s s' : WState M} (hp : s.wpc = .idle) (h : takeTask s = some s') : Tr s s' := by
  unfold takeTask at h
  split at h
  · cases h
  · next m r hq =>
    split at h
    · next ha => cases h; exact .tSaveNone s m r hp hq ha
    · next ha => cases h; exact .tSave s m r hp hq ha
  · next m r hq => cases h; exact .tFatal s m r hp hq
  · next i r hq => cases h; exact .tAdd s i r hp hq
  · next i r hq =>
    split at h
    · next ho => cases h; exact .tRmYes s i r hp hq ho
    · next ho => cases h; exact .tRmNo s i r hp hq (by simpa using ho)
  · next r hq => cases h; exact .tClear s r hp hq
  · next r hq => cases h; exact .tDone s r hp hq

theorem tr_of_work {s s' : WState M} (h : workStep s = some s') : Tr s s' := by
  unfold workStep at h
  split at h
  · next hp => exact tr_of_take hp h
  · next x i rest hp => cases h; exact .send s x i rest hp
  · next m hp => cases h; exact .sendEndF s m hp
  · next x hx hp => cases h; exact .sendEnd s x hp (fun m hm => hx m hm)
  · next i hp =>
    split at h
    · next ho => cases h; exact .rmKeep s i hp ho
    · next ho => cases h; exact .rmDrop s i hp (by simpa using ho)
  · next i hp =>
    split at h
    · next he => cases h; exact .rmReap s i hp he
    · cases h
  · next f hp =>
    split at h
    · next ha =>
      cases f
      · cases h; exact .clrEnd s hp ha
      · cases h; exact .clrEndF s hp ha
    · next i r ha =>
      split at h
      · next ho => cases h; exact .clrKeep s f i r hp ha ho
      · next ho => cases h; exact .clrDrop s f i r hp ha (by simpa using ho)
  · next i f hp =>
    split at h
    · next he => cases h; exact .clrReap s i f hp he
    · cases h
  · cases h
  · cases h

theorem tr_of_dtor {s s' : WState M} (h : dtorStep s = some s') : Tr s s' := by
  unfold dtorStep at h
  split at h
  · next hp => cases h; exact .dStart s hp
  · next p hp =>
    split at h
    · next hc => cases h; exact .dStop s p hp hc
    · cases h
  · next hp =>
    split at h
    · next he =>
      cases h
      refine .dJoin s hp ?_
      cases hw : s.wpc <;> rw [hw] at he <;> first | rfl | cases he
    · cases h
  · next hp =>
    split at h
    · next ha => cases h; exact .dRet s hp ha
    · next i r ha =>
      split at h
      · next ho => cases h; exact .dKeep s i r hp ha ho
      · next ho => cases h; exact .dDrop s i r hp ha (by simpa using ho)
  · next i hp =>
    split at h
    · next he => cases h; exact .dReap s i hp he
    · cases h
  · cases h

theorem tr_of_ret {s s' : WState M} {k : Nat} (h : retStep s k = some s') : Tr s s' := by
  unfold retStep at h
  split at h
  · cases h
  · next c hc =>
    split at h
    · next hr =>
      dsimp only at h
      split at h
      · next i hk =>
        cases h
        unfold clientDrop
        split
        · next ho => exact .retAddKeep s k i c hc hr.1 hr.2 hk ho
        · next ho => exact .retAddDrop s k i c hc hr.1 hr.2 hk (by simpa using ho)
      · next hk => cases h; exact .retOther s k c hc hr.1 hr.2 (fun i hi => hk i hi)
    · cases h

/-- The case analysis is complete. -/
theorem tr_of_step {s s' : WState M} {l : WLabel M} (h : wStep s l = some s') : s.ub = false ∧ s.wpc ≠ .dead ∧ Tr s s' := by
  unfold wStep at h
  split at h
  · cases h
  · next hc =>
    rw [not_or] at hc
    refine ⟨by simpa using hc.1, fun hd => hc.2 (by rw [hd]; rfl), ?_⟩
    split at h
    · split at h
      · cases h; exact .ub s
      · next hb => cases h; exact .save s _ (by simpa using hb)
    · split at h
      · cases h; exact .ub s
      · next hb => cases h; exact .fatal s _ (by simpa using hb)
    · cases h
      unfold addStep
      split
      · exact .ub s
      · next hr =>
        unfold beginCall
        dsimp only
        rw [if_neg hr]
        split
        · next hb => exact .addN s hb hr
        · next hb => exact .addQ s (by simpa using hb)
    · split at h
      · next hi =>
        cases h
        unfold beginCall
        split
        · exact .ub s
        · split
          · next hb => exact .rmN s _ hi hb
          · next hb => exact .rmQ s _ hi (by simpa using hb)
      · cases h
    · cases h
      unfold beginCall
      split
      · exact .ub s
      · split
        · next hb => exact .clrN s hb
        · next hb => exact .clrQ s (by simpa using hb)
    · exact tr_of_ret h
    · split at h
      · next hh => cases h; exact .hold s _ hh.1 hh.2
      · cases h
    · split at h
      · next hh => cases h; exact .holdFail s _ _ hh.1 hh.2
      · cases h
    · split at h
      · next hh => cases h; exact .call s _ _ hh.1 hh.2
      · cases h
    · split at h
      · next hh =>
        cases h
        unfold clientDrop
        split
        · next ho => exact .relKeep s _ hh.1 hh.2 ho
        · next ho =>
          dsimp only
          rw [updSink_updSink]
          exact .relDrop s _ hh.1 hh.2 (by simpa using ho)
      · cases h
    · split at h
      · next hh => cases h; exact .reap s _ hh.1 hh.2.1 hh.2.2
      · cases h
    · exact tr_of_dtor h
    · exact tr_of_work h
    · unfold sinkPop at h
      split at h
      · next hh =>
        split at h
        · cases h
        · next x r hq => cases h; exact .sPop s _ x r hh.1 hh.2.1 hh.2.2 hq
      · cases h
    · unfold sinkFin at h
      split at h
      · next hh =>
        split at h
        · cases h
        · next hr => cases h; exact .sFinStop s _ hh.1 hh.2 hr
        · next x hx hr => cases h; exact .sFin s _ x hh.1 hh.2 hr hx
      · cases h
    · split at h
      · next hh =>
        split at h
        · cases h; exact .ub s
        · next hb =>
          cases h
          obtain ⟨h1, h2, h3⟩ := hh
          rename_i i m
          cases hr : (s.sk i).running with
          | none => rw [hr] at h3; cases h3
          | some x =>
            rw [hr] at h3
            refine .sFatal s i x m h1 h2 hr ?_ (by simpa using hb)
            intro hx; subst hx; cases h3
      · cases h

end G3.Props
