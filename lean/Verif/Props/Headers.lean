import Verif.Spec.Headers
import Verif.Props.FileSink
/-
C129: the headers in the log files.
-/
namespace G3.Props
open G3 G3.Spec

/-- The specification of the file sink with the kinds of its texts. -/
structure HdSink where
  fmt : DetailsFn
  hdr : Str
  fresh : Bool
  count : Nat
  held : List Str
  closed : List (Str × List Part)
  path : Str
  cur : List Part

/-- Forgetting the kinds. -/
def partChunk : Part → Chunk
  | .header t h => .extra (hdrText t h)
  | .entry t => .entry t
  | .note t => .extra t

def HdSink.forget (a : HdSink) : ASink :=
  { fmt := a.fmt, hdr := a.hdr, fresh := a.fresh, count := a.count, held := a.held, closed := a.closed.map fun x => (x.1, x.2.map partChunk), path := a.path, cur := a.cur.map partChunk }

def hdStep (E : Env) (N : Nat) (p : Str) (a : HdSink) : SinkOp → HdSink
  | .write m t =>
    let cur := if a.fresh then a.cur ++ [.header t a.hdr] else a.cur
    let held := a.held ++ [(toString E m a.fmt).1]
    if N ∣ a.count + 1 then
      { a with fresh := false, count := a.count + 1, held := [], cur := cur ++ held.map .entry }
    else { a with fresh := false, count := a.count + 1, held := held, cur := cur }
  | .change d i now nt ht true =>
    let new := targetName p d i nt
    { a with
      closed := a.closed ++ [(a.path, a.cur ++ [.header ht a.hdr, .note (now ++ "\n\tChanging log file from : ".toList ++
        a.path ++ "\n\tto new location: ".toList ++ new ++ "\n".toList)])]
      path := new
      cur := [.note (now ++ "\n\tNew log file. The previous log file was at: ".toList ++ a.path ++ "\n".toList)] }
  | .change d i now nt _ false =>
    { a with cur := a.cur ++ [.note ("\n".toList ++ now ++
      " Unable to change log file. Illegal filename or busy? Unsuccessful log name was: ".toList ++ targetName p d i nt)] }
  | .overrideDetails f => { a with fmt := f }
  | .overrideHeader h => { a with hdr := h }
  | .fileName => a
  | .spill _ => a

def hdRun (E : Env) (N : Nat) (p : Str) (a : HdSink) : List SinkOp → HdSink
  | [] => a
  | op :: ops => hdRun E N p (hdStep E N p a op) ops

def hdOf (a : ASink) : HdSink :=
  { fmt := a.fmt, hdr := a.hdr, fresh := a.fresh, count := a.count, held := a.held, closed := [], path := a.path, cur := [] }

def hdInit (path : Str) : HdSink := hdOf (aInit path)

def hdFinal (a : HdSink) (time : Str) : List (Str × List Part) :=
  a.closed ++ [(a.path, a.cur ++ a.held.map .entry ++ [.note ("g3log g3FileSink shutdown at: ".toList ++ time ++ "\n".toList)])]

theorem partChunk_entries (l : List Str) : (l.map Part.entry).map partChunk = l.map Chunk.entry := by rw [List.map_map]; rfl

theorem forget_step (E : Env) (N : Nat) (p : Str) (a : HdSink) (op : SinkOp) : (hdStep E N p a op).forget = aStep E N p a.forget op := by
  cases op with
  | write m t =>
    unfold hdStep aStep
    dsimp only
    by_cases h : N ∣ a.count + 1
    · rw [if_pos h, if_pos (show N ∣ a.forget.count + 1 from h)]
      unfold HdSink.forget
      cases hf : a.fresh
      · simp only [Bool.false_eq_true, if_false, List.map_append, partChunk_entries]
      · simp only [if_true, List.map_append, partChunk_entries]; rfl
    · rw [if_neg h, if_neg (show ¬ N ∣ a.forget.count + 1 from h)]
      unfold HdSink.forget
      cases hf : a.fresh
      · simp only [Bool.false_eq_true, if_false]
      · simp only [if_true, List.map_append]; rfl
  | change d i now nt ht o =>
    cases o with
    | false =>
      unfold hdStep aStep HdSink.forget
      simp only [List.map_append]; rfl
    | true =>
      unfold hdStep aStep HdSink.forget
      simp only [List.map_append, List.map_cons, List.map_nil, partChunk]
  | overrideDetails f => rfl
  | overrideHeader f => rfl
  | fileName => rfl
  | spill n => rfl

theorem forget_run (E : Env) (N : Nat) (p : Str) (ops : List SinkOp) : ∀ a, (hdRun E N p a ops).forget = aRun E N p a.forget ops := by
  induction ops with
  | nil => exact fun _ => rfl
  | cons op r ih => intro a; rw [hdRun, aRun, ih, forget_step]

theorem forget_of (a : ASink) (h1 : a.closed = []) (h2 : a.cur = []) : (hdOf a).forget = a := by
  cases a
  simp only at h1 h2
  subst h1 h2
  rfl

theorem aInit_blank (path : Str) : (aInit path).closed = [] ∧ (aInit path).cur = [] ∧ (aInit path).fresh = true ∧ (aInit path).held = [] := by
  unfold aInit
  exact ⟨rfl, rfl, rfl, rfl⟩

theorem forget_init (path : Str) : (hdInit path).forget = aInit path := forget_of _ (aInit_blank path).1 (aInit_blank path).2.1

theorem hdInit_hdr (path : Str) : (hdInit path).hdr = defaultHeader := by
  unfold hdInit hdOf aInit defaultHeader
  with_reducible rfl

theorem hdOf_blank (a : ASink) : (hdOf a).closed = [] ∧ (hdOf a).cur = [] ∧ (hdOf a).fresh = a.fresh ∧ (hdOf a).held = a.held := ⟨rfl, rfl, rfl, rfl⟩

theorem hdInit_closed (path : Str) : (hdInit path).closed = [] ∧ (hdInit path).cur = [] ∧ (hdInit path).fresh = true ∧ (hdInit path).held = [] := by
  unfold hdInit
  obtain ⟨h1, h2, h3, h4⟩ := hdOf_blank (aInit path)
  exact ⟨h1, h2, h3.trans (aInit_blank path).2.2.1, h4.trans (aInit_blank path).2.2.2⟩

theorem forget_final (a : HdSink) (time : Str) : (hdFinal a time).map (fun x => (x.1, x.2.map partChunk)) = aFinal a.forget time := by
  unfold hdFinal aFinal HdSink.forget
  simp only [List.map_append, List.map_cons, List.map_nil, partChunk_entries]
  rfl

theorem partsText_chunk (ps : List Part) : partsText ps = chunkText (ps.map partChunk) := by
  induction ps with
  | nil => rfl
  | cons x r ih =>
    rw [partsText, List.flatMap_cons, List.map_cons]
    show _ ++ partsText r = _
    rw [ih]
    cases x <;> rfl

theorem partEntries_chunk (ps : List Part) : partEntries ps = entries (ps.map partChunk) := by
  induction ps with
  | nil => rfl
  | cons x r ih =>
    cases x with
    | entry t => show t :: partEntries r = t :: entries _; rw [ih]
    | header t h => exact ih
    | note t => exact ih

theorem partHeaders_append (a b : List Part) : partHeaders (a ++ b) = partHeaders a ++ partHeaders b := by simp [partHeaders]

theorem partHeaders_entries (l : List Str) : partHeaders (l.map .entry) = [] := by
  induction l with
  | nil => rfl
  | cons x r ih => exact ih

theorem hdRun_append (E : Env) (N : Nat) (p : Str) (l1 : List SinkOp) : ∀ (a : HdSink) (l2 : List SinkOp), hdRun E N p a (l1 ++ l2) = hdRun E N p (hdRun E N p a l1) l2 := by
  induction l1 with
  | nil => exact fun _ _ => rfl
  | cons op l ih => intro a l2; rw [List.cons_append, hdRun, hdRun, ih]

theorem hdStep_hdr (E : Env) (N : Nat) (p : Str) (a : HdSink) (op : SinkOp) : (hdStep E N p a op).hdr = headerAfter a.hdr [op] := by
  cases op with
  | write m t => unfold hdStep; dsimp only; split <;> rfl
  | change d i n nt ht o => cases o <;> rfl
  | overrideDetails f => rfl
  | overrideHeader f => rfl
  | fileName => rfl
  | spill n => rfl

theorem headerAfter_cons (h : Str) (op : SinkOp) (r : List SinkOp) : headerAfter h (op :: r) = headerAfter (headerAfter h [op]) r := by
  cases op <;> rfl

theorem hdRun_hdr (E : Env) (N : Nat) (p : Str) (ops : List SinkOp) : ∀ a, (hdRun E N p a ops).hdr = headerAfter a.hdr ops := by
  induction ops with
  | nil => exact fun _ => rfl
  | cons op r ih => intro a; rw [hdRun, ih, hdStep_hdr]; exact (headerAfter_cons ..).symm

theorem hdRun_fresh (E : Env) (N : Nat) (p : Str) (ops : List SinkOp) : ∀ a, (hdRun E N p a ops).fresh = true ↔ a.fresh = true ∧ ¬ anyWrite ops := by
  induction ops with
  | nil => intro a; simp [hdRun, anyWrite]
  | cons op r ih =>
    intro a
    rw [hdRun, ih]
    have hw : (∀ m t, op ≠ .write m t) → (anyWrite (op :: r) ↔ anyWrite r) := by
      intro hne
      constructor
      · rintro ⟨m, t, h⟩
        rcases List.mem_cons.1 h with h | h
        · exact absurd h.symm (hne m t)
        · exact ⟨m, t, h⟩
      · rintro ⟨m, t, h⟩
        exact ⟨m, t, List.mem_cons_of_mem _ h⟩
    cases op with
    | write m t =>
      have : (hdStep E N p a (.write m t)).fresh = false := by unfold hdStep; dsimp only; split <;> rfl
      rw [this]
      refine iff_of_false (by simp) fun h => h.2 ⟨m, t, List.mem_cons_self ..⟩
    | change d i n nt ht o =>
      rw [hw (by simp)]
      cases o <;> rfl
    | overrideDetails f => rw [hw (by simp)]; rfl
    | overrideHeader f => rw [hw (by simp)]; rfl
    | fileName => rw [hw (by simp)]; rfl
    | spill n => rw [hw (by simp)]; rfl

/-- Files that are closed stay as they are, one more with each change. -/
theorem hdRun_closed (E : Env) (N : Nat) (p : Str) (ops : List SinkOp) : ∀ a, ∃ t, (hdRun E N p a ops).closed = a.closed ++ t ∧ t.length = (targets p ops).length := by
  induction ops with
  | nil => intro a; exact ⟨[], by simp [hdRun], rfl⟩
  | cons op r ih =>
    intro a
    obtain ⟨t, h1, h2⟩ := ih (hdStep E N p a op)
    rw [hdRun]
    cases op with
    | write m tt =>
      refine ⟨t, ?_, h2⟩
      rw [h1]
      congr 1
      unfold hdStep; dsimp only; split <;> rfl
    | change d i now nt ht o =>
      cases o with
      | false => exact ⟨t, h1, h2⟩
      | true =>
        refine ⟨_ :: t, h1.trans (List.append_assoc _ _ _), ?_⟩
        rw [List.length_cons, h2]; rfl
    | overrideDetails f => exact ⟨t, h1, h2⟩
    | overrideHeader f => exact ⟨t, h1, h2⟩
    | fileName => exact ⟨t, h1, h2⟩
    | spill n => exact ⟨t, h1, h2⟩

/-- Within one file. -/
theorem hdRun_seg (E : Env) (N : Nat) (p : Str) (seg : List SinkOp) : ∀ a, (∀ o ∈ seg, ¬ isSwitch o) → (a.fresh = true → a.held = []) →
    (hdRun E N p a seg).closed = a.closed ∧ (hdRun E N p a seg).path = a.path ∧
    partHeaders (hdRun E N p a seg).cur = partHeaders a.cur ++ (if a.fresh then openingHeader a.hdr seg else []) ∧
    ∃ t, (hdRun E N p a seg).cur = a.cur ++ t ∧ (a.cur = [] → a.fresh = true → (beginsWithHeader t ↔ startsWell seg) ∧ (t = [] ↔ ¬ startsWell seg ∧ ∀ d i n nt ht, SinkOp.change d i n nt ht false ∉ seg)) := by
  induction seg with
  | nil => intro a _ _; exact ⟨rfl, rfl, by simp [hdRun, openingHeader], [], by simp [hdRun], fun _ _ => by simp [beginsWithHeader, startsWell]⟩
  | cons op r ih =>
    intro a hs hh
    have hs' : ∀ o ∈ r, ¬ isSwitch o := fun o ho => hs o (List.mem_cons_of_mem _ ho)
    rw [hdRun]
    cases op with
    | write m t =>
      have h1 : (hdStep E N p a (.write m t)).closed = a.closed ∧ (hdStep E N p a (.write m t)).path = a.path ∧ (hdStep E N p a (.write m t)).fresh = false := by
        unfold hdStep; dsimp only; split <;> exact ⟨rfl, rfl, rfl⟩
      have h2 : ∃ u : List Str, (hdStep E N p a (.write m t)).cur = a.cur ++ ((if a.fresh then [Part.header t a.hdr] else []) ++ u.map .entry) := by
        unfold hdStep
        dsimp only
        split
        · exact ⟨a.held ++ [(toString E m a.fmt).1], by cases a.fresh <;> simp⟩
        · exact ⟨[], by cases a.fresh <;> simp⟩
      obtain ⟨u, h2⟩ := h2
      obtain ⟨i1, i2, i3, v, i4, _⟩ := ih (hdStep E N p a (.write m t)) hs' (by rw [h1.2.2]; intro h; cases h)
      refine ⟨by rw [i1, h1.1], by rw [i2, h1.2.1], ?_, _, by rw [i4, h2, List.append_assoc], fun _ hf => ?_⟩
      · rw [i3, h1.2.2, h2, partHeaders_append, partHeaders_append, partHeaders_entries]
        cases a.fresh <;> simp [openingHeader, partHeaders]
      · rw [hf]; simp [beginsWithHeader, startsWell]
    | change d i n nt ht o =>
      cases o with
      | true => exact absurd trivial (hs _ (List.mem_cons_self ..))
      | false =>
        obtain ⟨i1, i2, i3, v, i4, _⟩ := ih (hdStep E N p a (.change d i n nt ht false)) hs' hh
        refine ⟨i1, i2, ?_, _, i4.trans (List.append_assoc _ _ _), fun _ _ => ⟨iff_of_false (by simp [beginsWithHeader]) (by simp [startsWell]), iff_of_false (by simp) ?_⟩⟩
        · rw [i3]
          show partHeaders (a.cur ++ [.note _]) ++ _ = _
          rw [partHeaders_append]
          simp only [partHeaders, List.filterMap_cons, List.filterMap_nil, List.append_nil]
          rfl
        · rintro ⟨_, h⟩
          exact h d i n nt ht (List.mem_cons_self ..)
    | overrideDetails f =>
      obtain ⟨i1, i2, i3, v, i4, i5⟩ := ih { a with fmt := f } hs' hh
      exact ⟨i1, i2, i3, v, i4, fun e1 e2 => by simpa [startsWell] using i5 e1 e2⟩
    | overrideHeader f =>
      obtain ⟨i1, i2, i3, v, i4, i5⟩ := ih { a with hdr := f } hs' hh
      exact ⟨i1, i2, i3, v, i4, fun e1 e2 => by simpa [startsWell] using i5 e1 e2⟩
    | fileName =>
      obtain ⟨i1, i2, i3, v, i4, i5⟩ := ih a hs' hh
      exact ⟨i1, i2, i3, v, i4, fun e1 e2 => by simpa [startsWell] using i5 e1 e2⟩
    | spill n =>
      obtain ⟨i1, i2, i3, v, i4, i5⟩ := ih a hs' hh
      exact ⟨i1, i2, i3, v, i4, fun e1 e2 => by simpa [startsWell] using i5 e1 e2⟩

/-- As long as nothing was written nothing is held back. -/
theorem hdRun_held (E : Env) (N : Nat) (p : Str) (ops : List SinkOp) : ∀ a, (a.fresh = true → a.held = []) → (hdRun E N p a ops).fresh = true → (hdRun E N p a ops).held = [] := by
  induction ops with
  | nil => exact fun _ h => h
  | cons op r ih =>
    intro a h
    rw [hdRun]
    apply ih
    cases op with
    | write m t =>
      intro hf
      have : (hdStep E N p a (.write m t)).fresh = false := by unfold hdStep; dsimp only; split <;> rfl
      rw [this] at hf; cases hf
    | change d i n nt ht o => cases o <;> exact h
    | overrideDetails f => exact h
    | overrideHeader f => exact h
    | fileName => exact h
    | spill n => exact h

theorem startsWell_append {a b : List SinkOp} (h : startsWell a) : startsWell (a ++ b) := by
  induction a with
  | nil => exact h.elim
  | cons op r ih => cases op <;> first | exact h | exact ih h

theorem startsWell_skip {a b : List SinkOp} (h : ¬ startsWell a) (hn : ∀ d i n nt ht, SinkOp.change d i n nt ht false ∉ a) : startsWell (a ++ b) ↔ startsWell b := by
  induction a with
  | nil => rfl
  | cons op r ih =>
    have hn' : ∀ d i n nt ht, SinkOp.change d i n nt ht false ∉ r := fun d i n nt ht hm => hn d i n nt ht (List.mem_cons_of_mem _ hm)
    cases op with
    | write m t => exact absurd trivial h
    | change d i n nt ht o =>
      cases o with
      | true => exact absurd rfl h
      | false => exact absurd (List.mem_cons_self ..) (hn d i n nt ht)
    | overrideDetails f => exact ih h hn'
    | overrideHeader f => exact ih h hn'
    | fileName => exact ih h hn'
    | spill n => exact ih h hn'

theorem startsWell_fail {a b : List SinkOp} (h : ¬ startsWell a) (hn : ∃ d i n nt ht, SinkOp.change d i n nt ht false ∈ a) : ¬ startsWell (a ++ b) := by
  induction a with
  | nil => obtain ⟨d, i, n, nt, ht, hm⟩ := hn; cases hm
  | cons op r ih =>
    obtain ⟨d, i, n, nt, ht, hm⟩ := hn
    cases op with
    | write m t => exact absurd trivial h
    | change d' i' n' nt' ht' o =>
      cases o with
      | true => exact absurd rfl h
      | false => exact fun hx => by cases hx
    | overrideDetails f => exact ih h ⟨d, i, n, nt, ht, by simpa using hm⟩
    | overrideHeader f => exact ih h ⟨d, i, n, nt, ht, by simpa using hm⟩
    | fileName => exact ih h ⟨d, i, n, nt, ht, by simpa using hm⟩
    | spill k => exact ih h ⟨d, i, n, nt, ht, by simpa using hm⟩

theorem beginsWithHeader_append {a b : List Part} (h : a ≠ []) : beginsWithHeader (a ++ b) ↔ beginsWithHeader a := by
  cases a with
  | nil => exact absurd rfl h
  | cons x r => cases x <;> rfl

/-- **C129** (exact). For every history of messages, changes of file (to new names, or failing), of header and of formatter: which headers each file has in the end, and whether it begins with one. The history is cut into `a`, before the file, `seg`, while
it is the current one, and `rest`. A file has a header from the first message, if this is the first message of all and not only of the file, and one from the change to the next file, at its end; it begins with a header only if it is the first file of all. -/
theorem C129_exact (E : Env) {s : FileSink} {fs : FS} {p path : Str} {N : Nat} (hN : 1 ≤ N) (h : Constructed s fs p path N) (ops : List SinkOp) (hnd : (path :: targets p ops).Nodup) (time : Str) :
    ∃ s' fs' outs, sinkRun E s fs ops = .ok (s', fs', outs) ∧
      ∃ files : List (Str × List Part), files.map Prod.fst = path :: targets p ops ∧ (∀ x ∈ files, s'.destroy fs' time x.1 = some (partsText x.2)) ∧
        partEntries (files.flatMap Prod.snd) = received E .default ops ∧
        ∀ a seg rest, ops = a ++ seg ++ rest → (a = [] ∨ ∃ b c, a = b ++ [c] ∧ isSwitch c) → (∀ o ∈ seg, ¬ isSwitch o) → (rest = [] ∨ ∃ c r, rest = c :: r ∧ isSwitch c) →
          ∃ f, files[(targets p a).length]? = some f ∧
            (¬ anyWrite a → partHeaders f.2 = openingHeader (headerAfter defaultHeader a) seg ++ closingHeader (headerAfter defaultHeader (a ++ seg)) rest) ∧
            (anyWrite a → partHeaders f.2 = closingHeader (headerAfter defaultHeader (a ++ seg)) rest) ∧
            (beginsWithHeader f.2 ↔ a = [] ∧ startsWell ops) ∧
            ∀ b d i n nt ht, a = b ++ [.change d i n nt ht true] → ∃ old r, f.2 = .note (n ++ "\n\tNew log file. The previous log file was at: ".toList ++ old ++ "\n".toList) :: r := by
  obtain ⟨s', fs', e, h1, h2, _⟩ := C40_layout E hN h ops hnd time
  have hf : (hdFinal (hdRun E N p (hdInit path) ops) time).map (fun x => (x.1, x.2.map partChunk)) = aFinal (aRun E N p (aInit path) ops) time := by
    rw [forget_final, forget_run, forget_init]
  refine ⟨s', fs', _, e, hdFinal (hdRun E N p (hdInit path) ops) time, ?_, ?_, ?_, ?_⟩
  · rw [← h2, ← hf, List.map_map]; rfl
  · intro x hx
    rw [partsText_chunk]
    exact h1 (x.1, x.2.map partChunk) (by rw [← hf]; exact List.mem_map_of_mem hx)
  · rw [partEntries_chunk]
    have hent := entries_run E N p ops (aInit path)
    have e0 : entries ((aInit path).closed.flatMap Prod.snd) ++ entries (aInit path).cur ++ (aInit path).held = [] := rfl
    rw [e0, List.nil_append] at hent
    have hflat : ((hdFinal (hdRun E N p (hdInit path) ops) time).flatMap Prod.snd).map partChunk = (aFinal (aRun E N p (aInit path) ops) time).flatMap Prod.snd := by
      rw [← hf]
      generalize hdFinal (hdRun E N p (hdInit path) ops) time = l
      induction l with
      | nil => rfl
      | cons x r ih => rw [List.flatMap_cons, List.map_append, ih, List.map_cons, List.flatMap_cons]
    rw [hflat]
    have hx : ∀ t, entries [Chunk.extra t] = [] := fun _ => rfl
    rw [aFinal, List.flatMap_append, entries_append]
    simp only [List.flatMap_cons, List.flatMap_nil, List.append_nil, entries_append, hx, entries_map]
    rw [← List.append_assoc]
    exact hent
  · intro a seg rest hops ha hseg hrest
    subst hops
    rw [hdRun_append, hdRun_append]
    obtain ⟨ta, c1, c2⟩ := hdRun_closed E N p a (hdInit path)
    have c1 : (hdRun E N p (hdInit path) a).closed = ta := by rw [c1, (hdInit_closed path).1, List.nil_append]
    have hheld := hdRun_held E N p a (hdInit path) (fun _ => (hdInit_closed path).2.2.2)
    have hfresh := hdRun_fresh E N p a (hdInit path)
    rw [(hdInit_closed path).2.2.1] at hfresh
    have hhdr : (hdRun E N p (hdInit path) a).hdr = headerAfter defaultHeader a := by rw [hdRun_hdr, hdInit_hdr]
    -- the current file when it has just become so
    have hcur : (a = [] → (hdRun E N p (hdInit path) a).cur = []) ∧ (a ≠ [] → ∃ x, (hdRun E N p (hdInit path) a).cur = [.note x]) ∧
        ∀ b d i n nt ht, a = b ++ [.change d i n nt ht true] → ∃ old, (hdRun E N p (hdInit path) a).cur = [.note (n ++ "\n\tNew log file. The previous log file was at: ".toList ++ old ++ "\n".toList)] := by
      rcases ha with rfl | ⟨b, c, rfl, hc⟩
      · exact ⟨fun _ => (hdInit_closed path).2.1, fun h => absurd rfl h, fun b d i n nt ht h => by simp at h⟩
      · refine ⟨fun h => by simp at h, fun _ => ?_, fun b d i n nt ht h => by rw [h, hdRun_append]; exact ⟨_, rfl⟩⟩
        rw [hdRun_append]
        cases c with
        | change d i n nt ht o =>
          cases o with
          | true => exact ⟨_, rfl⟩
          | false => exact hc.elim
        | write m t => exact hc.elim
        | overrideDetails f => exact hc.elim
        | overrideHeader f => exact hc.elim
        | fileName => exact hc.elim
        | spill n => exact hc.elim
    have hph : partHeaders (hdRun E N p (hdInit path) a).cur = [] := by
      by_cases h0 : a = []
      · rw [hcur.1 h0]; rfl
      · obtain ⟨x, hx⟩ := hcur.2.1 h0; rw [hx]; rfl
    generalize hA : hdRun E N p (hdInit path) a = A at *
    obtain ⟨g1, g2, g3, v, g4, g5⟩ := hdRun_seg E N p seg A hseg hheld
    have hBh : (hdRun E N p A seg).hdr = headerAfter defaultHeader (a ++ seg) := by
      rw [← hA, ← hdRun_append, hdRun_hdr, hdInit_hdr]
    generalize hB : hdRun E N p A seg = B at *
    -- the file in the end
    have hfile : ∃ tail, (hdFinal (hdRun E N p B rest) time)[(targets p a).length]? = some (B.path, B.cur ++ tail) ∧ partHeaders tail = closingHeader (headerAfter defaultHeader (a ++ seg)) rest ∧
        (beginsWithHeader tail ↔ rest ≠ []) := by
      rcases hrest with rfl | ⟨c, r, rfl, hc⟩
      · refine ⟨B.held.map .entry ++ [.note ("g3log g3FileSink shutdown at: ".toList ++ time ++ "\n".toList)], ?_, ?_, ?_⟩
        · rw [show hdRun E N p B [] = B from rfl, hdFinal, g1, c1, ← c2, List.getElem?_append_right (Nat.le_refl _), Nat.sub_self, List.append_assoc]
          rfl
        · rw [partHeaders_append, partHeaders_entries]; rfl
        · refine iff_of_false ?_ (by simp)
          cases B.held <;> exact id
      · cases c with
        | change d i n nt ht o =>
          cases o with
          | false => exact hc.elim
          | true =>
            obtain ⟨t, k1, _⟩ := hdRun_closed E N p r (hdStep E N p B (.change d i n nt ht true))
            refine ⟨[.header ht B.hdr, .note (n ++ "\n\tChanging log file from : ".toList ++ B.path ++ "\n\tto new location: ".toList ++ targetName p d i nt ++ "\n".toList)], ?_, ?_, ?_⟩
            · show ((hdRun E N p (hdStep E N p B (.change d i n nt ht true)) r).closed ++ [_])[_]? = _
              rw [k1]
              show (((B.closed ++ [_]) ++ t) ++ [_])[_]? = _
              rw [List.append_assoc, List.append_assoc, g1, c1, ← c2, List.getElem?_append_right (Nat.le_refl _)]
              simp
            · rw [← hBh]; rfl
            · exact iff_of_true trivial (by simp)
        | write m t => exact hc.elim
        | overrideDetails f => exact hc.elim
        | overrideHeader f => exact hc.elim
        | fileName => exact hc.elim
        | spill n => exact hc.elim
    obtain ⟨tail, f1, f2, f3⟩ := hfile
    refine ⟨_, f1, ?_, ?_, ?_, fun b d i n nt ht hb => ?_⟩
    · intro hw
      rw [partHeaders_append, g3, hph, if_pos (hfresh.2 ⟨rfl, hw⟩), hhdr, f2, List.nil_append]
    · intro hw
      have : ¬ A.fresh = true := fun hx => (hfresh.1 hx).2 hw
      rw [partHeaders_append, g3, hph, if_neg this, f2]; rfl
    · by_cases h0 : a = []
      · subst h0
        have hAf : A.fresh = true := hfresh.2 ⟨rfl, by rintro ⟨m, t, hm⟩; cases hm⟩
        have hAc := hcur.1 rfl
        obtain ⟨k1, k2⟩ := g5 hAc hAf
        rw [hAc, List.nil_append] at g4
        rw [List.nil_append, g4]
        simp only [true_and]
        by_cases hv : v = []
        · obtain ⟨n1, n2⟩ := k2.1 hv
          rw [hv, List.nil_append, f3, startsWell_skip n1 n2]
          rcases hrest with rfl | ⟨c, r, rfl, hc⟩
          · simp [startsWell]
          · refine iff_of_true (by simp) ?_
            cases c with
            | change d i n nt ht o =>
              cases o with
              | false => exact hc.elim
              | true => exact rfl
            | write m t => exact hc.elim
            | overrideDetails f => exact hc.elim
            | overrideHeader f => exact hc.elim
            | fileName => exact hc.elim
            | spill n => exact hc.elim
        · rw [beginsWithHeader_append hv, k1]
          constructor
          · exact startsWell_append
          · intro hs
            by_contra hns
            have : ¬ ∀ d i n nt ht, SinkOp.change d i n nt ht false ∉ seg := fun hall => hv (k2.2 ⟨hns, hall⟩)
            push Not at this
            exact startsWell_fail hns this hs
      · obtain ⟨x, hx⟩ := hcur.2.1 h0
        rw [g4, hx]
        exact iff_of_false id fun hh => h0 hh.1
    · obtain ⟨old, hold⟩ := hcur.2.2 b d i n nt ht hb
      exact ⟨old, v ++ tail, by rw [g4, hold]; rfl⟩

/-- **C129** (the part that holds). As long as nobody asks for another file, the log file begins with its header, has only this one, and its text is that of the last `overrideLogHeader` before the first message, whatever came later.

Missing: the files after a change, which do not begin with a header (`C129_later`), the file that is left, which gets a second one, and a change that fails before the first message. -/
theorem C129_statement_partial (E : Env) {s : FileSink} {fs : FS} {p path : Str} {N : Nat} (hN : 1 ≤ N) (h : Constructed s fs p path N) (a b : List SinkOp) (m : LogMessage) (t : Str)
    (hc : NoChange (a ++ .write m t :: b)) (ha : ¬ anyWrite a) (time : Str) :
    ∃ s' fs' outs, sinkRun E s fs (a ++ .write m t :: b) = .ok (s', fs', outs) ∧
      ∃ r, s'.destroy fs' time path = some (partsText (.header t (headerAfter defaultHeader a) :: r)) ∧ partHeaders r = [] ∧ partEntries r = received E .default (a ++ .write m t :: b) := by
  have hT : targets p (a ++ .write m t :: b) = [] := by
    generalize a ++ SinkOp.write m t :: b = ops at hc
    induction ops with
    | nil => rfl
    | cons op r ih =>
      cases op with
      | change d i n nt ht o => exact absurd (List.mem_cons_self ..) (hc d i n nt ht o)
      | _ => exact ih hc.tail
  obtain ⟨s', fs', outs, e, files, h1, h2, h3, h4⟩ := C129_exact E hN h (a ++ .write m t :: b) (by rw [hT]; simp) time
  obtain ⟨f, f1, f2, f3, f4, f5⟩ := h4 [] (a ++ .write m t :: b) [] (by simp) (.inl rfl) (by
    intro o ho
    cases o with
    | change d i n nt ht o => exact absurd ho (hc d i n nt ht o)
    | _ => exact id) (.inl rfl)
  rw [hT] at h1
  have hf : files = [f] := by
    match files, h1, f1 with
    | [x], _, f1 => rw [show x = f from Option.some.inj f1]
  subst hf
  have hname : f.1 = path := by simpa using h1
  have hopen : ∀ (l : List SinkOp) (g : Str), ¬ anyWrite l → openingHeader g (l ++ .write m t :: b) = [(t, headerAfter g l)] := by
    intro l
    induction l with
    | nil => exact fun _ _ => rfl
    | cons op r ih =>
      intro g hw
      have hw' : ¬ anyWrite r := fun ⟨m', t', hm⟩ => hw ⟨m', t', List.mem_cons_of_mem _ hm⟩
      cases op with
      | write m' t' => exact absurd ⟨m', t', List.mem_cons_self ..⟩ hw
      | change d i n nt ht o => exact ih g hw'
      | overrideDetails f => exact ih g hw'
      | overrideHeader k => exact ih k hw'
      | fileName => exact ih g hw'
      | spill n => exact ih g hw'
  have hwell : startsWell (a ++ .write m t :: b) := by
    have hca : NoChange a := fun d i n nt ht o hm => hc d i n nt ht o (List.mem_append_left _ hm)
    clear hopen h1 h2 h3 h4 f1 f2 f3 f4 f5 e hT hc hname
    induction a with
    | nil => trivial
    | cons op r ih =>
      have hw' : ¬ anyWrite r := fun ⟨m', t', hm⟩ => ha ⟨m', t', List.mem_cons_of_mem _ hm⟩
      cases op with
      | write m' t' => trivial
      | change d i n nt ht o => exact absurd (List.mem_cons_self ..) (hca d i n nt ht o)
      | overrideDetails f => exact ih hw' hca.tail
      | overrideHeader k => exact ih hw' hca.tail
      | fileName => exact ih hw' hca.tail
      | spill n => exact ih hw' hca.tail
  have hb := f4.2 ⟨rfl, hwell⟩
  have hh := f2 (by rintro ⟨m', t', hm⟩; cases hm)
  rw [hopen _ _ ha] at hh
  have hd := h2 f (List.mem_singleton.2 rfl)
  rw [hname] at hd
  have h3 : partEntries f.2 = received E .default (a ++ .write m t :: b) := by simpa using h3
  refine ⟨s', fs', outs, e, ?_⟩
  obtain ⟨n, ps⟩ := f
  dsimp only at hb hh hd h3
  match ps, hb with
  | .header t' h' :: r, _ =>
    have hh' : (t', h') :: partHeaders r = [(t, headerAfter defaultHeader a)] := hh
    simp only [List.cons.injEq, Prod.mk.injEq] at hh'
    obtain ⟨⟨rfl, rfl⟩, hr⟩ := hh'
    exact ⟨r, hd, hr, h3⟩

/-- **C129** (files after a change). A file to which the log was changed does not begin with a header; and once anything has been logged before the change, there is no header in it at all as long as it is the current one. -/
theorem C129_later (E : Env) {s : FileSink} {fs : FS} {p path : Str} {N : Nat} (hN : 1 ≤ N) (h : Constructed s fs p path N) (a seg : List SinkOp) (d i n nt ht : Str)
    (hseg : ∀ o ∈ seg, ¬ isSwitch o) (hnd : (path :: targets p (a ++ [.change d i n nt ht true] ++ seg)).Nodup) (time : Str) :
    ∃ s' fs' outs, sinkRun E s fs (a ++ [.change d i n nt ht true] ++ seg) = .ok (s', fs', outs) ∧
      ∃ ps, s'.destroy fs' time (targetName p d i nt) = some (partsText ps) ∧ ¬ beginsWithHeader ps ∧ (anyWrite a → partHeaders ps = []) ∧
        ∃ old r, ps = .note (n ++ "\n\tNew log file. The previous log file was at: ".toList ++ old ++ "\n".toList) :: r := by
  obtain ⟨s', fs', outs, e, files, h1, h2, _, h4⟩ := C129_exact E hN h (a ++ [.change d i n nt ht true] ++ seg) hnd time
  obtain ⟨f, f1, _, f3, f4, f5⟩ := h4 (a ++ [.change d i n nt ht true]) seg [] (by simp) (.inr ⟨a, .change d i n nt ht true, rfl, trivial⟩) hseg (.inl rfl)
  refine ⟨s', fs', outs, e, f.2, ?_, fun hb => by simpa using (f4.1 hb).1, fun hw => ?_, f5 a d i n nt ht rfl⟩
  · have hm := List.mem_of_getElem? f1
    have := h2 f hm
    have hn : f.1 = targetName p d i nt := by
      have h5 := congrArg (fun l => l[(targets p (a ++ [.change d i n nt ht true])).length]?) h1
      simp only [List.getElem?_map, f1, Option.map_some] at h5
      have e1 : targets p (a ++ [.change d i n nt ht true]) = targets p a ++ [targetName p d i nt] := by rw [targets_append]; rfl
      rw [targets_append, e1, List.length_append, List.length_singleton, List.getElem?_cons_succ,
        List.getElem?_append_left (by simp), List.getElem?_append_right (Nat.le_refl _)] at h5
      simpa using h5
    rw [← hn]; exact this
  · obtain ⟨m, t, hm⟩ := hw
    rw [f3 ⟨m, t, List.mem_append_left _ hm⟩]
    rfl

/-- The second of two files with one message each. -/
theorem second_file (E : Env) (m : LogMessage) (p path d i n nt t ht time : Str) :
    (targetName p d i nt, [Chunk.extra (n ++ "\n\tNew log file. The previous log file was at: ".toList ++ path ++ "\n".toList), .entry (toString E m .default).1,
      .extra ("g3log g3FileSink shutdown at: ".toList ++ time ++ "\n".toList)]) ∈ aFinal (aRun E 1 p (aInit path) [.write m t, .change d i n nt ht true, .write m t]) time := by
  have h1 : ∀ a : ASink, a.fresh = false → a.held = [] → aStep E 1 p a (.write m t) = { a with count := a.count + 1, held := [], cur := a.cur ++ [.entry (toString E m a.fmt).1] } := by
    intro a hf hh
    unfold aStep
    dsimp only
    rw [if_pos (Nat.one_dvd _), hf, hh]
    simp only [Bool.false_eq_true, if_false, List.nil_append, List.map_cons, List.map_nil]
  obtain ⟨w1, w2, w3, w4, _⟩ := aStep_write E 1 p (aInit path) m t
  have w5 : (aStep E 1 p (aInit path) (.write m t)).held = [] := by
    unfold aStep
    dsimp only
    rw [if_pos (Nat.one_dvd _)]
  have w6 : (aInit path).path = path := by unfold aInit; rfl
  have w7 : (aInit path).fmt = .default := by unfold aInit; rfl
  show _ ∈ aFinal (aStep E 1 p (aStep E 1 p (aStep E 1 p (aInit path) (.write m t)) (.change d i n nt ht true)) (.write m t)) time
  rw [w6] at w4
  rw [w7] at w2
  generalize aStep E 1 p (aInit path) (.write m t) = b at *
  rw [h1 (aStep E 1 p b (.change d i n nt ht true)) w1 w5, aFinal]
  refine List.mem_append_right _ ?_
  show _ ∈ [(targetName p d i nt, [Chunk.extra (n ++ _ ++ b.path ++ _), .entry (toString E m b.fmt).1] ++ List.map Chunk.entry [] ++ _)]
  rw [w2, w4]
  exact List.mem_singleton.2 rfl

/-- **C129** (negation). Not every log file with entries begins with a header: a message, a change of the file, a message. -/
theorem C129_negation (E : Env) (m : LogMessage) : ∃ (s : FileSink) (fs : FS) (p path new : Str) (ops : List SinkOp) (s' : FileSink) (fs' : FS) (outs : List Str) (ps : List Part),
    Constructed s fs p path 1 ∧ (path :: targets p ops).Nodup ∧ sinkRun E s fs ops = .ok (s', fs', outs) ∧ new ∈ path :: targets p ops ∧ s'.destroy fs' [] new = some (partsText ps) ∧
      partEntries ps = [(toString E m .default).1] ∧ ¬ "\t\tg3log created log at: ".toList <+: partsText ps := by
  obtain ⟨s, fs, h⟩ := sample_constructed1
  have hne : "d/p.x.t.log".toList ≠ targetName "p".toList "e/".toList [] "t".toList := by decide
  have hnd : ("d/p.x.t.log".toList :: targets "p".toList [.write m [], .change "e/".toList [] [] "t".toList [] true, .write m []]).Nodup := by simpa [targets] using hne
  obtain ⟨s', fs', e, h1, _, _⟩ := C40_layout E (le_refl 1) h [.write m [], .change "e/".toList [] [] "t".toList [] true, .write m []] hnd []
  have hm := second_file E m "p".toList "d/p.x.t.log".toList "e/".toList [] [] "t".toList [] [] []
  refine ⟨s, fs, _, _, targetName "p".toList "e/".toList [] "t".toList, _, s', fs', _,
    [.note ([] ++ "\n\tNew log file. The previous log file was at: ".toList ++ "d/p.x.t.log".toList ++ "\n".toList), .entry (toString E m .default).1,
      .note ("g3log g3FileSink shutdown at: ".toList ++ [] ++ "\n".toList)], h, hnd, e, by simp [targets], ?_, rfl, ?_⟩
  · rw [h1 _ hm, partsText_chunk]
    rfl
  · intro hp
    obtain ⟨r, hr⟩ := hp
    have hx := congrArg (fun l => l.take 1) hr
    have e1 : ("\t\tg3log created log at: ".toList ++ r).take 1 = ['\t'] := rfl
    rw [e1, partsText, List.flatMap_cons] at hx
    have e2 : ∀ l : Str, (("\n\tNew log file. The previous log file was at: ".toList ++ "d/p.x.t.log".toList ++ "\n".toList) ++ l).take 1 = ['\n'] := fun _ => rfl
    exact absurd (hx.trans (e2 _)) (by decide)

/-! Examples. -/

-- the conditions: a message with a header of the program's own, then a change, then another message
example (m : LogMessage) : let a : List SinkOp := [.overrideHeader "mine".toList, .write m "t0".toList, .change "e/".toList [] [] "t".toList "t1".toList true]
    let seg : List SinkOp := [.overrideHeader "other".toList, .write m "t2".toList]
    anyWrite a ∧ (∃ b c, a = b ++ [c] ∧ isSwitch c) ∧ (∀ o ∈ seg, ¬ isSwitch o) ∧ startsWell (a ++ seg) ∧ headerAfter [] a = "mine".toList ∧ openingHeader [] (a ++ seg) = [("t0".toList, "mine".toList)] ∧
      closingHeader "mine".toList [.change [] [] [] [] "t1".toList true] = [("t1".toList, "mine".toList)] := by
  refine ⟨⟨m, "t0".toList, by simp⟩, ⟨[_, _], _, rfl, trivial⟩, ?_, trivial, rfl, rfl, rfl⟩
  intro o ho
  simp only [List.mem_cons, List.not_mem_nil, or_false] at ho
  rcases ho with rfl | rfl <;> exact id

-- a change that fails before the first message comes before the header
example (m : LogMessage) : ¬ startsWell [.fileName, .change [] [] [] [] [] false, .write m []] := fun h => by cases h

-- the kinds of texts
example : partHeaders [.note ['a'], .header ['t'] ['h'], .entry ['b']] = [(['t'], ['h'])] ∧ partEntries [.note ['a'], .header ['t'] ['h'], .entry ['b']] = [['b']] ∧
    ¬ beginsWithHeader [.note ['a'], .header ['t'] ['h']] ∧ beginsWithHeader [.header ['t'] ['h'], .entry ['b']] := ⟨rfl, rfl, id, trivial⟩

end G3.Props
