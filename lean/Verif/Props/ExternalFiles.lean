import Verif.Spec.ExternalFiles
import Verif.Props.FileSink
/-
C123: files of a sink that other programs rename, remove or change.
-/
namespace G3.Props
open G3 G3.Spec

/-- **C123** (trace). The list of operations on the stream is right: carried out on the files of Model/FileSink it yields what Model/FileSink yields. -/
theorem C123_trace (E : Env) (s s' : FileSink) (fs fs' : FS) (o : SinkOp) (r : Str) (h : sinkStep E s fs o = .ok (s', fs', r)) :
    (traceOf E s o).foldl pathStep (s.out, none, fs) = (s'.out, none, fs') := by
  cases o with
  | write m ht =>
    simp only [sinkStep, FileSink.fileWrite] at h
    unfold traceOf
    cases hf : s.firstEntry
    · simp only [hf, Bool.false_eq_true, if_false, List.nil_append] at h ⊢
      by_cases h0 : s.every = 0
      · rw [if_pos h0] at h; cases h
      · rw [if_neg h0] at h
        by_cases h1 : (s.counter + 1) % s.every = 0
        · rw [if_pos h1] at h; cases h; rw [if_pos h1]; rfl
        · rw [if_neg h1] at h; cases h; rw [if_neg h1]; rfl
    · simp only [hf, if_true, FileSink.addLogFileHeader] at h ⊢
      by_cases h0 : s.every = 0
      · rw [if_pos h0] at h; cases h
      · rw [if_neg h0] at h
        by_cases h1 : (s.counter + 1) % s.every = 0
        · rw [if_pos h1] at h; cases h; rw [if_pos h1]; rfl
        · rw [if_neg h1] at h; cases h; rw [if_neg h1]; rfl
  | change d i n nt ht ok =>
    cases ok <;> (cases h; rfl)
  | overrideDetails f => cases h; rfl
  | overrideHeader f => cases h; rfl
  | fileName => cases h; rfl
  | spill n => cases h; rfl

/-- The same for the destructor. -/
theorem C123_trace_end (s : FileSink) (fs : FS) (time : Str) :
    ((traceEnd s time).foldl pathStep (s.out, none, fs)).2.2 = s.destroy fs time := rfl

theorem mixed_eq (c : Str) (k : Nat) (t : Str) : writeAt c k t = mixed c k t := by
  unfold writeAt mixed
  by_cases ht : t = []
  · rw [if_pos ht, if_pos ht]
  · rw [if_neg ht, if_neg ht, List.take_append]
    congr 3
    rw [List.take_replicate]
    congr 1
    omega

theorem writeAt_nil (c : Str) (k : Nat) : writeAt c k [] = c := by simp [writeAt]

/-- Two writes, one after the other. -/
theorem writeAt_writeAt (c : Str) (k : Nat) (t u : Str) : writeAt (writeAt c k t) (k + t.length) u = writeAt c k (t ++ u) := by
  by_cases ht : t = []
  · subst ht; simp [writeAt_nil]
  by_cases hu : u = []
  · subst hu; simp [writeAt_nil]
  have htu : t ++ u ≠ [] := by simp [ht]
  rw [mixed_eq (writeAt c k t), mixed_eq, mixed_eq]
  unfold mixed
  rw [if_neg ht, if_neg hu, if_neg htu]
  have hlen : (c.take k ++ List.replicate (k - c.length) (Char.ofNat 0) ++ t).length = k + t.length := by
    simp only [List.length_append, List.length_take, List.length_replicate]
    omega
  generalize hA : c.take k ++ List.replicate (k - c.length) (Char.ofNat 0) ++ t = A at *
  have h1 : (A ++ c.drop (k + t.length)).take (k + t.length) = A := by rw [← hlen, List.take_left]
  have h2 : k + t.length - (A ++ c.drop (k + t.length)).length = 0 := by rw [List.length_append, hlen]; omega
  have h3 : (A ++ c.drop (k + t.length)).drop (k + t.length + u.length) = c.drop (k + (t ++ u).length) := by
    rw [List.drop_append, List.drop_of_length_le (by omega), List.nil_append, List.drop_drop, List.length_append]
    congr 1
    omega
  rw [h1, h2, h3, List.replicate_zero, List.append_nil, ← List.append_assoc, hA]

theorem setData_same (f : IFiles) (i : Nat) (c : Str) : (f.setData i c).data i = c := by simp [IFiles.setData]
theorem setData_other (f : IFiles) {i j : Nat} (c : Str) (h : j ≠ i) : (f.setData i c).data j = f.data j := by simp [IFiles.setData, h]

/-! ### What others do -/

/-- **C123** (names). Renaming, removing and linking change names only, as specified. -/
theorem C123_names (f : IFiles) (e : ExtOp) (he : onlyNames e) :
    (∀ q, (extStep f e).dir q = renamed f.dir e q) ∧ (extStep f e).data = f.data ∧ (extStep f e).fresh = f.fresh := by
  cases e with
  | write a t => exact he.elim
  | append a t => exact he.elim
  | remove a => exact ⟨fun q => rfl, rfl, rfl⟩
  | rename a b =>
    simp only [extStep, renamed]
    cases ha : f.dir a with
    | none => simp
    | some i =>
      by_cases hb : f.dir b = some i
      · simp [hb]
      · have hb' : ¬ some i = f.dir b := fun h => hb h.symm
        simp [hb, hb', IFiles.setDir]
  | link a b =>
    simp only [extStep, renamed]
    cases ha : f.dir a with
    | none => cases hb : f.dir b <;> simp [hb]
    | some i => cases hb : f.dir b <;> simp [IFiles.setDir]

theorem openTrunc_other (f : IFiles) (p : Str) (j : Nat) (h : f.dir p ≠ some j) (hj : j < f.fresh) :
    (f.openTrunc p).2.data j = f.data j ∧ (f.openTrunc p).1 ≠ j := by
  unfold IFiles.openTrunc
  cases hp : f.dir p with
  | some i =>
    have : i ≠ j := fun e => h (by rw [hp, e])
    exact ⟨setData_other f [] this.symm, this⟩
  | none =>
    have : f.fresh ≠ j := by omega
    exact ⟨setData_other f [] this.symm, this⟩

theorem openTrunc_fresh (f : IFiles) (p : Str) : f.fresh ≤ (f.openTrunc p).2.fresh := by
  unfold IFiles.openTrunc
  cases f.dir p with
  | some i => exact Nat.le_refl _
  | none => exact Nat.le_succ _

theorem openTrunc_at (f : IFiles) (p : Str) :
    (f.openTrunc p).2.dir p = some (f.openTrunc p).1 ∧ (f.openTrunc p).2.data (f.openTrunc p).1 = [] ∧
    ∀ q, q ≠ p → (f.openTrunc p).2.dir q = f.dir q := by
  unfold IFiles.openTrunc
  cases hp : f.dir p with
  | some i => exact ⟨hp, setData_same f i [], fun q _ => rfl⟩
  | none => exact ⟨by simp [IFiles.setDir], setData_same f _ [], fun q hq => by simp [IFiles.setDir, IFiles.setData, hq]⟩

theorem openTrunc_kept (f : IFiles) (p : Str) (i : Nat) (h : f.dir p = some i) : f.openTrunc p = (i, f.setData i []) := by
  unfold IFiles.openTrunc; rw [h]

theorem openTrunc_sound (f : IFiles) (p : Str) (h : sound f) : sound (f.openTrunc p).2 ∧ (f.openTrunc p).1 < (f.openTrunc p).2.fresh := by
  unfold IFiles.openTrunc
  cases hp : f.dir p with
  | some i => exact ⟨h, h p i hp⟩
  | none =>
    refine ⟨?_, Nat.lt_succ_self _⟩
    intro q j hq
    show j < f.fresh + 1
    by_cases hqp : q = p
    · have : some f.fresh = some j := by simpa [IFiles.setDir, hqp] using hq
      cases this; omega
    · have : f.dir q = some j := by simpa [IFiles.setDir, IFiles.setData, hqp] using hq
      have := h q j this; omega

/-- **C123** (others). Writing to a name replaces what every name of that file shows; appending extends it; a name without a file gets a new file; all other files stay. -/
theorem C123_others (f : IFiles) (hs : sound f) (a t : Str) :
    look (extStep f (.write a t)) a = some t ∧
    look (extStep f (.append a t)) a = some ((look f a).getD [] ++ t) ∧
    (∀ q, q ≠ a → (extStep f (.write a t)).dir q = f.dir q ∧ (extStep f (.append a t)).dir q = f.dir q) ∧
    (∀ i, f.dir a = some i → (extStep f (.write a t)).dir a = some i ∧ (extStep f (.append a t)).dir a = some i) ∧
    (∀ j, f.dir a ≠ some j → j < f.fresh → (extStep f (.write a t)).data j = f.data j ∧ (extStep f (.append a t)).data j = f.data j) ∧
    sound (extStep f (.write a t)) ∧ sound (extStep f (.append a t)) := by
  have w1 : look ((f.openTrunc a).2.setData (f.openTrunc a).1 t) a = some t := by
    show ((f.openTrunc a).2.dir a).map _ = _
    rw [(openTrunc_at f a).1, Option.map_some, setData_same]
  have w3 : ∀ j, f.dir a ≠ some j → j < f.fresh → ((f.openTrunc a).2.setData (f.openTrunc a).1 t).data j = f.data j := by
    intro j h1 h2
    rw [setData_other _ _ (openTrunc_other f a j h1 h2).2.symm, (openTrunc_other f a j h1 h2).1]
  simp only [extStep]
  cases ha : f.dir a with
  | none =>
    refine ⟨w1, ?_, fun q hq => ⟨(openTrunc_at f a).2.2 q hq, (openTrunc_at f a).2.2 q hq⟩, ?_, ?_, (openTrunc_sound f a hs).1, (openTrunc_sound f a hs).1⟩
    · have : look f a = none := by simp [look, ha]
      rw [this]; exact w1
    · intro i h; cases h
    · intro j h1 h2; rw [← ha] at h1; exact ⟨w3 j h1 h2, w3 j h1 h2⟩
  | some i =>
    refine ⟨w1, ?_, fun q hq => ⟨(openTrunc_at f a).2.2 q hq, rfl⟩, ?_, ?_, (openTrunc_sound f a hs).1, hs⟩
    · have : look f a = some (f.data i) := by simp [look, ha]
      rw [this]
      show (f.dir a).map _ = _
      rw [ha, Option.map_some, setData_same]; rfl
    · intro j h; cases h
      exact ⟨by rw [openTrunc_kept f a i ha]; exact ha, ha⟩
    · intro j h1 h2
      refine ⟨w3 j (by rw [ha]; exact h1) h2, setData_other f _ ?_⟩
      intro e; exact h1 (by rw [e])

/-- What others do leaves file `i` alone unless it is a write to one of its names. -/
theorem ext_alone (f : IFiles) (i : Nat) (hi : i < f.fresh) (e : ExtOp) (h : ¬ changesFile f i e) :
    (extStep f e).data i = f.data i ∧ i < (extStep f e).fresh := by
  cases e with
  | remove a => exact ⟨rfl, hi⟩
  | rename a b => simp only [extStep]; cases f.dir a <;> simp [hi]; split <;> exact ⟨rfl, hi⟩
  | link a b => simp only [extStep]; cases f.dir a <;> cases f.dir b <;> exact ⟨rfl, hi⟩
  | write a t =>
    have h1 := openTrunc_other f a i h hi
    refine ⟨?_, Nat.lt_of_lt_of_le hi (openTrunc_fresh f a)⟩
    show ((f.openTrunc a).2.setData (f.openTrunc a).1 t).data i = _
    rw [setData_other _ _ h1.2.symm, h1.1]
  | append a t =>
    have h1 := openTrunc_other f a i h hi
    have h0 : f.dir a ≠ some i := h
    simp only [extStep]
    cases ha : f.dir a with
    | none =>
      refine ⟨?_, Nat.lt_of_lt_of_le hi (openTrunc_fresh f a)⟩
      show ((f.openTrunc a).2.setData (f.openTrunc a).1 t).data i = _
      rw [setData_other _ _ h1.2.symm, h1.1]
    | some j =>
      have : i ≠ j := fun e => h0 (by rw [ha, e])
      exact ⟨setData_other f _ this, hi⟩

/-! ### What the sink does -/

theorem spill_ino (o : IStream) (f : IFiles) (n : Nat) :
    (o.spill f n).1.ino = o.ino ∧ (o.spill f n).2.dir = f.dir ∧ (o.spill f n).2.fresh = f.fresh ∧
    (o.spill f n).2.data o.ino = writeAt (f.data o.ino) o.off (o.pend.take n) ∧
    (o.spill f n).1.off = o.off + (o.pend.take n).length ∧ o.pend.take n ++ (o.spill f n).1.pend = o.pend ∧
    ∀ j, j ≠ o.ino → (o.spill f n).2.data j = f.data j :=
  ⟨rfl, rfl, rfl, setData_same _ _ _, rfl, List.take_append_drop n o.pend, fun _ h => setData_other _ _ h⟩

/-- The stream and the files after some steps, compared with before: `t` has been written to file `x.cur.ino`, of what was in the stream or put into it. -/
structure Wrote (x y : InoState) (new t : Str) : Prop where
  ino : y.cur.ino = x.cur.ino
  next : y.next = x.next
  dir : y.files.dir = x.files.dir
  fresh : y.files.fresh = x.files.fresh
  here : y.files.data x.cur.ino = writeAt (x.files.data x.cur.ino) x.cur.off t
  off : y.cur.off = x.cur.off + t.length
  text : t ++ y.cur.pend = x.cur.pend ++ new
  there : ∀ j, j ≠ x.cur.ino → y.files.data j = x.files.data j

theorem Wrote.rfl (x : InoState) : Wrote x x [] [] :=
  ⟨_root_.rfl, _root_.rfl, _root_.rfl, _root_.rfl, (writeAt_nil _ _).symm, _root_.rfl, by simp, fun _ _ => _root_.rfl⟩

theorem Wrote.trans {x y z : InoState} {n1 n2 t1 t2 : Str} (h1 : Wrote x y n1 t1) (h2 : Wrote y z n2 t2) : Wrote x z (n1 ++ n2) (t1 ++ t2) where
  ino := h2.ino.trans h1.ino
  next := h2.next.trans h1.next
  dir := h2.dir.trans h1.dir
  fresh := h2.fresh.trans h1.fresh
  here := by
    have h := h2.here
    rw [h1.ino, h1.here, h1.off, writeAt_writeAt] at h
    exact h
  off := by rw [h2.off, h1.off, List.length_append]; omega
  text := by rw [List.append_assoc, h2.text, ← List.append_assoc, h1.text, List.append_assoc]
  there := fun j hj => (h2.there j (by rw [h1.ino]; exact hj)).trans (h1.there j hj)

theorem wrote_put (x : InoState) (t : Str) : Wrote x (inoStep x (.put t)) t [] :=
  ⟨rfl, rfl, rfl, rfl, (writeAt_nil _ _).symm, rfl, rfl, fun _ _ => rfl⟩

theorem wrote_spill (x : InoState) (n : Nat) : Wrote x (inoStep x (.spill n)) [] (x.cur.pend.take n) := by
  obtain ⟨h1, h2, h3, h4, h5, h6, h7⟩ := spill_ino x.cur x.files n
  exact ⟨h1, rfl, h2, h3, h4, h5, by rw [List.append_nil]; exact h6, h7⟩

theorem wrote_flush (x : InoState) : Wrote x (inoStep x .flush) [] x.cur.pend ∧ (inoStep x .flush).cur.pend = [] := by
  obtain ⟨h1, h2, h3, h4, h5, h6, h7⟩ := spill_ino x.cur x.files x.cur.pend.length
  rw [List.take_length] at h4 h5 h6
  exact ⟨⟨h1, rfl, h2, h3, h4, h5, by rw [List.append_nil]; exact h6, h7⟩, List.drop_length⟩

/-- The sink ignores the files and its stream: what it becomes, apart from the stream, and what it answers, do not depend on them. -/
theorem sinkStep_frame (E : Env) (s : FileSink) (fs : FS) (o : SinkOp) {s' : FileSink} {fs' : FS} {r : Str}
    (h : sinkStep E s fs o = .ok (s', fs', r)) (u : OStream) (gs : FS) :
    ∃ u' gs', sinkStep E { s with out := u } gs o = .ok ({ s' with out := u' }, gs', r) := by
  cases o with
  | write m ht =>
    simp only [sinkStep, FileSink.fileWrite, FileSink.addLogFileHeader] at h ⊢
    cases hf : s.firstEntry
    · simp only [hf, Bool.false_eq_true, if_false] at h ⊢
      by_cases h0 : s.every = 0
      · rw [if_pos h0] at h; cases h
      · rw [if_neg h0] at h ⊢
        by_cases h1 : (s.counter + 1) % s.every = 0
        · rw [if_pos h1] at h ⊢; cases h; exact ⟨_, _, rfl⟩
        · rw [if_neg h1] at h ⊢; cases h; exact ⟨_, _, rfl⟩
    · simp only [hf, if_true] at h ⊢
      by_cases h0 : s.every = 0
      · rw [if_pos h0] at h; cases h
      · rw [if_neg h0] at h ⊢
        by_cases h1 : (s.counter + 1) % s.every = 0
        · rw [if_pos h1] at h ⊢; cases h; exact ⟨_, _, rfl⟩
        · rw [if_neg h1] at h ⊢; cases h; exact ⟨_, _, rfl⟩
  | change d i n nt ht ok => cases ok <;> (cases h; exact ⟨_, _, rfl⟩)
  | overrideDetails f => cases h; exact ⟨_, _, rfl⟩
  | overrideHeader f => cases h; exact ⟨_, _, rfl⟩
  | fileName => cases h; exact ⟨_, _, rfl⟩
  | spill n => cases h; exact ⟨_, _, rfl⟩

/-- The sink holds nothing back before the header. -/
def Tidy (s : FileSink) : Prop := 1 ≤ s.every ∧ (s.firstEntry = true → s.buffer = [])

/-- The text a use adds. -/
def addedBy (E : Env) (s : FileSink) : SinkOp → Str
  | .write m ht => (if s.firstEntry then hdrText ht s.header else []) ++ (toString E m s.detailsFn).1
  | _ => []

/-- One use that does not change the file. -/
theorem use_wrote (E : Env) (x : RotState) (o : SinkOp) (ht : Tidy x.sink) (hp : staysPut (.use o)) :
    ∃ y t n, rotStep E x (.use o) = some y ∧ Tidy y.sink ∧ Wrote x.io y.io n t ∧
      t ++ (y.io.cur.pend ++ y.sink.buffer) = x.io.cur.pend ++ x.sink.buffer ++ addedBy E x.sink o ∧
      y.sink.firstEntry = (x.sink.firstEntry && match o with | .write _ _ => false | _ => true) ∧
      y.sink.detailsFn = (match o with | .overrideDetails f => f | _ => x.sink.detailsFn) ∧
      y.sink.header = (match o with | .overrideHeader f => f | _ => x.sink.header) := by
  obtain ⟨s, io⟩ := x
  obtain ⟨h0, hb⟩ := ht
  have h0' : ¬ s.every = 0 := by dsimp only at h0; omega
  cases o with
  | write m hdt =>
    cases hf : s.firstEntry
    · by_cases h1 : (s.counter + 1) % s.every = 0
      · have hs : ∃ u, rotStep E ⟨s, io⟩ (.use (.write m hdt)) = some ⟨{ s with out := u, buffer := [], counter := s.counter + 1 }, inoStep (inoStep io (.put (s.buffer ++ (toString E m s.detailsFn).1))) .flush⟩ := by
          simp only [rotStep, sinkStep, FileSink.fileWrite, traceOf, hf, Bool.false_eq_true, if_false, List.nil_append, if_neg h0', if_pos h1]
          exact ⟨_, rfl⟩
        obtain ⟨u, hs⟩ := hs
        have w1 := wrote_put io (s.buffer ++ (toString E m s.detailsFn).1)
        have w2 := wrote_flush (inoStep io (.put (s.buffer ++ (toString E m s.detailsFn).1)))
        refine ⟨_, _, _, hs, ⟨h0, fun _ => rfl⟩, w1.trans w2.1, ?_, by simp [hf], rfl, rfl⟩
        refine Eq.trans (congrArg (fun z => _ ++ (z ++ _)) w2.2) ?_
        simp [addedBy, hf, inoStep]
      · have hs : ∃ u, rotStep E ⟨s, io⟩ (.use (.write m hdt)) = some ⟨{ s with out := u, buffer := s.buffer ++ (toString E m s.detailsFn).1, counter := s.counter + 1 }, io⟩ := by
          simp only [rotStep, sinkStep, FileSink.fileWrite, traceOf, hf, Bool.false_eq_true, if_false, List.nil_append, if_neg h0', if_neg h1]
          exact ⟨_, rfl⟩
        obtain ⟨u, hs⟩ := hs
        refine ⟨_, _, _, hs, ⟨h0, fun h => by rw [show s.firstEntry = true from h] at hf; cases hf⟩, Wrote.rfl io, ?_, by simp [hf], rfl, rfl⟩
        simp [addedBy, hf]
    · have hb' : s.buffer = [] := hb hf
      by_cases h1 : (s.counter + 1) % s.every = 0
      · have hs : ∃ u, rotStep E ⟨s, io⟩ (.use (.write m hdt)) = some ⟨{ s with out := u, firstEntry := false, buffer := [], counter := s.counter + 1 }, inoStep (inoStep (inoStep io (.put (headerText hdt s.header))) (.put (s.buffer ++ (toString E m s.detailsFn).1))) .flush⟩ := by
          simp only [rotStep, sinkStep, FileSink.fileWrite, traceOf, hf, if_true, FileSink.addLogFileHeader, if_neg h0', if_pos h1]
          exact ⟨_, rfl⟩
        obtain ⟨u, hs⟩ := hs
        have w0 := wrote_put io (headerText hdt s.header)
        have w1 := wrote_put (inoStep io (.put (headerText hdt s.header))) (s.buffer ++ (toString E m s.detailsFn).1)
        have w2 := wrote_flush (inoStep (inoStep io (.put (headerText hdt s.header))) (.put (s.buffer ++ (toString E m s.detailsFn).1)))
        refine ⟨_, _, _, hs, ⟨h0, fun _ => rfl⟩, (w0.trans w1).trans w2.1, ?_, by simp, rfl, rfl⟩
        refine Eq.trans (congrArg (fun z => _ ++ (z ++ _)) w2.2) ?_
        simp [addedBy, hf, inoStep, hb', headerText_eq]
      · have hs : ∃ u, rotStep E ⟨s, io⟩ (.use (.write m hdt)) = some ⟨{ s with out := u, firstEntry := false, buffer := s.buffer ++ (toString E m s.detailsFn).1, counter := s.counter + 1 }, inoStep io (.put (headerText hdt s.header))⟩ := by
          simp only [rotStep, sinkStep, FileSink.fileWrite, traceOf, hf, if_true, FileSink.addLogFileHeader, if_neg h0', if_neg h1]
          exact ⟨_, rfl⟩
        obtain ⟨u, hs⟩ := hs
        have w0 := wrote_put io (headerText hdt s.header)
        refine ⟨_, _, _, hs, ⟨h0, fun h => by cases h⟩, w0, ?_, by simp, rfl, rfl⟩
        simp [addedBy, hf, inoStep, hb', headerText_eq]
  | change d i n nt ht ok => exact hp.elim
  | overrideDetails f => exact ⟨⟨_, io⟩, _, _, rfl, ⟨h0, hb⟩, Wrote.rfl io, by simp [addedBy], by simp, rfl, rfl⟩
  | overrideHeader f => exact ⟨⟨_, io⟩, _, _, rfl, ⟨h0, hb⟩, Wrote.rfl io, by simp [addedBy], by simp, rfl, rfl⟩
  | fileName => exact ⟨⟨_, io⟩, _, _, rfl, ⟨h0, hb⟩, Wrote.rfl io, by simp [addedBy], by simp, rfl, rfl⟩
  | spill n =>
    refine ⟨⟨_, inoStep io (.spill n)⟩, _, _, rfl, ⟨h0, hb⟩, wrote_spill io n, ?_, by simp, rfl, rfl⟩
    simp only [addedBy, List.append_nil]
    rw [← List.append_assoc, (wrote_spill io n).text, List.append_nil]

/-- A history after which `y` is reached: what has been written, and what is still to be written. -/
theorem run_wrote (E : Env) (x : RotState) (evs : List RotEv) (ht : Tidy x.sink) (hi : x.io.cur.ino < x.io.files.fresh)
    (hp : ∀ e ∈ evs, staysPut e) (hl : leftAlone E x.io.cur.ino x evs) :
    ∃ y t, rotRun E x evs = some y ∧ Tidy y.sink ∧ y.io.cur.ino = x.io.cur.ino ∧ x.io.cur.ino < y.io.files.fresh ∧
      y.io.files.data x.io.cur.ino = writeAt (x.io.files.data x.io.cur.ino) x.io.cur.off t ∧ y.io.cur.off = x.io.cur.off + t.length ∧
      ∀ ops time, t ++ outstanding E y ops (firstHeader y.sink.header ops) time =
        outstanding E x (usesOf evs ++ ops) (firstHeader x.sink.header (usesOf evs ++ ops)) time := by
  induction evs generalizing x with
  | nil => exact ⟨x, [], rfl, ht, rfl, hi, (writeAt_nil _ _).symm, rfl, fun _ _ => rfl⟩
  | cons e r ih =>
    have hp' : ∀ e ∈ r, staysPut e := fun e he => hp e (List.mem_cons_of_mem _ he)
    cases e with
    | ext e =>
      obtain ⟨h1, h2⟩ := hl
      have ha := ext_alone x.io.files x.io.cur.ino hi e h1
      obtain ⟨y, t, e1, e2, e3, e4, e5, e6, e7⟩ := ih { x with io := { x.io with files := extStep x.io.files e } } ht ha.2 hp' (h2 _ rfl)
      refine ⟨y, t, e1, e2, e3, e4, ?_, e6, e7⟩
      refine Eq.trans e5 ?_
      show writeAt ((extStep x.io.files e).data x.io.cur.ino) _ _ = _
      rw [ha.1]
    | use o =>
      obtain ⟨x', t, n, s1, s2, w, s3, s4, s5, s6⟩ := use_wrote E x o ht (hp _ (List.mem_cons_self ..))
      have hl' : leftAlone E x'.io.cur.ino x' r := by rw [w.ino]; exact hl x' s1
      obtain ⟨y, u, e1, e2, e3, e4, e5, e6, e7⟩ := ih x' s2 (by rw [w.ino, w.fresh]; exact hi) hp' hl'
      refine ⟨y, t ++ u, ?_, e2, e3.trans w.ino, by rw [w.ino] at e4; exact e4, ?_, ?_, ?_⟩
      · rw [rotRun, s1]; exact e1
      · rw [w.ino] at e5
        rw [e5, w.here, w.off, writeAt_writeAt]
      · rw [e6, w.off, List.length_append]; omega
      · intro ops time
        rw [List.append_assoc, e7 ops time]
        unfold outstanding
        rw [s4, s5, s6]
        have key : t ++ (x'.io.cur.pend ++ x'.sink.buffer) = x.io.cur.pend ++ x.sink.buffer ++ addedBy E x.sink o := s3
        generalize ("g3log g3FileSink shutdown at: ".toList ++ time ++ "\n".toList) = L
        simp only [← List.append_assoc] at key ⊢
        rw [key]
        have hb := ht.2
        cases o with
        | write m hdt =>
          cases hf : x.sink.firstEntry
          · simp [addedBy, hf, usesOf, received]
          · simp [addedBy, hf, usesOf, received, firstHeader, hb hf]
        | change d i n nt ht ok => exact (hp _ (List.mem_cons_self ..)).elim
        | overrideDetails f => simp [addedBy, usesOf, received, firstHeader]
        | overrideHeader f => simp [addedBy, usesOf, received, firstHeader]
        | fileName => simp [addedBy, usesOf, received, firstHeader]
        | spill n => simp [addedBy, usesOf, received, firstHeader]

/-- The destructor. -/
theorem end_wrote (E : Env) (x : RotState) (time : Str) :
    (rotEnd x time).data x.io.cur.ino = writeAt (x.io.files.data x.io.cur.ino) x.io.cur.off (outstanding E x [] (firstHeader x.sink.header []) time) ∧
    (rotEnd x time).dir = x.io.files.dir ∧ (rotEnd x time).fresh = x.io.files.fresh ∧
    ∀ j, j ≠ x.io.cur.ino → (rotEnd x time).data j = x.io.files.data j := by
  have w := (wrote_put x.io (x.sink.buffer ++ ("g3log g3FileSink shutdown at: ".toList ++ time ++ "\n".toList))).trans
    (wrote_flush (inoStep x.io (.put (x.sink.buffer ++ ("g3log g3FileSink shutdown at: ".toList ++ time ++ "\n".toList))))).1
  refine ⟨Eq.trans w.here ?_, w.dir, w.fresh, w.there⟩
  congr 1
  show [] ++ (x.io.cur.pend ++ _) = _
  simp only [outstanding, received, firstHeader, List.flatten_nil, List.append_nil, List.nil_append, ite_self, List.append_assoc]

/-- **C123** (exact). Whatever state the file is in - content `c`, `k` characters written through the stream so far - and whatever others do to names and to other files from now on:
as long as nobody writes to this file and the sink is not told to change, every step works, and in the end the file holds `c` with the rest of the text put at place `k`. -/
theorem C123_exact (E : Env) (x : RotState) (evs : List RotEv) (time : Str) (ht : Tidy x.sink) (hi : x.io.cur.ino < x.io.files.fresh)
    (hp : ∀ e ∈ evs, staysPut e) (hl : leftAlone E x.io.cur.ino x evs) :
    ∃ y, rotRun E x evs = some y ∧ y.io.cur.ino = x.io.cur.ino ∧
      (rotEnd y time).data x.io.cur.ino = mixed (x.io.files.data x.io.cur.ino) x.io.cur.off
        (outstanding E x (usesOf evs) (firstHeader x.sink.header (usesOf evs)) time) := by
  obtain ⟨y, t, e1, e2, e3, e4, e5, e6, e7⟩ := run_wrote E x evs ht hi hp hl
  refine ⟨y, e1, e3, ?_⟩
  have h := (end_wrote E y time).1
  rw [e3, e5, e6, writeAt_writeAt, e7 [] time, List.append_nil, mixed_eq] at h
  exact h

/-! ### What can be seen -/

/-- Two file systems that differ in the content of file `i` at most. -/
def SameBut (i : Nat) (f g : IFiles) : Prop := f.dir = g.dir ∧ f.fresh = g.fresh ∧ ∀ j, j ≠ i → f.data j = g.data j

theorem SameBut.trans {i : Nat} {f g h : IFiles} (h1 : SameBut i f g) (h2 : SameBut i g h) : SameBut i f h :=
  ⟨h1.1.trans h2.1, h1.2.1.trans h2.2.1, fun j hj => (h1.2.2 j hj).trans (h2.2.2 j hj)⟩

theorem SameBut.setData {i : Nat} {f g : IFiles} (h : SameBut i f g) (j : Nat) {c d : Str} (hcd : j ≠ i → c = d) :
    SameBut i (f.setData j c) (g.setData j d) := by
  refine ⟨h.1, h.2.1, fun k hk => ?_⟩
  by_cases hj : k = j
  · subst hj; rw [setData_same, setData_same, hcd hk]
  · rw [setData_other _ _ hj, setData_other _ _ hj, h.2.2 k hk]

theorem SameBut.openTrunc {i : Nat} {f g : IFiles} (h : SameBut i f g) (p : Str) :
    (f.openTrunc p).1 = (g.openTrunc p).1 ∧ SameBut i (f.openTrunc p).2 (g.openTrunc p).2 := by
  unfold IFiles.openTrunc
  rw [h.1]
  cases g.dir p with
  | some j => exact ⟨rfl, h.setData j fun _ => rfl⟩
  | none =>
    have h2 := h.setData f.fresh (c := []) (d := []) fun _ => rfl
    rw [← h.2.1]
    refine ⟨rfl, ?_, rfl, h2.2.2⟩
    show (fun q => if q = p then some f.fresh else f.dir q) = fun q => if q = p then some f.fresh else g.dir q
    rw [h.1]

theorem SameBut.ext {i : Nat} {f g : IFiles} (h : SameBut i f g) (e : ExtOp) : SameBut i (extStep f e) (extStep g e) := by
  have hd : ∀ p j, SameBut i (f.setDir p j) (g.setDir p j) := by
    intro p j
    refine ⟨?_, h.2.1, h.2.2⟩
    show (fun q => if q = p then j else f.dir q) = fun q => if q = p then j else g.dir q
    rw [h.1]
  cases e with
  | remove a => exact hd a none
  | rename a b =>
    simp only [extStep, ← h.1]
    cases f.dir a with
    | none => exact h
    | some j =>
      dsimp only
      split
      · exact h
      · refine ⟨?_, h.2.1, h.2.2⟩
        show (fun q => if q = a then none else if q = b then some j else f.dir q) = fun q => if q = a then none else if q = b then some j else g.dir q
        rw [h.1]
  | link a b =>
    simp only [extStep, ← h.1]
    cases f.dir a with
    | none => exact h
    | some j => cases f.dir b with
      | none => exact hd b (some j)
      | some k => exact h
  | write a t =>
    have := h.openTrunc a
    show SameBut i ((f.openTrunc a).2.setData (f.openTrunc a).1 t) ((g.openTrunc a).2.setData (g.openTrunc a).1 t)
    rw [this.1]
    exact this.2.setData _ fun _ => rfl
  | append a t =>
    have := h.openTrunc a
    simp only [extStep, ← h.1]
    cases f.dir a with
    | none => dsimp only; rw [this.1]; exact this.2.setData _ fun _ => rfl
    | some j => exact h.setData j fun hj => by rw [h.2.2 j hj]

/-- **C123** (visible). The sink, as long as it is not told to change its file, has no effect on names and no effect on any file but the one it opened: everything else is as if others had been alone. -/
theorem C123_visible (E : Env) (x y : RotState) (evs : List RotEv) (time : Str) (ht : Tidy x.sink) (hp : ∀ e ∈ evs, staysPut e)
    (h : rotRun E x evs = some y) :
    y.io.cur.ino = x.io.cur.ino ∧ SameBut x.io.cur.ino (rotEnd y time) ((othersOf evs).foldl extStep x.io.files) := by
  have aux : ∀ (evs : List RotEv) (x y : RotState) (g : IFiles), Tidy x.sink → (∀ e ∈ evs, staysPut e) → rotRun E x evs = some y →
      SameBut x.io.cur.ino x.io.files g → y.io.cur.ino = x.io.cur.ino ∧ SameBut x.io.cur.ino y.io.files ((othersOf evs).foldl extStep g) := by
    intro evs
    induction evs with
    | nil => intro x y g _ _ h hs; cases h; exact ⟨rfl, hs⟩
    | cons e r ih =>
      intro x y g ht hp h hs
      have hp' : ∀ e ∈ r, staysPut e := fun e he => hp e (List.mem_cons_of_mem _ he)
      cases e with
      | ext e => exact ih { x with io := { x.io with files := extStep x.io.files e } } y (extStep g e) ht hp' h (hs.ext e)
      | use o =>
        obtain ⟨x', t, n, s1, s2, w, -⟩ := use_wrote E x o ht (hp _ (List.mem_cons_self ..))
        rw [rotRun, s1] at h
        have hs' : SameBut x'.io.cur.ino x'.io.files g := by
          rw [w.ino]
          exact SameBut.trans ⟨w.dir, w.fresh, w.there⟩ hs
        have := ih x' y g s2 hp' h hs'
        rw [w.ino] at this
        exact this
  obtain ⟨h1, h2⟩ := aux evs x y x.io.files ht hp h ⟨rfl, rfl, fun _ _ => rfl⟩
  have he := (end_wrote E y time).2
  rw [h1] at he
  exact ⟨h1, SameBut.trans he h2⟩

/-- Files without a name do not get one again. -/
theorem nameless_stays (i : Nat) (f : IFiles) (e : ExtOp) (hi : i < f.fresh) (hn : ∀ q, f.dir q ≠ some i) :
    i < (extStep f e).fresh ∧ ∀ q, (extStep f e).dir q ≠ some i := by
  have h0 : ¬ changesFile f i e := by cases e <;> first | exact hn _ | exact fun h => h
  refine ⟨(ext_alone f i hi e h0).2, ?_⟩
  intro q
  cases e with
  | remove a => show (if q = a then none else f.dir q) ≠ _; split; exact nofun; exact hn q
  | rename a b =>
    rw [(C123_names f (.rename a b) trivial).1 q, renamed]
    split
    · exact hn q
    · split
      · exact nofun
      · split
        · exact hn a
        · exact hn q
  | link a b =>
    rw [(C123_names f (.link a b) trivial).1 q, renamed]
    split
    · exact hn a
    · exact hn q
  | write a t =>
    show (f.openTrunc a).2.dir q ≠ some i
    by_cases hq : q = a
    · subst hq
      rw [(openTrunc_at f q).1]
      exact fun e => (openTrunc_other f q i (hn q) hi).2 (Option.some.inj e)
    · rw [(openTrunc_at f a).2.2 q hq]; exact hn q
  | append a t =>
    simp only [extStep]
    cases ha : f.dir a with
    | none =>
      show (f.openTrunc a).2.dir q ≠ some i
      by_cases hq : q = a
      · subst hq
        rw [(openTrunc_at f q).1]
        exact fun e => (openTrunc_other f q i (hn q) hi).2 (Option.some.inj e)
      · rw [(openTrunc_at f a).2.2 q hq]; exact hn q
    | some j => exact hn q

/-- **C123** (removed). Once the file of the sink has no name left, nothing the sink writes can ever be read again, under any name: readers see what they would see without the sink. -/
theorem C123_removed (E : Env) (x y : RotState) (evs : List RotEv) (time : Str) (ht : Tidy x.sink) (hp : ∀ e ∈ evs, staysPut e)
    (h : rotRun E x evs = some y) (hi : x.io.cur.ino < x.io.files.fresh) (hn : ∀ q, x.io.files.dir q ≠ some x.io.cur.ino) (q : Str) :
    look (rotEnd y time) q = look ((othersOf evs).foldl extStep x.io.files) q := by
  obtain ⟨-, h2⟩ := C123_visible E x y evs time ht hp h
  have hn' : ∀ (l : List ExtOp) (f : IFiles), x.io.cur.ino < f.fresh → (∀ q, f.dir q ≠ some x.io.cur.ino) →
      ∀ q, (l.foldl extStep f).dir q ≠ some x.io.cur.ino := by
    intro l
    induction l with
    | nil => intro f _ h; exact h
    | cons e r ih => intro f h1 h2; exact ih _ (nameless_stays _ f e h1 h2).1 (nameless_stays _ f e h1 h2).2
  have h3 := hn' (othersOf evs) x.io.files hi hn q
  unfold look
  rw [h2.1]
  cases hq : ((othersOf evs).foldl extStep x.io.files).dir q with
  | none => rfl
  | some j =>
    have : j ≠ x.io.cur.ino := fun e => h3 (by rw [hq, e])
    simp only [Option.map_some]
    rw [h2.2.2 j this]

/-- **C123** (silent). None of this is noticed: what others do makes no difference to the sink, so neither to what its calls return. -/
theorem C123_silent (E : Env) (x y : RotState) (evs : List RotEv) (h : rotRun E x evs = some y) :
    ∃ z, rotRun E x ((usesOf evs).map .use) = some z ∧ z.sink = y.sink := by
  have aux : ∀ (evs : List RotEv) (x x2 y : RotState), x2.sink = x.sink → rotRun E x evs = some y →
      ∃ z, rotRun E x2 ((usesOf evs).map .use) = some z ∧ z.sink = y.sink := by
    intro evs
    induction evs with
    | nil => intro x x2 y hs h; cases h; exact ⟨x2, rfl, hs⟩
    | cons e r ih =>
      intro x x2 y hs h
      cases e with
      | ext e => exact ih { x with io := { x.io with files := extStep x.io.files e } } x2 y hs h
      | use o =>
        simp only [rotRun, rotStep] at h
        simp only [usesOf, List.map_cons, rotRun, rotStep]
        rw [hs]
        cases hk : sinkStep E x.sink (fun _ => none) o with
        | error e => rw [hk] at h; cases h
        | ok r3 =>
          rw [hk] at h
          exact ih ⟨r3.1, (traceOf E x.sink o).foldl inoStep x.io⟩ _ y rfl h
  exact aux evs x x y rfl h

/-! ### A new sink -/

theorem constructed_tidy {s : FileSink} {fs : FS} {p path : Str} {N : Nat} (hN : 1 ≤ N) (h : Constructed s fs p path N) :
    Tidy s ∧ s.firstEntry = true ∧ s.buffer = [] ∧ s.detailsFn = .default ∧ s.path = path := by
  have hI := constructed_inv h
  have hb : s.buffer = [] := hI.buf
  exact ⟨⟨by rw [hI.ev]; exact hN, fun _ => hb⟩, hI.fresh, hb, hI.fmt, hI.path⟩

theorem start_outstanding (E : Env) {s : FileSink} {fs : FS} {p path : Str} {N : Nat} (hN : 1 ≤ N) (h : Constructed s fs p path N) (f : IFiles)
    (ops : List SinkOp) (hdr time : Str) : outstanding E (rotStart s f) ops hdr time = completeLog E hdr ops time := by
  obtain ⟨-, h1, h2, h3, -⟩ := constructed_tidy hN h
  unfold outstanding completeLog
  show [] ++ s.buffer ++ (if s.firstEntry then hdr else []) ++ (received E s.detailsFn ops).flatten ++ _ = _
  rw [h1, h2, h3]
  rfl

/-- **C123** (names changed). If others rename, link and remove names, also those of the log file, and use other files, but do not write to the log file, then wherever the file is found in the end it holds
the complete log. -/
theorem C123_renamed_partial (E : Env) {s : FileSink} {fs : FS} {p path : Str} {N : Nat} (hN : 1 ≤ N) (h : Constructed s fs p path N) (f : IFiles)
    (hf : sound f) (evs : List RotEv) (time : Str) (hp : ∀ e ∈ evs, staysPut e) (hl : leftAlone E (f.openTrunc path).1 (rotStart s f) evs) :
    ∃ y, rotRun E (rotStart s f) evs = some y ∧
      (rotEnd y time).dir = ((othersOf evs).foldl extStep (f.openTrunc path).2).dir ∧
      ∀ q, (rotEnd y time).dir q = some (f.openTrunc path).1 →
        look (rotEnd y time) q = some (completeLog E (firstHeader s.header (usesOf evs)) (usesOf evs) time) := by
  obtain ⟨h1, -, -, -, hpath⟩ := constructed_tidy hN h
  subst hpath
  obtain ⟨y, e1, e2, e3⟩ := C123_exact E (rotStart s f) evs time h1 (openTrunc_sound f s.path hf).2 hp hl
  obtain ⟨-, v⟩ := C123_visible E (rotStart s f) y evs time h1 hp e1
  refine ⟨y, e1, v.1, ?_⟩
  intro q hq
  unfold look
  rw [hq, Option.map_some]
  congr 1
  refine Eq.trans e3 ?_
  rw [start_outstanding E hN h]
  show mixed ((f.openTrunc s.path).2.data (f.openTrunc s.path).1) 0 _ = _
  rw [(openTrunc_at f s.path).2.1, ← mixed_eq]
  exact writeAt_end [] _

theorem leftAlone_names (E : Env) (i : Nat) (x : RotState) (evs : List RotEv) (h : ∀ e ∈ othersOf evs, onlyNames e) : leftAlone E i x evs := by
  induction evs generalizing x with
  | nil => trivial
  | cons e r ih =>
    cases e with
    | use o => exact fun y _ => ih y h
    | ext e =>
      have he : onlyNames e := h e (List.mem_cons_self ..)
      refine ⟨?_, fun y _ => ih y fun e' he' => h e' (List.mem_cons_of_mem _ he')⟩
      cases e <;> first | exact he.elim | exact fun h => h

theorem usesOf_append (l r : List RotEv) : usesOf (l ++ r) = usesOf l ++ usesOf r := by
  induction l with
  | nil => rfl
  | cons e l ih => cases e <;> simp [usesOf, ih]

theorem othersOf_append (l r : List RotEv) : othersOf (l ++ r) = othersOf l ++ othersOf r := by
  induction l with
  | nil => rfl
  | cons e l ih => cases e <;> simp [othersOf, ih]

theorem usesOf_map (l : List SinkOp) : usesOf (l.map .use) = l := by
  induction l with
  | nil => rfl
  | cons o l ih => simp [usesOf, ih]

theorem othersOf_map (l : List SinkOp) : othersOf (l.map .use) = [] := by
  induction l with
  | nil => rfl
  | cons o l ih => simpa [othersOf] using ih

/-- **C123** (moved). The usual rotation by renaming: the log goes on under the new name, all of it, and there is no file under the old name, also after more entries. -/
theorem C123_moved (E : Env) {s : FileSink} {fs : FS} {p path : Str} {N : Nat} (hN : 1 ≤ N) (h : Constructed s fs p path N) (f : IFiles)
    (hf : sound f) (before after : List SinkOp) (hb : NoChange before) (ha : NoChange after) (new time : Str) (hnew : new ≠ path)
    (hno : (f.openTrunc path).2.dir new ≠ some (f.openTrunc path).1) :
    ∃ y, rotRun E (rotStart s f) (before.map .use ++ .ext (.rename path new) :: after.map .use) = some y ∧
      look (rotEnd y time) new = some (completeLog E (firstHeader s.header (before ++ after)) (before ++ after) time) ∧
      look (rotEnd y time) path = none := by
  have hput : ∀ l, NoChange l → ∀ e ∈ l.map RotEv.use, staysPut e := by
    intro l hl e he
    obtain ⟨o, ho, rfl⟩ := List.mem_map.mp he
    cases o with
    | change d i n nt ht ok => exact hl _ _ _ _ _ _ ho
    | _ => trivial
  have ho : othersOf (before.map RotEv.use ++ .ext (.rename path new) :: after.map .use) = [.rename path new] := by
    rw [othersOf_append, othersOf_map, othersOf, othersOf_map]; rfl
  have hu : usesOf (before.map RotEv.use ++ .ext (.rename path new) :: after.map .use) = before ++ after := by
    rw [usesOf_append, usesOf_map, usesOf, usesOf_map]
  obtain ⟨y, e1, e2, e3⟩ := C123_renamed_partial E hN h f hf (before.map .use ++ .ext (.rename path new) :: after.map .use) time
    (by
      intro e he
      rcases List.mem_append.mp he with he | he
      · exact hput _ hb e he
      · rcases List.mem_cons.mp he with rfl | he
        · trivial
        · exact hput _ ha e he)
    (leftAlone_names E _ _ _ (by rw [ho]; intro e he; rw [List.mem_singleton.mp he]; trivial))
  rw [hu] at e3
  rw [ho] at e2
  have hd : ∀ q, (rotEnd y time).dir q = renamed (f.openTrunc path).2.dir (.rename path new) q := by
    intro q; rw [e2]; exact (C123_names _ (.rename path new) trivial).1 q
  have hat := (openTrunc_at f path).1
  have hc : ¬ ((f.openTrunc path).2.dir path = none ∨ (f.openTrunc path).2.dir path = (f.openTrunc path).2.dir new) := by
    rw [hat]
    rintro (h | h)
    · cases h
    · exact hno h.symm
  refine ⟨y, e1, e3 new ?_, ?_⟩
  · rw [hd, renamed, if_neg hc, if_neg hnew, if_pos rfl, hat]
  · unfold look
    rw [hd, renamed, if_neg hc, if_pos rfl]
    rfl

/-- **C123** (changed content). Somebody writes to the log file in the midst of a history. The file held the first `k` characters of the complete log then, and afterwards `c`; in the end it holds `c` with the rest of the log
put at place `k`. -/
theorem C123_touched (E : Env) {s : FileSink} {fs : FS} {p path : Str} {N : Nat} (hN : 1 ≤ N) (h : Constructed s fs p path N) (f : IFiles)
    (hf : sound f) (before after : List RotEv) (e : ExtOp) (time : Str) (hb : ∀ e ∈ before, staysPut e) (ha : ∀ e ∈ after, staysPut e)
    (hl : leftAlone E (f.openTrunc path).1 (rotStart s f) before) :
    ∃ y, rotRun E (rotStart s f) before = some y ∧
      let y' : RotState := { y with io := { y.io with files := extStep y.io.files e } }
      (leftAlone E (f.openTrunc path).1 y' after →
        ∃ z k, rotRun E (rotStart s f) (before ++ .ext e :: after) = some z ∧
          let log := completeLog E (firstHeader s.header (usesOf before ++ usesOf after)) (usesOf before ++ usesOf after) time
          k < log.length ∧ y.io.files.data (f.openTrunc path).1 = log.take k ∧
          (rotEnd z time).data (f.openTrunc path).1 = mixed (y'.io.files.data (f.openTrunc path).1) k (log.drop k)) := by
  obtain ⟨h1, -, -, -, hpath⟩ := constructed_tidy hN h
  subst hpath
  obtain ⟨y, t, e1, e2, e3, e4, e5, e6, e7⟩ := run_wrote E (rotStart s f) before h1 (openTrunc_sound f s.path hf).2 hb hl
  refine ⟨y, e1, ?_⟩
  intro y' hl'
  have hfresh : y.io.files.fresh ≤ y'.io.files.fresh := by
    show y.io.files.fresh ≤ (extStep y.io.files e).fresh
    cases e with
    | remove a => exact Nat.le_refl _
    | rename a b => simp only [extStep]; cases y.io.files.dir a <;> simp; split <;> exact Nat.le_refl _
    | link a b => simp only [extStep]; cases y.io.files.dir a <;> cases y.io.files.dir b <;> exact Nat.le_refl _
    | write a t => exact openTrunc_fresh _ a
    | append a t =>
      simp only [extStep]
      cases y.io.files.dir a with
      | none => exact openTrunc_fresh _ a
      | some j => exact Nat.le_refl _
  have hino : y'.io.cur.ino = (f.openTrunc s.path).1 := e3
  have hi' : y'.io.cur.ino < y'.io.files.fresh := by rw [hino]; exact Nat.lt_of_lt_of_le e4 hfresh
  obtain ⟨z, z1, z2, z3⟩ := C123_exact E y' after time e2 hi' ha (by rw [hino]; exact hl')
  have hrun : ∀ (l : List RotEv) (x : RotState), rotRun E x l = some y → rotRun E x (l ++ .ext e :: after) = rotRun E y' after := by
    intro l
    induction l with
    | nil => intro x h; cases h; rfl
    | cons a l ih =>
      intro x h
      simp only [List.cons_append, rotRun] at h ⊢
      cases hs : rotStep E x a with
      | none => rw [hs] at h; cases h
      | some x2 => rw [hs] at h; exact ih x2 h
  have hout : outstanding E y' (usesOf after) (firstHeader y'.sink.header (usesOf after)) time =
      outstanding E y (usesOf after) (firstHeader y.sink.header (usesOf after)) time := rfl
  have key := e7 (usesOf after) time
  rw [start_outstanding E hN h] at key
  have key' : t ++ outstanding E y (usesOf after) (firstHeader y.sink.header (usesOf after)) time =
    completeLog E (firstHeader s.header (usesOf before ++ usesOf after)) (usesOf before ++ usesOf after) time := key
  have hne : outstanding E y (usesOf after) (firstHeader y.sink.header (usesOf after)) time ≠ [] := by
    unfold outstanding
    intro h0
    exact absurd (List.append_eq_nil_iff.mp h0).2 (by simp)
  refine ⟨z, t.length, by rw [hrun before _ e1]; exact z1, ?_⟩
  intro log
  have hlog : log = t ++ outstanding E y (usesOf after) (firstHeader y.sink.header (usesOf after)) time := key'.symm
  refine ⟨?_, ?_, ?_⟩
  · rw [hlog, List.length_append]
    have := List.length_pos_iff.mpr hne
    omega
  · rw [hlog, List.take_left]
    refine Eq.trans e5 ?_
    show writeAt ((f.openTrunc s.path).2.data (f.openTrunc s.path).1) 0 t = t
    rw [(openTrunc_at f s.path).2.1]
    exact writeAt_end [] t
  · rw [hlog, List.drop_left, ← hout]
    rw [hino] at z3
    refine Eq.trans z3 ?_
    congr 1
    show y.io.cur.off = _
    rw [e6]
    exact Nat.zero_add _

/-- Emptied (`: > file`, `copytruncate`): the later text comes after as many NULs as had been written before. -/
theorem C123_emptied (log : Str) (k : Nat) (hk : k < log.length) : mixed [] k (log.drop k) = List.replicate k (Char.ofNat 0) ++ log.drop k := by
  have : log.drop k ≠ [] := by intro h; have := congrArg List.length h; simp at this; omega
  simp [mixed, this]

/-- Extended (`>> file`): the later text goes over the foreign lines, which are gone as far as it reaches. -/
theorem C123_extended (log t : Str) (k : Nat) (hk : k < log.length) : mixed (log.take k ++ t) k (log.drop k) = log ++ t.drop (log.length - k) := by
  have h1 : log.drop k ≠ [] := by intro h; have := congrArg List.length h; simp at this; omega
  have h2 : (log.take k).length = k := by rw [List.length_take]; omega
  unfold mixed
  rw [if_neg h1]
  have h3 : (log.take k ++ t).take k = log.take k := by
    have := List.take_left (l₁ := log.take k) (l₂ := t)
    rw [h2] at this; exact this
  have h4 : k - (log.take k ++ t).length = 0 := by rw [List.length_append, h2]; omega
  have h5 : (log.take k ++ t).drop (k + (log.drop k).length) = t.drop (log.length - k) := by
    rw [List.drop_append, List.drop_of_length_le (by rw [h2]; omega), List.nil_append, h2, List.length_drop]
    congr 1
    omega
  rw [h3, h4, h5, List.replicate_zero, List.append_nil, List.take_append_drop]

/-! ### Asking for another file -/

/-- **C123** (reopened). Whatever others have done to the old file and its names, a successful change completes the old file wherever it is now and starts the new one properly: unless others write to it, it holds in the end the line about the
change, what was held back, what came after, and the last line. -/
theorem C123_reopened (E : Env) (x : RotState) (d i now nt ht : Str) (evs : List RotEv) (time : Str) (hx : Tidy x.sink) (hs : sound x.io.files)
    (hi : x.io.cur.ino < x.io.files.fresh) (hd : x.io.files.dir (targetName x.sink.prefixBackup d i nt) ≠ some x.io.cur.ino)
    (hp : ∀ e ∈ evs, staysPut e) :
    ∃ y, rotStep E x (.use (.change d i now nt ht true)) = some y ∧
      y.io.files.data x.io.cur.ino = mixed (x.io.files.data x.io.cur.ino) x.io.cur.off (x.io.cur.pend ++ hdrText ht x.sink.header ++
        (now ++ "\n\tChanging log file from : ".toList ++ x.sink.path ++ "\n\tto new location: ".toList ++ targetName x.sink.prefixBackup d i nt ++ "\n".toList)) ∧
      y.io.files.dir (targetName x.sink.prefixBackup d i nt) = some y.io.cur.ino ∧ y.io.cur.ino ≠ x.io.cur.ino ∧
      (leftAlone E y.io.cur.ino y evs → ∃ z, rotRun E y evs = some z ∧
        (rotEnd z time).data y.io.cur.ino = now ++ "\n\tNew log file. The previous log file was at: ".toList ++ x.sink.path ++ "\n".toList ++
          x.sink.buffer ++ (if x.sink.firstEntry then firstHeader x.sink.header (usesOf evs) else []) ++
          (received E x.sink.detailsFn (usesOf evs)).flatten ++ ("g3log g3FileSink shutdown at: ".toList ++ time ++ "\n".toList)) := by
  rw [← targetName_eq] at hd ⊢
  generalize hpr : d ++ createLogFileName x.sink.prefixBackup i nt = pr at hd ⊢
  obtain ⟨s, cur, nx, fl⟩ := x
  dsimp only at hd hi hs hx hpr ⊢
  obtain ⟨o1, o2⟩ := openTrunc_other fl pr cur.ino hd hi
  obtain ⟨a1, a2, a3⟩ := openTrunc_at fl pr
  have hstep : ∃ u, rotStep E ⟨s, ⟨cur, nx, fl⟩⟩ (.use (.change d i now nt ht true)) = some
      ⟨{ s with path := pr, out := u }, ⟨⟨(fl.openTrunc pr).1, 0, [] ++ (now ++ ("\n\tNew log file. The previous log file was at: ".toList ++ s.path ++ "\n".toList))⟩, none,
        (fl.openTrunc pr).2.setData cur.ino (writeAt ((fl.openTrunc pr).2.data cur.ino) cur.off
          ((cur.pend ++ headerText ht s.header ++ (now ++ ("\n\tChanging log file from : ".toList ++ s.path ++ "\n\tto new location: ".toList ++ pr ++ "\n".toList))).take
            (cur.pend ++ headerText ht s.header ++ (now ++ ("\n\tChanging log file from : ".toList ++ s.path ++ "\n\tto new location: ".toList ++ pr ++ "\n".toList))).length))⟩⟩ := by
    subst hpr
    exact ⟨_, rfl⟩
  obtain ⟨u, hstep⟩ := hstep
  rw [List.take_length] at hstep
  refine ⟨_, hstep, ?_, a1, o2, ?_⟩
  · dsimp only
    rw [setData_same, o1, mixed_eq, headerText_eq]
    simp only [List.append_assoc]
  · intro hl
    have hI : (fl.openTrunc pr).1 < (fl.openTrunc pr).2.fresh := (openTrunc_sound fl pr hs).2
    obtain ⟨z, z1, z2, z3⟩ := C123_exact E _ evs time (by exact hx) (by exact hI) hp hl
    refine ⟨z, z1, Eq.trans z3 ?_⟩
    dsimp only
    rw [setData_other _ _ o2, a2, ← mixed_eq]
    refine Eq.trans (writeAt_end [] _) ?_
    unfold outstanding
    dsimp only
    simp only [List.nil_append, List.append_assoc]

/-! ### Nobody else -/

/-- A stream by path and one by number that stand for the same. -/
def SameStream (f : IFiles) (o : OStream) (c : IStream) : Prop := f.dir o.path = some c.ino ∧ o.off = c.off ∧ o.pend = c.pend

/-- The files of Model/FileSink and those with numbers show the same, each file has one name, and the streams correspond. -/
structure SameView (a : OStream × Option OStream × FS) (x : InoState) : Prop where
  view : ∀ q, a.2.2 q = look x.files q
  one : ∀ p q i, x.files.dir p = some i → x.files.dir q = some i → p = q
  ok : sound x.files
  cur : SameStream x.files a.1 x.cur
  next : (a.2.1 = none ∧ x.next = none) ∨ ∃ o c, a.2.1 = some o ∧ x.next = some c ∧ SameStream x.files o c

theorem view_spill {a : OStream × Option OStream × FS} {x : InoState} (h : SameView a x) (n : Nat) :
    (∀ q, (a.1.spill a.2.2 n).2 q = look (x.cur.spill x.files n).2 q) ∧ SameStream x.files (a.1.spill a.2.2 n).1 (x.cur.spill x.files n).1 := by
  obtain ⟨o, nx, fs⟩ := a
  obtain ⟨c, nc, f⟩ := x
  obtain ⟨hv, h1, hs, ⟨c1, c2, c3⟩, hn⟩ := h
  dsimp only at hv h1 hs c1 c2 c3 hn ⊢
  have hp : fs o.path = some (f.data c.ino) := by rw [hv, look, c1]; rfl
  refine ⟨?_, c1, ?_, ?_⟩
  · intro q
    simp only [OStream.spill, IStream.spill, hp]
    by_cases hq : q = o.path
    · subst hq
      rw [FS.set_same]
      show _ = (f.dir o.path).map _
      rw [c1, Option.map_some, setData_same, c2, c3]
    · rw [FS.set_other _ _ hq, hv]
      show (f.dir q).map _ = (f.dir q).map _
      cases hd : f.dir q with
      | none => rfl
      | some j =>
        have : j ≠ c.ino := fun e => hq (h1 q o.path c.ino (by rw [hd, e]) c1)
        simp only [Option.map_some]
        rw [setData_other _ _ this]
  · show o.off + _ = c.off + _
    rw [c2, c3]
  · show o.pend.drop n = c.pend.drop n
    rw [c3]

theorem view_opens {fs : FS} {f : IFiles} (hv : ∀ q, fs q = look f q) (h1 : ∀ p q i, f.dir p = some i → f.dir q = some i → p = q) (hs : sound f) (p : Str) :
    (∀ q, fs.set p [] q = look (f.openTrunc p).2 q) ∧
    (∀ r q i, (f.openTrunc p).2.dir r = some i → (f.openTrunc p).2.dir q = some i → r = q) ∧ sound (f.openTrunc p).2 ∧
    ∀ q j, f.dir q = some j → (f.openTrunc p).2.dir q = some j := by
  obtain ⟨a1, a2, a3⟩ := openTrunc_at f p
  refine ⟨?_, ?_, (openTrunc_sound f p hs).1, ?_⟩
  · intro q
    by_cases hq : q = p
    · subst hq
      rw [FS.set_same, look, a1, Option.map_some, a2]
    · rw [FS.set_other _ _ hq, hv, look, look, a3 q hq]
      cases hd : f.dir q with
      | none => rfl
      | some j =>
        have : f.dir p ≠ some j := fun e => hq (h1 q p j hd e)
        simp only [Option.map_some]
        rw [(openTrunc_other f p j this (hs q j hd)).1]
  · intro q1 q2 j g1 g2
    have hnew : ∀ q, q ≠ p → (f.openTrunc p).2.dir q = some j → (f.openTrunc p).1 ≠ j := by
      intro q hq hd
      rw [a3 q hq] at hd
      exact (openTrunc_other f p j (fun e => hq (h1 q p j hd e)) (hs q j hd)).2
    by_cases e1 : q1 = p
    · by_cases e2 : q2 = p
      · rw [e1, e2]
      · subst e1
        rw [a1] at g1
        exact absurd (Option.some.inj g1) (hnew q2 e2 g2)
    · by_cases e2 : q2 = p
      · subst e2
        rw [a1] at g2
        exact absurd (Option.some.inj g2) (hnew q1 e1 g1)
      · rw [a3 q1 e1] at g1
        rw [a3 q2 e2] at g2
        exact h1 q1 q2 j g1 g2
  · intro q j hq
    by_cases hqp : q = p
    · subst hqp; rw [openTrunc_kept _ _ _ hq]; exact hq
    · rw [a3 q hqp, hq]

theorem SameView.step {a : OStream × Option OStream × FS} {x : InoState} (h : SameView a x) (op : StOp) : SameView (pathStep a op) (inoStep x op) := by
  cases op with
  | put t =>
    exact ⟨h.view, h.one, h.ok, ⟨h.cur.1, h.cur.2.1, by show a.1.pend ++ t = x.cur.pend ++ t; rw [h.cur.2.2]⟩, h.next⟩
  | spill n =>
    obtain ⟨h1, h2⟩ := view_spill h n
    exact ⟨h1, h.one, h.ok, h2, h.next⟩
  | flush =>
    obtain ⟨h1, h2⟩ := view_spill h x.cur.pend.length
    rw [← h.cur.2.2] at h1 h2
    have e : inoStep x .flush = inoStep x (.spill a.1.pend.length) := by rw [h.cur.2.2]; rfl
    rw [e]
    exact ⟨h1, h.one, h.ok, h2, h.next⟩
  | swap =>
    obtain ⟨h1, h2⟩ := view_spill h x.cur.pend.length
    have hfl : (a.1.flush a.2.2).2 = (a.1.spill a.2.2 x.cur.pend.length).2 := by rw [← h.cur.2.2]; rfl
    refine ⟨fun q => ?_, h.one, h.ok, ?_, Or.inl ⟨rfl, rfl⟩⟩
    · show (a.1.flush a.2.2).2 q = _
      rw [hfl]; exact h1 q
    · show SameStream x.files (a.2.1.getD a.1) (x.next.getD x.cur)
      rcases h.next with ⟨e1, e2⟩ | ⟨o, c, e1, e2, e3⟩
      · rw [e1, e2]; exact h.cur
      · rw [e1, e2]; exact e3
  | opens p =>
    obtain ⟨v1, v2, v3, v4⟩ := view_opens h.view h.one h.ok p
    exact ⟨v1, v2, v3, ⟨v4 _ _ h.cur.1, h.cur.2⟩, Or.inr ⟨_, _, rfl, rfl, (openTrunc_at x.files p).1, rfl, rfl⟩⟩

theorem SameView.steps {a : OStream × Option OStream × FS} {x : InoState} (h : SameView a x) (l : List StOp) :
    SameView (l.foldl pathStep a) (l.foldl inoStep x) := by
  induction l generalizing a x with
  | nil => exact h
  | cons op l ih => exact ih (h.step op)

theorem traceOf_out (E : Env) (s : FileSink) (u : OStream) (o : SinkOp) : traceOf E { s with out := u } o = traceOf E s o := by
  cases o <;> rfl

/-- **C123** (same). If nobody else does anything, files with numbers make no difference: after any history, changes of the file included, every name shows what Model/FileSink says. -/
theorem C123_same (E : Env) (s : FileSink) (fs : FS) (io : InoState) (ops : List SinkOp) (time : Str) {s' : FileSink} {fs' : FS} {outs : List Str}
    (h : sinkRun E s fs ops = .ok (s', fs', outs)) (hv : SameView (s.out, none, fs) io) :
    ∃ y, rotRun E ⟨s, io⟩ (ops.map .use) = some y ∧ ∀ q, look (rotEnd y time) q = s'.destroy fs' time q := by
  have aux : ∀ (ops : List SinkOp) (s : FileSink) (fs : FS) (io : InoState) (u : OStream) (outs : List Str),
      sinkRun E s fs ops = .ok (s', fs', outs) → SameView (s.out, none, fs) io →
      ∃ y, rotRun E ⟨{ s with out := u }, io⟩ (ops.map .use) = some y ∧ ∀ q, look (rotEnd y time) q = s'.destroy fs' time q := by
    intro ops
    induction ops with
    | nil =>
      intro s fs io u outs h hv
      simp only [sinkRun, Except.ok.injEq, Prod.mk.injEq] at h
      obtain ⟨rfl, rfl, -⟩ := h
      refine ⟨_, rfl, fun q => ?_⟩
      have := (hv.steps (traceEnd s time)).view q
      rw [C123_trace_end] at this
      exact this.symm
    | cons o ops ih =>
      intro s fs io u outs h hv
      simp only [sinkRun] at h
      cases hk : sinkStep E s fs o with
      | error e => rw [hk] at h; cases h
      | ok r =>
        obtain ⟨s1, fs1, r1⟩ := r
        rw [hk] at h
        dsimp only at h
        cases hk2 : sinkRun E s1 fs1 ops with
        | error e => rw [hk2] at h; cases h
        | ok r2 =>
          obtain ⟨s2, fs2, o2⟩ := r2
          rw [hk2] at h
          simp only [Except.ok.injEq, Prod.mk.injEq] at h
          obtain ⟨rfl, rfl, -⟩ := h
          obtain ⟨u', gs', hf⟩ := sinkStep_frame E s fs o hk u (fun _ => none)
          have hv' := hv.steps (traceOf E s o)
          rw [C123_trace E s s1 fs fs1 o r1 hk] at hv'
          obtain ⟨y, y1, y2⟩ := ih s1 fs1 _ u' o2 hk2 hv'
          refine ⟨y, ?_, y2⟩
          simp only [List.map_cons, rotRun, rotStep, hf, traceOf_out]
          exact y1
  exact aux ops s fs io s.out outs h hv

/-! ### The full statement does not hold -/

/-- An empty file system. -/
def noFiles : IFiles := ⟨fun _ => none, fun _ => [], 0⟩

theorem noFiles_sound : sound noFiles := by intro q j h; cases h

/-- **C123** (negation). It is not the case that every entry can be read somewhere in the end: after the log file has been removed, entries go to a file without a name. -/
theorem C123_negation (E : Env) (m : LogMessage) :
    ¬ ∀ (s : FileSink) (fs : FS) (p path : Str) (N : Nat) (f : IFiles) (evs : List RotEv) (time : Str) (y : RotState), 1 ≤ N → Constructed s fs p path N →
      sound f → (∀ e ∈ evs, staysPut e) → rotRun E (rotStart s f) evs = some y →
      ∀ t ∈ received E .default (usesOf evs), ∃ q c, look (rotEnd y time) q = some c ∧ t <:+: c := by
  intro H
  obtain ⟨s, fs, hc⟩ := sample_constructed1
  obtain ⟨h1, -, -, -, hpath⟩ := constructed_tidy (Nat.le_refl 1) hc
  have hp : ∀ e ∈ [RotEv.ext (.remove "d/p.x.t.log".toList), .use (.write m [])], staysPut e := by
    intro e he
    rcases List.mem_cons.mp he with rfl | he
    · trivial
    · rw [List.mem_singleton.mp he]; trivial
  have hl : leftAlone E (noFiles.openTrunc "d/p.x.t.log".toList).1 (rotStart s noFiles) [RotEv.ext (.remove "d/p.x.t.log".toList), .use (.write m [])] :=
    leftAlone_names E _ _ _ (by intro e he; rw [List.mem_singleton.mp he]; trivial)
  obtain ⟨y, e1, e2, -⟩ := C123_renamed_partial E (Nat.le_refl 1) hc noFiles noFiles_sound _ [] hp hl
  obtain ⟨q, c, h2, -⟩ := H s fs _ _ 1 noFiles _ [] y (Nat.le_refl 1) hc noFiles_sound hp e1 _ (List.mem_singleton.mpr rfl)
  have : (rotEnd y []).dir q = none := by
    rw [e2]
    show (if q = "d/p.x.t.log".toList then none else (noFiles.openTrunc "d/p.x.t.log".toList).2.dir q) = none
    split
    · rfl
    · rename_i hq; rw [(openTrunc_at noFiles _).2.2 q hq]; rfl
  unfold look at h2
  rw [this] at h2
  cases h2

/-- With a flush interval of 1 the first entry is in the file at once. -/
theorem first_write (E : Env) (x : RotState) (m : LogMessage) (hdt : Str) (hf : x.sink.firstEntry = true) (hev : x.sink.every = 1) (y : RotState)
    (h : rotStep E x (.use (.write m hdt)) = some y) : y.io.files.data x.io.cur.ino ≠ [] := by
  obtain ⟨s, io⟩ := x
  dsimp only at hf hev ⊢
  have h1 : (s.counter + 1) % s.every = 0 := by rw [hev]; exact Nat.mod_one _
  have h0 : ¬ s.every = 0 := by rw [hev]; decide
  have hs : ∃ u, rotStep E ⟨s, io⟩ (.use (.write m hdt)) = some ⟨{ s with out := u, firstEntry := false, buffer := [], counter := s.counter + 1 },
      inoStep (inoStep (inoStep io (.put (headerText hdt s.header))) (.put (s.buffer ++ (toString E m s.detailsFn).1))) .flush⟩ := by
    simp only [rotStep, sinkStep, FileSink.fileWrite, traceOf, hf, if_true, FileSink.addLogFileHeader, if_neg h0, if_pos h1]
    exact ⟨_, rfl⟩
  obtain ⟨u, hs⟩ := hs
  have hne : headerText hdt s.header ≠ [] := by
    unfold headerText
    intro h
    have := congrArg List.length h
    simp only [List.length_append] at this
    simp at this
  generalize headerText hdt s.header = H at hs hne
  generalize s.buffer ++ (toString E m s.detailsFn).1 = T at hs
  have e : y.io = inoStep (inoStep (inoStep io (.put H)) (.put T)) .flush := by
    have := Option.some.inj (h.symm.trans hs)
    rw [this]
  rw [e]
  have w := (wrote_flush (inoStep (inoStep io (.put H)) (.put T))).1.here
  intro z
  have w' := w.symm.trans z
  have hlen : ∀ (c t : Str) (k : Nat), writeAt c k t = [] → t = [] := by
    intro c t k hw
    by_contra ht
    rw [writeAt, if_neg ht] at hw
    simp [ht] at hw
  have h6 : io.cur.pend ++ H ++ T = [] := hlen _ _ _ w'
  exact hne (List.append_eq_nil_iff.mp (List.append_eq_nil_iff.mp h6).1).2

/-- **C123** (emptied, whole). A log file that is emptied after an entry begins with NUL in the end, and nothing of the first entry is left in it. -/
theorem C123_nul (E : Env) (m m2 : LogMessage) (hdt time : Str) : ∃ s fs path, Constructed s fs "p".toList path 1 ∧
    ∃ z k, rotRun E (rotStart s noFiles) [.use (.write m hdt), .ext (.write path []), .use (.write m2 hdt)] = some z ∧ 0 < k ∧
      look (rotEnd z time) path = some (List.replicate k (Char.ofNat 0) ++
        (completeLog E (firstHeader s.header [.write m hdt, .write m2 hdt]) [.write m hdt, .write m2 hdt] time).drop k) := by
  obtain ⟨s, fs, hc⟩ := sample_constructed1
  generalize hpp : "d/p.x.t.log".toList = path at hc
  obtain ⟨h1, hf, hb, -, hpath⟩ := constructed_tidy (Nat.le_refl 1) hc
  have hI := constructed_inv hc
  refine ⟨s, fs, path, hc, ?_⟩
  have hb1 : ∀ e ∈ [RotEv.use (.write m hdt)], staysPut e := by intro e he; rw [List.mem_singleton.mp he]; trivial
  have hb2 : ∀ e ∈ [RotEv.use (.write m2 hdt)], staysPut e := by intro e he; rw [List.mem_singleton.mp he]; trivial
  obtain ⟨y, e1, e2⟩ := C123_touched E (Nat.le_refl 1) hc noFiles noFiles_sound [.use (.write m hdt)] [.use (.write m2 hdt)] (.write path []) time hb1 hb2
    (leftAlone_names E _ _ _ (by intro e he; cases he))
  obtain ⟨z, k, z1, z2, z3, z4⟩ := e2 (leftAlone_names E _ _ _ (by intro e he; cases he))
  have hv := C123_visible E (rotStart s noFiles) z _ time h1 (by
    intro e he
    rcases List.mem_cons.mp he with rfl | he
    · trivial
    · rcases List.mem_cons.mp he with rfl | he
      · trivial
      · rw [List.mem_singleton.mp he]; trivial) z1
  have hy := C123_visible E (rotStart s noFiles) y _ time h1 hb1 e1
  have hz : (rotEnd z time).dir path = some (noFiles.openTrunc path).1 := by
    rw [hv.2.1]
    show (extStep (noFiles.openTrunc s.path).2 (.write path [])).dir path = _
    rw [hpath]
    exact ((C123_others (noFiles.openTrunc path).2 (openTrunc_sound noFiles path noFiles_sound).1 path []).2.2.2.1 _ (openTrunc_at noFiles path).1).1
  have hyd : y.io.files.dir path = some (noFiles.openTrunc path).1 := by
    have h3 := (end_wrote E y time).2.1
    rw [← h3, hy.2.1]
    show (noFiles.openTrunc s.path).2.dir path = _
    rw [hpath]; exact (openTrunc_at noFiles path).1
  have hempty : (extStep y.io.files (.write path [])).data (noFiles.openTrunc path).1 = [] := by
    show ((y.io.files.openTrunc path).2.setData (y.io.files.openTrunc path).1 []).data _ = []
    rw [openTrunc_kept _ _ _ hyd, setData_same]
  have hk : 0 < k := by
    rcases Nat.eq_zero_or_pos k with h0 | h0
    · exfalso
      rw [h0, List.take_zero] at z3
      have hev : s.every = 1 := hI.ev
      have hct : s.counter = 0 := hI.count
      have e1' : rotStep E (rotStart s noFiles) (.use (.write m hdt)) = some y := by
        rw [rotRun] at e1
        cases hr : rotStep E (rotStart s noFiles) (.use (.write m hdt)) with
        | none => rw [hr] at e1; cases e1
        | some x => rw [hr] at e1; exact e1
      rw [← hpath] at z3
      exact first_write E (rotStart s noFiles) m hdt hf hev y e1' z3
    · exact h0
  refine ⟨z, k, z1, hk, ?_⟩
  unfold look
  rw [hz, Option.map_some]
  congr 1
  refine Eq.trans z4 ?_
  dsimp only
  rw [hempty]
  exact C123_emptied _ k z2

/-! ### Examples -/

/-- A rotation by renaming with entries before and after, for `C123_moved` and `C123_renamed_partial`. -/
example (E : Env) (m m2 : LogMessage) : ∃ s fs path, Constructed s fs "p".toList path 1 ∧ ∃ y,
    rotRun E (rotStart s noFiles) ([SinkOp.write m []].map .use ++ .ext (.rename path "old".toList) :: [SinkOp.write m2 []].map .use) = some y ∧
    look (rotEnd y []) path = none := by
  obtain ⟨s, fs, hc⟩ := sample_constructed1
  refine ⟨s, fs, _, hc, ?_⟩
  obtain ⟨y, h1, -, h3⟩ := C123_moved E (Nat.le_refl 1) hc noFiles noFiles_sound [.write m []] [.write m2 []] (by intro d i n nt ht o; simp) (by intro d i n nt ht o; simp)
    "old".toList [] (by decide) (by rw [(openTrunc_at noFiles _).2.2 _ (by decide)]; exact nofun)
  exact ⟨y, h1, h3⟩

/-- A file that has lost its name, for `C123_removed`: nobody can read it. -/
example (E : Env) (m : LogMessage) : ∃ x : RotState, Tidy x.sink ∧ x.io.cur.ino < x.io.files.fresh ∧ (∀ q, x.io.files.dir q ≠ some x.io.cur.ino) ∧
    ∃ y, rotRun E x [.use (.write m [])] = some y ∧ look (rotEnd y []) "d/p.x.t.log".toList = none := by
  obtain ⟨s, fs, hc⟩ := sample_constructed1
  obtain ⟨h1, -, -, -, hpath⟩ := constructed_tidy (Nat.le_refl 1) hc
  have hn : ∀ q, (noFiles : IFiles).dir q ≠ some 0 := fun q => nofun
  refine ⟨⟨s, ⟨⟨0, 0, []⟩, none, { noFiles with fresh := 1 }⟩⟩, h1, Nat.zero_lt_one, hn, ?_⟩
  obtain ⟨y, t, e1, -⟩ := run_wrote E ⟨s, ⟨⟨0, 0, []⟩, none, { noFiles with fresh := 1 }⟩⟩ [.use (.write m [])] h1 Nat.zero_lt_one
    (by intro e he; rw [List.mem_singleton.mp he]; trivial) (leftAlone_names E _ _ _ (by intro e he; cases he))
  refine ⟨y, e1, ?_⟩
  rw [C123_removed E _ y _ [] h1 (by intro e he; rw [List.mem_singleton.mp he]; trivial) e1 Nat.zero_lt_one hn]
  rfl

/-- A new sink on files with numbers, for `C123_same`. -/
example : ∃ s fs path, Constructed s fs "p".toList path 1 ∧ SameView (s.out, none, FS.set (fun _ => none) path []) (rotStart s noFiles).io := by
  obtain ⟨s, fs, hc⟩ := sample_constructed1
  have hI := constructed_inv hc
  obtain ⟨c, -, h2, h3, -⟩ := hI.disk
  have h4 := List.append_eq_nil_iff.mp h3
  obtain ⟨v1, v2, v3, -⟩ := view_opens (fs := fun _ => none) (f := noFiles) (fun _ => rfl) (fun p q i h => by cases h) noFiles_sound s.path
  have hp : s.out.path = s.path := hI.opath.trans hI.path.symm
  have hp2 : s.path = "d/p.x.t.log".toList := hI.path
  refine ⟨s, fs, _, hc, ?_⟩
  rw [← hp2]
  refine ⟨v1, v2, v3, ⟨?_, by rw [h2, h4.1]; rfl, h4.2⟩, Or.inl ⟨rfl, rfl⟩⟩
  show (noFiles.openTrunc s.path).2.dir s.out.path = _
  rw [hp]
  exact (openTrunc_at noFiles s.path).1

end G3.Props
