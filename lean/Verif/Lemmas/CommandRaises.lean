/-
Lemmas about the exceptions of the build commands.
-/
import Verif.Spec.CommandRaises
import Verif.Props.Commands
import Verif.Props.BuildRaises
import Verif.Props.CsvBroken
import Verif.Props.Raises
namespace Sudachi

theorem rowsPass_iff {rows : List (List PStr)} : RowsPass rows ↔ Passes (rows.flatMap rowChecks) := passes_iff_not.symm

theorem rowsPass_append {rows rows' : List (List PStr)} : RowsPass (rows ++ rows') ↔ RowsPass rows ∧ RowsPass rows' := by
  rw [rowsPass_iff, rowsPass_iff, rowsPass_iff, List.flatMap_append, passes_append]

theorem addRows_passes (db : DictBuilder) {rows : List (List PStr)} : (∃ db', db.addRows rows = .ok db') ↔ RowsPass rows := by
  rw [rowsPass_iff]
  exact Exact.passes_iff (DictBuilder.addRows_exact db)

/-- What the CSV reader gives from an open file. -/
theorem rowsEnd_iff {M : Disk} {path : PStr} {b : Bytes} (hf : M.file path = .ok b) {rows : List (List PStr)} {ended : Res Unit} :
    csvStream (streamLines b) = (rows, ended) ↔ M.RowsEnd path rows ended := by
  unfold Disk.RowsEnd
  cases hs : streamLines b with
  | mk ls r =>
  cases r with
  | ok u =>
    have hl := (C90_at_once b ls).mp hs
    rw [csvStream]
    constructor
    · intro h; exact ⟨b, hf, .inl ⟨ls, hl, h⟩⟩
    · rintro ⟨b', h1, h2⟩
      rw [hf] at h1
      cases h1
      rcases h2 with ⟨ls', h1, h2⟩ | ⟨ls', h1, _⟩
      · rw [hl] at h1; cases h1; exact h2
      · have := ((C90_file b ls').2 .unicode).mpr ⟨rfl, h1⟩
        rw [hs] at this
        cases this
  | error x =>
    obtain ⟨rfl, hl⟩ := ((C90_file b ls).2 x).mp hs
    rw [C73_broken]
    constructor
    · intro h; exact ⟨b, hf, .inr ⟨ls, hl, h⟩⟩
    · rintro ⟨b', h1, h2⟩
      rw [hf] at h1
      cases h1
      rcases h2 with ⟨ls', h1, h2⟩ | ⟨ls', h1, h2⟩
      · rw [← C90_at_once, hs] at h1; cases h1
      · have := ((C90_file b ls').2 .unicode).mpr ⟨rfl, h1⟩
        rw [hs] at this
        cases this
        exact h2

theorem addLines_error {M : Disk} {path : PStr} {b : Bytes} (hf : M.file path = .ok b) (db : DictBuilder) {e : Err} :
    db.addLines (streamLines b) = .error e ↔
      ∃ rows ended, M.RowsEnd path rows ended ∧ (Fails (rows.flatMap rowChecks) e ∨ RowsPass rows ∧ ended = .error e) := by
  have key : db.addLines (streamLines b) = .error e ↔ Fails ((csvStream (streamLines b)).1.flatMap rowChecks) e ∨
      RowsPass (csvStream (streamLines b)).1 ∧ (csvStream (streamLines b)).2 = .error e := by
    unfold DictBuilder.addLines
    rw [← C89_rows db, ← addRows_passes db]
    cases db.addRows (csvStream (streamLines b)).1 with
    | error x =>
      constructor
      · intro h; exact .inl h
      · rintro (h | ⟨⟨_, h⟩, _⟩)
        · exact h
        · cases h
    | ok db' =>
      show ((csvStream (streamLines b)).2 >>= fun _ => pure db') = _ ↔ _
      cases (csvStream (streamLines b)).2 with
      | ok u =>
        constructor
        · intro h; cases h
        · rintro (h | ⟨_, h⟩) <;> cases h
      | error x =>
        constructor
        · intro h; cases h; exact .inr ⟨⟨db', rfl⟩, rfl⟩
        · rintro (h | ⟨_, h⟩) <;> cases h
          rfl
  rw [key]
  constructor
  · intro h; exact ⟨_, _, (rowsEnd_iff hf).mp rfl, h⟩
  · rintro ⟨rows, ended, h1, h2⟩
    rw [(rowsEnd_iff hf).mpr h1]
    exact h2

theorem hasRows_rowsEnd {M : Disk} {path : PStr} {rows : List (List PStr)} (h : M.HasRows path rows) : ∃ b, M.file path = .ok b ∧
    csvStream (streamLines b) = (rows, .ok ()) := by
  obtain ⟨ls, ⟨b, h1, h2⟩, h3⟩ := h
  refine ⟨b, h1, ?_⟩
  rw [(C90_at_once b ls).mpr h2]
  exact h3

/-- What reading the sources raises. -/
theorem addFiles_error {M : Disk} {e : Err} : ∀ {ins : List PStr} {db : DictBuilder},
    db.addFiles M ins = .error e ↔ M.SourcesFail ins e := by
  intro ins
  induction ins with
  | nil =>
    intro db
    constructor
    · intro h; cases h
    · rintro ⟨pre, p, post, _, h, _⟩; simp at h
  | cons q ins ih =>
    intro db
    rw [DictBuilder.addFiles]
    -- a source that fails at the first file, or after it
    have shape : M.SourcesFail (q :: ins) e ↔
        (M.file q = .error e ∨ ∃ rows ended, M.RowsEnd q rows ended ∧ (Fails (rows.flatMap rowChecks) e ∨ RowsPass rows ∧ ended = .error e)) ∨
        ∃ rows, M.HasRows q rows ∧ RowsPass rows ∧ M.SourcesFail ins e := by
      constructor
      · rintro ⟨pre, p, post, tables, h1, h2, h3, h4⟩
        cases h2 with
        | nil =>
          simp only [List.nil_append, List.cons.injEq] at h1
          obtain ⟨rfl, rfl⟩ := h1
          exact .inl h4
        | @cons a t pre tables k1 k2 =>
          simp only [List.cons_append, List.cons.injEq] at h1
          obtain ⟨rfl, rfl⟩ := h1
          rw [List.flatten_cons, rowsPass_append] at h3
          exact .inr ⟨t, k1, h3.1, pre, p, post, tables, rfl, k2, h3.2, h4⟩
      · rintro (h | ⟨rows, k1, k2, pre, p, post, tables, rfl, h2, h3, h4⟩)
        · exact ⟨[], q, ins, [], rfl, .nil, fun _ h => h, h⟩
        · exact ⟨q :: pre, p, post, rows :: tables, rfl, .cons k1 h2, by rw [List.flatten_cons, rowsPass_append]; exact ⟨k2, h3⟩, h4⟩
    rw [shape]
    cases hf : M.file q with
    | error x =>
      show (Except.error x : Res DictBuilder) = _ ↔ _
      constructor
      · intro h; cases h; exact .inl (.inl rfl)
      · rintro ((h | ⟨rows, ended, ⟨b, h, _⟩, _⟩) | ⟨rows, ⟨ls, ⟨b, h, _⟩, _⟩, _⟩)
        · cases h; rfl
        · rw [hf] at h; cases h
        · rw [hf] at h; cases h
    | ok b =>
      show (db.addLines (streamLines b) >>= fun db' => db'.addFiles M ins) = _ ↔ _
      cases ha : db.addLines (streamLines b) with
      | error x =>
        constructor
        · intro h
          cases h
          exact .inl (.inr ((addLines_error hf db).mp ha))
        · rintro ((h | h) | ⟨rows, h1, h2, _⟩)
          · cases h
          · rw [← addLines_error hf db, ha] at h; cases h; rfl
          · obtain ⟨b', k1, k2⟩ := hasRows_rowsEnd h1
            rw [hf] at k1
            cases k1
            obtain ⟨db', k3⟩ := (addRows_passes db).mpr h2
            unfold DictBuilder.addLines at ha
            rw [k2] at ha
            dsimp only at ha
            rw [k3] at ha
            cases ha
      | ok db' =>
        obtain ⟨ls, rows, k1, k2, k3⟩ := addLines_ok.mp ha
        show db'.addFiles M ins = _ ↔ _
        rw [ih]
        constructor
        · intro h; exact .inr ⟨rows, ⟨ls, ⟨b, hf, k1⟩, k2⟩, (addRows_passes db).mp ⟨_, k3⟩, h⟩
        · rintro ((h | h) | ⟨_, _, _, h⟩)
          · cases h
          · rw [← addLines_error hf db, ha] at h; cases h
          · exact h

theorem addFiles_passes {M : Disk} {ins : List PStr} {db db' : DictBuilder} {tables : List (List (List PStr))} (h : Each M.HasRows ins tables)
    (ha : db.addRows tables.flatten = .ok db') : db.addFiles M ins = .ok db' := addFiles_ok.mpr ⟨tables, h, ha⟩

theorem rowsRead_unique {rows : List (List PStr)} {cs cs' : List Cols} (h : RowsRead rows cs) (h' : RowsRead rows cs') : cs = cs' := by
  apply List.ext_getElem (h.1.trans h'.1.symm)
  intro w h1 h2
  exact rowIs_unique (h.2 w _ (List.getElem?_eq_getElem h1)) (h'.2 w _ (List.getElem?_eq_getElem h2))

theorem withRes_snd {α : Type} (r : Res α) (f : α → Out) : (Out.withRes r f).2 = r >>= fun a => (f a).2 := by cases r <;> rfl

theorem andThen_snd (a : Out) (b : Unit → Out) : (a.andThen b).2 = a.2 >>= fun _ => (b ()).2 := by
  obtain ⟨ops, r⟩ := a
  cases r <;> rfl

theorem buildOf_shape (D : Darts) (header : Header) (read : Res DictBuilder) (matrix : MatrixInput) :
    ∃ after : DictBuilder → Unit → Out, DictBuilder.buildOf D header read matrix = (Out.withRes header.toBytes Out.write).andThen fun _ =>
      Out.withRes read fun db' => (db'.writeGrammarOf matrix).andThen (after db') := by
  unfold DictBuilder.buildOf
  exact ⟨fun db' _ => (db'.writeTables D).andThen fun _ => db'.writeWordInfo (runOps ((Out.withRes header.toBytes Out.write).andThen fun _ =>
      (db'.writeGrammarOf matrix).andThen fun _ => db'.writeTables D).1).pos, rfl⟩

theorem buildOf_header (D : Darts) {header : Header} (read : Res DictBuilder) (matrix : MatrixInput) {x : Err}
    (hh : header.toBytes = .error x) : (DictBuilder.buildOf D header read matrix).2 = .error x := by
  obtain ⟨after, h⟩ := buildOf_shape D header read matrix
  rw [h, andThen_snd, withRes_snd, hh]
  rfl

theorem buildOf_unread (D : Darts) {header : Header} (matrix : MatrixInput) {hb : Bytes} (hh : header.toBytes = .ok hb)
    (x : Err) : (DictBuilder.buildOf D header (.error x) matrix).2 = .error x := by
  obtain ⟨after, h⟩ := buildOf_shape D header (.error x) matrix
  rw [h, andThen_snd, withRes_snd, hh]
  rfl

theorem grammarOf_error (db : DictBuilder) (h : Option PStr) (x : Err) : db.writeGrammarOf (.error (h, x)) =
    (Out.withRes (convertPosTable db.posTable) Out.write).andThen fun _ => ([], .error (unreadMatrix h x)) := rfl

theorem write_error (r : Res Bytes) (x : Err) (k : Unit → Out) :
    (((Out.withRes r Out.write).andThen fun _ => ([], .error x)).andThen k).2 = (r >>= fun _ => (.error x : Res Unit)) := by
  cases r <;> rfl

theorem write_then {α : Type} {r r' : Res Bytes} {hb : Bytes} (hh : r = .ok hb) (db : DictBuilder) (w : DictBuilder → α → Out) (m : α)
    (after : DictBuilder → Unit → Out) {x : Err} (hw : w db m = (Out.withRes r' Out.write).andThen fun _ => ([], .error x)) :
    ((Out.withRes r Out.write).andThen fun _ => Out.withRes (.ok db) fun db' => (w db' m).andThen (after db')).2 =
      (r' >>= fun _ => (.error x : Res Unit)) := by
  subst hh
  show ((w db m).andThen (after db)).2 = _
  rw [hw]
  exact write_error _ _ _

theorem buildOf_not_text (D : Darts) (db : DictBuilder) {header : Header} {hb : Bytes} (hh : header.toBytes = .ok hb) (l : Option PStr) (x : Err) :
    (DictBuilder.buildOf D header (.ok db) (.error (l, x))).2 =
      (convertPosTable db.posTable >>= fun _ => (.error (unreadMatrix l x) : Res Unit)) := by
  obtain ⟨after, h⟩ := buildOf_shape D header (.ok db) (.error (l, x))
  exact (congrArg Prod.snd h).trans (write_then hh db DictBuilder.writeGrammarOf (.error (l, x)) after (grammarOf_error db l x))

/-- The exception of a matrix that cannot be decoded. -/
theorem unreadMatrix_exact (l : Option PStr) (x : Err) : Exact (.error (unreadMatrix l x) : Res Unit) (headChecks l ++ [(x, True)]) := by
  cases l with
  | none => exact Exact.one (fun _ => rfl) (fun h => (h trivial).elim)
  | some h =>
    have key : (.error (unreadMatrix (some h) x) : Res Unit) = (convertMatrix h [] >>= fun _ => (.error x : Res Unit)) := by
      unfold unreadMatrix
      dsimp only
      cases convertMatrix h [] <;> rfl
    rw [key]
    exact convertMatrix_exact.bind fun _ _ => Exact.one (fun _ => rfl) (fun h => (h trivial).elim)

/-- What a build from files raises. -/
theorem buildOf_error {D : Darts} {sys : Option SysDict} {header : Header} {M : Disk} {ins : List PStr}
    {matrix : MatrixInput} {e : Err}
    (hp : (∃ m, matrix = .ok m) ∨ ∀ tables, Each M.HasRows ins tables → PosColumnsOk tables.flatten) :
    (DictBuilder.buildOf D header ((DictBuilder.init sys).addFiles M ins) matrix).2 = .error e ↔
      BuildFromFails D sys header M ins matrix e := by
  unfold BuildFromFails
  cases hh : header.toBytes with
  | error x =>
    have hx := (C89_header header).1 hh
    have h1 := buildOf_header D ((DictBuilder.init sys).addFiles M ins) matrix hh
    rw [h1]
    constructor
    · intro h; cases h; exact .inl hx
    · rintro (h | ⟨_, h, _⟩)
      · rw [(C89_header header).2 h] at hh; cases hh; rfl
      · exact (h _ hx).elim
  | ok hb =>
    have hno : ∀ e, ¬ Fails header.checks e := fun e h => by rw [(C89_header header).2 h] at hh; cases hh
    have step1 : ∀ P : Err → Prop, Next (fun _ : Unit => ∀ e, ¬ Fails header.checks e) (Fails header.checks) (fun _ => P) e ↔ P e := by
      intro P
      constructor
      · rintro (h | ⟨_, _, h⟩)
        · exact (hno _ h).elim
        · exact h
      · intro h; exact .inr ⟨(), hno, h⟩
    rw [step1]
    cases hr : (DictBuilder.init sys).addFiles M ins with
    | error x =>
      have h1 := buildOf_unread D matrix hh x
      rw [h1]
      constructor
      · intro h; cases h; exact .inl (addFiles_error.mp hr)
      · rintro (h | ⟨tables, ⟨h2, h3⟩, _⟩)
        · rw [addFiles_error.mpr h] at hr; cases hr; rfl
        · obtain ⟨db, h4⟩ := (addRows_passes (DictBuilder.init sys)).mpr h3
          rw [addFiles_passes h2 h4] at hr
          cases hr
    | ok db =>
      obtain ⟨tables, t1, t2⟩ := addFiles_ok.mp hr
      have hpass := (addRows_passes (DictBuilder.init sys)).mp ⟨_, t2⟩
      have step2 : ∀ P : List (List (List PStr)) → Err → Prop, Next (fun tables => Each M.HasRows ins tables ∧ RowsPass tables.flatten)
          (M.SourcesFail ins) P e ↔ P tables e := by
        intro P
        constructor
        · rintro (h | ⟨t, ⟨h1, _⟩, h⟩)
          · rw [addFiles_error.mpr h] at hr; cases hr
          · rw [hasRows_unique t1 h1]; exact h
        · intro h; exact .inr ⟨tables, ⟨t1, hpass⟩, h⟩
      rw [step2]
      cases matrix with
      | ok m =>
        rw [buildOf_build t2]
        constructor
        · intro h; exact .inl ⟨m, rfl, h⟩
        · rintro (⟨m', h, h'⟩ | ⟨l, x, cs, h, _⟩)
          · cases h; exact h'
          · cases h
      | error lx =>
        obtain ⟨l, x⟩ := lx
        have hpos : PosColumnsOk tables.flatten := by
          rcases hp with ⟨m, h⟩ | h
          · cases h
          · exact h tables t1
        obtain ⟨cs, hc⟩ := DictBuilder.rows_readable t2
        have hex := DictBuilder.posTable_exact t2 hpos hc
        have h1 := buildOf_not_text D db hh l x
        rw [h1]
        have h2 : Exact (convertPosTable db.posTable >>= fun _ => (.error (unreadMatrix l x) : Res Unit))
            (posChecks (ownPos (sysPos sys) [] (cs.map Cols.pos)) ++ headChecks l ++ [(x, True)]) := by
          rw [List.append_assoc]
          exact hex.bind fun _ _ => unreadMatrix_exact l x
        rw [h2 e]
        constructor
        · intro h; exact .inr ⟨l, x, cs, rfl, hc, h⟩
        · rintro (⟨m', h, _⟩ | ⟨l', x', cs', h, h', h3⟩)
          · cases h
          · cases h
            rw [rowsRead_unique hc h']
            exact h3

end Sudachi
