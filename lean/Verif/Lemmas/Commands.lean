/-
Lemmas about the build commands.
-/
import Verif.Spec.Commands
import Verif.Props.Csv
import Verif.Props.Open
import Verif.Props.Loads
namespace Sudachi

theorem DictBuilder.addRows_append {rows rows' : List (List PStr)} : ∀ (db : DictBuilder),
    db.addRows (rows ++ rows') = db.addRows rows >>= fun db' => db'.addRows rows' := by
  induction rows with
  | nil => intro db; rfl
  | cons row rows ih =>
    intro db
    show (db.addRow row >>= fun db' => db'.addRows (rows ++ rows')) = ((db.addRow row >>= fun db' => db'.addRows rows) >>= _)
    cases db.addRow row with
    | error e => rfl
    | ok db' => exact ih db'

theorem rowsBefore_error (e : Err) : ∀ (ls : List PStr) (r : CsvReader), ∃ rows e', r.rowsBefore e ls = (rows, .error e')
  | [], r => ⟨[], e, rfl⟩
  | l :: ls, r => by
    rw [CsvReader.rowsBefore]
    cases r.line l with
    | error x => exact ⟨_, _, rfl⟩
    | ok r' =>
      dsimp only
      split
      · obtain ⟨rows, e', h⟩ := rowsBefore_error e ls CsvReader.reset
        rw [h]
        exact ⟨_, _, rfl⟩
      · exact rowsBefore_error e ls r'

theorem addLines_ok {db db' : DictBuilder} {b : Bytes} :
    db.addLines (streamLines b) = .ok db' ↔ ∃ ls rows, textLines b = .ok ls ∧ csvRows ls = (rows, .ok ()) ∧ db.addRows rows = .ok db' := by
  unfold DictBuilder.addLines
  constructor
  · intro h
    obtain ⟨x, h1, h⟩ := bind_ok h
    obtain ⟨u, h2, h⟩ := bind_ok h
    cases h
    cases hs : streamLines b with
    | mk ls r =>
    rw [hs] at h1 h2
    cases r with
    | ok u => exact ⟨ls, _, (C90_at_once b ls).mp hs, Prod.ext rfl h2, h1⟩
    | error e =>
      obtain ⟨rows, e', h⟩ := rowsBefore_error e ls CsvReader.reset
      rw [csvStream, h] at h2
      cases h2
  · rintro ⟨ls, rows, h0, h1, h2⟩
    rw [(C90_at_once b ls).mpr h0, csvStream, h1]
    show (db.addRows rows >>= fun x => _) = _
    rw [h2]
    rfl

theorem addFiles_ok {M : Disk} {paths : List PStr} : ∀ {db db' : DictBuilder},
    db.addFiles M paths = .ok db' ↔ ∃ tables, Each M.HasRows paths tables ∧ db.addRows tables.flatten = .ok db' := by
  induction paths with
  | nil =>
    intro db db'
    constructor
    · intro h; exact ⟨[], .nil, h⟩
    · rintro ⟨_, h, hr⟩; cases h; exact hr
  | cons p ps ih =>
    intro db db'
    constructor
    · intro h
      rw [DictBuilder.addFiles] at h
      obtain ⟨b, h1, h⟩ := bind_ok h
      obtain ⟨x, h2, h⟩ := bind_ok h
      obtain ⟨ls, rows, h0, h3, h4⟩ := addLines_ok.mp h2
      obtain ⟨tables, h5, h6⟩ := ih.mp h
      refine ⟨rows :: tables, .cons ⟨ls, ⟨b, h1, h0⟩, h3⟩ h5, ?_⟩
      rw [List.flatten_cons, DictBuilder.addRows_append, h4]
      exact h6
    · rintro ⟨_, h, hr⟩
      cases h with
      | @cons _ rows _ tables h1 h2 =>
        obtain ⟨ls, ⟨b, h3, h0⟩, h4⟩ := h1
        rw [List.flatten_cons, DictBuilder.addRows_append] at hr
        obtain ⟨x, h5, h6⟩ := bind_ok hr
        rw [DictBuilder.addFiles, h3]
        show (db.addLines (streamLines b) >>= fun x => _) = _
        rw [addLines_ok.mpr ⟨ls, rows, h0, h4, h5⟩]
        exact ih.mpr ⟨tables, h2, h6⟩

/-- A build that goes through: everything was read. -/
theorem buildOf_ok {D : Darts} {header : Header} {read : Res DictBuilder} {matrix : MatrixInput} {ops : List OutOp}
    (h : DictBuilder.buildOf D header read matrix = (ops, .ok ())) : (∃ db, read = .ok db) ∧ ∃ m, matrix = .ok m := by
  unfold DictBuilder.buildOf at h
  obtain ⟨_, _, _, h, _⟩ := Out.andThen_ok h
  obtain ⟨db, hr, h⟩ := Out.withRes_ok h
  refine ⟨⟨db, hr⟩, ?_⟩
  dsimp only at h
  obtain ⟨_, _, h, _, _⟩ := Out.andThen_ok h
  cases matrix with
  | ok m => exact ⟨m, rfl⟩
  | error e =>
    unfold DictBuilder.writeGrammarOf at h
    obtain ⟨_, _, _, h, _⟩ := Out.andThen_ok h
    cases h

theorem buildOf_build {D : Darts} {header : Header} {db db' : DictBuilder} {rows : List (List PStr)} {m : Option (PStr × List PStr)}
    (h : db.addRows rows = .ok db') : DictBuilder.buildOf D header (.ok db') (.ok m) = db.build D header rows m := by
  unfold DictBuilder.build
  rw [h]
  rfl

theorem put_sameBut (S : Shell) (path : PStr) (b : Bytes) : S.SameBut (S.put path b) path :=
  ⟨rfl, rfl, fun _ hp => if_neg hp, fun _ hp => if_neg hp, rfl, rfl, rfl, rfl⟩

theorem Shell.SameBut.refl (S : Shell) (path : PStr) : S.SameBut S path := ⟨rfl, rfl, fun _ _ => rfl, fun _ _ => rfl, rfl, rfl, rfl, rfl⟩

theorem put_file (S : Shell) (path : PStr) (b : Bytes) : (S.put path b).file path = .ok b := if_pos rfl

theorem put_put (S : Shell) (path : PStr) (a b : Bytes) : (S.put path a).put path b = S.put path b := by
  unfold Shell.put
  congr 1
  · congr 1
    funext p
    dsimp only
    split <;> simp_all
  · funext p
    dsimp only
    split <;> simp_all

theorem all_present {S : Shell} {ins : List PStr} : (!ins.all S.present) = false ↔ S.AllPresent ins := by
  unfold Shell.AllPresent
  simp [List.all_eq_true]

theorem ended_done {r : Res Unit} : Ended.of r = .done ↔ r = .ok () := by
  cases r with
  | ok u => exact ⟨fun _ => rfl, fun _ => rfl⟩
  | error e =>
    constructor
    · intro h; cases h
    · intro h; cases h

theorem ended_exit {r : Res Unit} {c : Nat} : Ended.of r ≠ .exit c := by
  cases r with
  | ok u => intro h; cases h
  | error e => intro h; cases h

theorem isMatrix_iff {S : Shell} {path header : PStr} {lines : List PStr} :
    S.IsMatrix path header lines ↔ ∃ b, S.file path = .ok b ∧ S.matrixText b = .ok (some (header, lines)) := by
  unfold Shell.IsMatrix Shell.matrixText
  constructor
  · rintro ⟨b, text, ls, h1, h2, h3, h4⟩
    refine ⟨b, h1, ?_⟩
    rw [h2]
    show Except.ok (some (headAndRest (linesAux [] text))) = _
    rw [lines_iff.mpr h3]
    rcases h4 with ⟨h, h', h''⟩ | h
    · subst h h' h''; rfl
    · subst h; rfl
  · rintro ⟨b, h1, h2⟩
    cases hd : S.decode b with
    | error e => rw [hd] at h2; cases h2
    | ok text =>
      rw [hd] at h2
      have h2 : headAndRest (linesAux [] text) = (header, lines) := Option.some.inj (Except.ok.inj h2)
      refine ⟨b, text, _, h1, hd, lines_iff.mp rfl, ?_⟩
      cases hl : linesAux [] text with
      | nil => rw [hl] at h2; cases h2; exact .inl ⟨rfl, rfl, rfl⟩
      | cons l ls => rw [hl] at h2; cases h2; exact .inr rfl

theorem isTable_rows {M : Disk} {path : PStr} {rows : List (List PStr)} (h : M.IsTable path rows) : M.HasRows path rows := by
  obtain ⟨b, text, ls, h1, h2, h3, h4, h5⟩ := h
  obtain ⟨k1, k2⟩ := C73_line_ends h2 h3 h4 h5
  exact ⟨ls, ⟨b, h1, k1⟩, k2⟩

theorem systemDicOf_ok {S : Shell} {name : Option PStr} {path : PStr} : systemDicOf S name = .ok path ↔ S.Against name path := by
  unfold systemDicOf Shell.Against
  cases name with
  | none =>
    dsimp only
    rcases hs : Settings.init.setUp S.toMachine none none none with ⟨s, r⟩
    cases r with
    | error e => simp
    | ok u =>
      dsimp only
      constructor
      · intro h; exact .inr ⟨.inl rfl, s, rfl, h⟩
      · rintro (⟨h, _⟩ | ⟨_, s', h1, h2⟩)
        · cases h
        · cases h1; exact h2
  | some p =>
    cases p with
    | cons c p =>
      dsimp only
      constructor
      · intro h; cases h; exact .inl ⟨rfl, by simp⟩
      · rintro (⟨h, _⟩ | ⟨h | h, _⟩)
        · cases h; rfl
        · cases h
        · cases h
    | nil =>
      dsimp only
      rcases hs : Settings.init.setUp S.toMachine none none none with ⟨s, r⟩
      cases r with
      | error e =>
        dsimp only
        constructor
        · intro h; cases h
        · rintro (⟨h, hne⟩ | ⟨_, s', h1, h2⟩)
          · cases h; exact absurd rfl hne
          · cases h1
      | ok u =>
        dsimp only
        constructor
        · intro h; exact .inr ⟨.inr rfl, s, rfl, h⟩
        · rintro (⟨h, hne⟩ | ⟨_, s', h1, h2⟩)
          · cases h; exact absurd rfl hne
          · cases h1; exact h2

end Sudachi
