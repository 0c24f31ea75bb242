import Verif.Model.FileSave
import Verif.Props.FileWatch
import Verif.Props.FileWatcher
/-!
C182: which ways to save a file are reported.
-/
namespace Verif.FileSave
open Verif.FileWatch

/-- A path of a directory with its slash and a name without. -/
def Path.Good (p : Path) : Prop := (∃ d : Str, p.dir = d ++ ['/']) ∧ '/' ∉ p.name

/-- The path as text. -/
def Path.text (p : Path) : Str := p.dir ++ p.name

/-- Every entry has a proper path. -/
def Files.Good (fs : Files) : Prop := ∀ (q : Path) (e : Entry), fs.entry q = some e → q.Good

/-- The operation writes to the file with the name `p`, opened by this name or by a link to it. -/
def Writes (fs : Files) (p : Path) (op : Op) : Prop :=
  ∃ q n : _, fs.opens q = some (p, n) ∧ (op = .truncate q ∨ ∃ s : Str, s ≠ [] ∧ op = .append q s)

theorem opens_file {fs : Files} {p q : Path} {n : Nat} (h : fs.opens p = some (q, n)) :
    fs.entry q = some (.file n) := by
  unfold Files.opens at h
  cases hp : fs.entry p with
  | none => rw [hp] at h; cases h
  | some e =>
    rw [hp] at h
    cases e with
    | file m => cases h; exact hp
    | link r =>
      simp only at h
      cases hr : fs.entry r with
      | none => rw [hr] at h; cases h
      | some e' =>
        rw [hr] at h
        cases e' with
        | file m => cases h; exact hr
        | link r' => cases h

theorem watch_of {p : Path} (hp : p.Good) : getDirectory p.text true = (p.dir, .file p.name) := by
  obtain ⟨⟨d, hd⟩, hn⟩ := hp
  have : p.text = d ++ '/' :: p.name := by simp [Path.text, hd]
  rw [this]
  simp only [getDirectory, if_true, slash_split d p.name hn, hd]

theorem reported_append {t : Str} {a b : List Event} : reported t (a ++ b) = reported t a ++ reported t b := by
  simp [reported, notes]

theorem reported_nil {t : Str} : reported t [] = [] := by
  simp [reported, notes]

theorem reported_modified {p q : Path} (hp : p.Good) (hq : q.Good) :
    reported p.text [modified q] = if q = p then [p.name] else [] := by
  have hs : (split q.name).2 = q.name := FileWatcher.split_name hq.2
  unfold reported
  rw [watch_of hp]
  by_cases hd : q.dir = p.dir
  · by_cases hn : q.name = p.name
    · have : q = p := by cases q; cases p; simp_all
      subst this
      simp [modified, notes, note, pass, hs]
    · have : q ≠ p := fun h => hn (by rw [h])
      simp [modified, notes, note, pass, hs, hd, hn, this]
  · have : q ≠ p := fun h => hd (by rw [h])
    simp [modified, notes, hd, this]

theorem reported_created {p q : Path} : reported p.text [created q] = [] := by
  unfold reported
  generalize getDirectory p.text true = w
  by_cases hd : q.dir = w.1
  · cases hp : pass w.2 q.name <;> simp [created, notes, note, hd, hp]
  · simp [created, notes, hd]

theorem reported_deleted {p q : Path} : reported p.text [deleted q] = [] := by
  unfold reported
  generalize getDirectory p.text true = w
  by_cases hd : q.dir = w.1
  · cases hp : pass w.2 q.name <;> simp [deleted, notes, note, hd, hp]
  · simp [deleted, notes, hd]

/-- C182: an operation is reported, once and with the name of the file, exactly if it writes to the file under the name
that is watched, be it opened by this name or by a symbolic link to it. -/
theorem C182_exact (fs : Files) (hfs : fs.Good) (p : Path) (hp : p.Good) (op : Op) :
    (Writes fs p op → reported p.text (step fs op).2 = [p.name]) ∧
    (¬ Writes fs p op → reported p.text (step fs op).2 = []) := by
  cases op with
  | truncate q =>
    cases ho : fs.opens q with
    | none =>
      refine ⟨?_, fun _ => by simp [step, ho, reported_nil]⟩
      rintro ⟨q', n, h, h' | ⟨s, -, h'⟩⟩
      · cases h'; rw [ho] at h; cases h
      · cases h'
    | some x =>
      obtain ⟨r, n⟩ := x
      simp only [step, ho]
      rw [reported_modified hp (hfs _ _ (opens_file ho))]
      constructor
      · rintro ⟨q', m, h, h' | ⟨s, -, h'⟩⟩
        · cases h'; rw [ho] at h; cases h; rw [if_pos rfl]
        · cases h'
      · intro hw
        rw [if_neg]
        rintro rfl
        exact hw ⟨q, n, ho, Or.inl rfl⟩
  | append q s =>
    cases ho : fs.opens q with
    | none =>
      refine ⟨?_, fun _ => by simp [step, ho, reported_nil]⟩
      rintro ⟨q', n, h, h' | ⟨s, -, h'⟩⟩
      · cases h'
      · cases h'; rw [ho] at h; cases h
    | some x =>
      obtain ⟨r, n⟩ := x
      by_cases hs : s = []
      · subst hs
        refine ⟨?_, fun _ => by simp [step, ho, reported_nil]⟩
        rintro ⟨q', n, h, h' | ⟨s, h0, h'⟩⟩
        · cases h'
        · cases h'; exact absurd rfl h0
      · simp only [step, ho, if_neg hs]
        rw [reported_modified hp (hfs _ _ (opens_file ho))]
        constructor
        · rintro ⟨q', m, h, h' | ⟨s, -, h'⟩⟩
          · cases h'
          · cases h'; rw [ho] at h; cases h; rw [if_pos rfl]
        · intro hw
          rw [if_neg]
          rintro rfl
          exact hw ⟨q, n, ho, Or.inr ⟨s, hs, rfl⟩⟩
  | create q =>
    have : reported p.text (step fs (.create q)).2 = [] := by
      simp only [step]
      cases fs.entry q with
      | none => exact reported_created
      | some e => exact reported_nil
    refine ⟨?_, fun _ => this⟩
    rintro ⟨q', n, h, h' | ⟨s, -, h'⟩⟩ <;> cases h'
  | unlink q =>
    have : reported p.text (step fs (.unlink q)).2 = [] := by
      simp only [step]
      cases fs.entry q with
      | none => exact reported_nil
      | some e => exact reported_deleted
    refine ⟨?_, fun _ => this⟩
    rintro ⟨q', n, h, h' | ⟨s, -, h'⟩⟩ <;> cases h'
  | rename q r =>
    have : reported p.text (step fs (.rename q r)).2 = [] := by
      simp only [step]
      cases fs.entry q with
      | none => exact reported_nil
      | some e => simp only; split <;> exact reported_nil
    refine ⟨?_, fun _ => this⟩
    rintro ⟨q', n, h, h' | ⟨s, -, h'⟩⟩ <;> cases h'
  | hardLink q r =>
    have : reported p.text (step fs (.hardLink q r)).2 = [] := by
      simp only [step]
      split
      · exact reported_created
      · exact reported_nil
    refine ⟨?_, fun _ => this⟩
    rintro ⟨q', n, h, h' | ⟨s, -, h'⟩⟩ <;> cases h'
  | symLink q r =>
    have : reported p.text (step fs (.symLink q r)).2 = [] := by
      simp only [step]
      split
      · exact reported_created
      · exact reported_nil
    refine ⟨?_, fun _ => this⟩
    rintro ⟨q', n, h, h' | ⟨s, -, h'⟩⟩ <;> cases h'

/-- The operation gives the name `p`, or the file behind it, to another use: it removes or renames `p`, renames another
file to `p`, or makes a hard link to `p`. -/
def Touches (p : Path) : Op → Prop
  | .unlink q => q = p
  | .rename q r => q = p ∨ r = p
  | .hardLink q _ => q = p
  | _ => False

/-- `p` is the only name of a file with inode `n`. -/
structure Own (fs : Files) (p : Path) (n : Nat) : Prop where
  entry : fs.entry p = some (.file n)
  only : ∀ q : Path, fs.entry q = some (.file n) → q = p
  old : n < fs.fresh

theorem content_own {fs : Files} {p : Path} {n : Nat} (h : Own fs p n) : fs.content p = some (fs.data n) := by
  simp [Files.content, Files.opens, h.entry]

/-- An operation on other things keeps `p` the only name of its file; if the text changes, the operation writes. -/
theorem own_step {fs : Files} {p : Path} {n : Nat} (h : Own fs p n) {op : Op} (ht : ¬ Touches p op) :
    Own (step fs op).1 p n ∧ ((step fs op).1.data n ≠ fs.data n → Writes fs p op) := by
  cases op with
  | truncate q =>
    simp only [step]
    cases ho : fs.opens q with
    | none => exact ⟨h, fun c => absurd rfl c⟩
    | some x =>
      obtain ⟨r, m⟩ := x
      refine ⟨⟨h.entry, h.only, h.old⟩, fun c => ?_⟩
      by_cases hm : n = m
      · subst hm
        have := h.only r (opens_file ho)
        subst this
        exact ⟨q, n, ho, Or.inl rfl⟩
      · simp [Files.setData, hm] at c
  | append q s =>
    simp only [step]
    cases ho : fs.opens q with
    | none => exact ⟨h, fun c => absurd rfl c⟩
    | some x =>
      obtain ⟨r, m⟩ := x
      by_cases hs : s = []
      · simp only [if_pos hs]; exact ⟨h, fun c => absurd rfl c⟩
      · simp only [if_neg hs]
        refine ⟨⟨h.entry, h.only, h.old⟩, fun c => ?_⟩
        by_cases hm : n = m
        · subst hm
          have := h.only r (opens_file ho)
          subst this
          exact ⟨q, n, ho, Or.inr ⟨s, hs, rfl⟩⟩
        · simp [Files.setData, hm] at c
  | create q =>
    simp only [step]
    cases he : fs.entry q with
    | some e => exact ⟨h, fun c => absurd rfl c⟩
    | none =>
      have hqp : p ≠ q := by rintro rfl; rw [h.entry] at he; cases he
      have hn : n ≠ fs.fresh := Nat.ne_of_lt h.old
      refine ⟨⟨by simp [Files.setEntry, hqp, h.entry], ?_, Nat.lt_succ_of_lt h.old⟩, fun c => ?_⟩
      · intro r hr
        by_cases hrq : r = q
        · simp only [Files.setEntry, if_pos hrq, Option.some.injEq, Entry.file.injEq] at hr
          exact absurd hr.symm hn
        · simp only [Files.setEntry, if_neg hrq] at hr
          exact h.only r hr
      · simp [hn] at c
  | unlink q =>
    simp only [step]
    cases he : fs.entry q with
    | none => exact ⟨h, fun c => absurd rfl c⟩
    | some e =>
      have hqp : p ≠ q := fun c => ht c.symm
      refine ⟨⟨by simp [Files.setEntry, hqp, h.entry], ?_, h.old⟩, fun c => absurd rfl c⟩
      intro r hr
      by_cases hrq : r = q
      · simp only [Files.setEntry, if_pos hrq] at hr; cases hr
      · simp only [Files.setEntry, if_neg hrq] at hr
        exact h.only r hr
  | rename q r =>
    simp only [step]
    cases he : fs.entry q with
    | none => exact ⟨h, fun c => absurd rfl c⟩
    | some e =>
      simp only
      split
      · exact ⟨h, fun c => absurd rfl c⟩
      · have hq : p ≠ q := fun c => ht (Or.inl c.symm)
        have hr : p ≠ r := fun c => ht (Or.inr c.symm)
        refine ⟨⟨by simp [Files.setEntry, hq, hr, h.entry], ?_, h.old⟩, fun c => absurd rfl c⟩
        intro t htt
        by_cases h1 : t = q
        · simp only [Files.setEntry, if_pos h1] at htt; cases htt
        · by_cases h2 : t = r
          · simp only [Files.setEntry, if_neg h1, if_pos h2, Option.some.injEq] at htt
            subst htt
            exact absurd (h.only q he).symm hq
          · simp only [Files.setEntry, if_neg h1, if_neg h2] at htt
            exact h.only t htt
  | hardLink q r =>
    simp only [step]
    split
    · rename_i m h1 h2
      have hr : p ≠ r := by rintro rfl; rw [h.entry] at h2; cases h2
      refine ⟨⟨by simp [Files.setEntry, hr, h.entry], ?_, h.old⟩, fun c => absurd rfl c⟩
      intro t htt
      by_cases h3 : t = r
      · simp only [Files.setEntry, if_pos h3, Option.some.injEq, Entry.file.injEq] at htt
        subst htt
        exact absurd (h.only q h1) ht
      · simp only [Files.setEntry, if_neg h3] at htt
        exact h.only t htt
    · exact ⟨h, fun c => absurd rfl c⟩
  | symLink q r =>
    simp only [step]
    split
    · rename_i m h1 h2
      have hr : p ≠ r := by rintro rfl; rw [h.entry] at h2; cases h2
      refine ⟨⟨by simp [Files.setEntry, hr, h.entry], ?_, h.old⟩, fun c => absurd rfl c⟩
      intro t htt
      by_cases h3 : t = r
      · simp only [Files.setEntry, if_pos h3] at htt; cases htt
      · simp only [Files.setEntry, if_neg h3] at htt
        exact h.only t htt
    · exact ⟨h, fun c => absurd rfl c⟩

/-- C182, what holds: if the file watched is a file and not a link, has no other name, and is neither replaced nor
removed, then whatever is done to the files, every change of its text is reported.  Missing: files that are replaced
(`C182_negation_rename`), symbolic links (`C182_negation_link`), files with several names (`C182_negation_hard_link`). -/
theorem C182_reports_partial (fs : Files) (p : Path) (hp : p.Good) (n : Nat) (hfs : fs.Good)
    (ho : Own fs p n) (ops : List Op) (hops : ∀ op ∈ ops, ¬ Touches p op) (hnames : ∀ op ∈ ops,
      ∀ q r : Path, (op = .create q ∨ op = .hardLink r q ∨ op = .symLink r q ∨ op = .rename r q) → q.Good) :
    (run fs ops).1.content p ≠ fs.content p → reported p.text (run fs ops).2 ≠ [] := by
  rw [content_own ho]
  induction ops generalizing fs with
  | nil => intro c; exact absurd (content_own ho) c
  | cons op ops ih =>
    intro hc
    obtain ⟨ho', hw⟩ := own_step ho (hops op (by simp))
    have hfs' : (step fs op).1.Good := by
      have hnm := hnames op (by simp)
      intro q e hq
      cases op with
      | truncate r =>
        simp only [step] at hq
        cases hx : fs.opens r with
        | none => rw [hx] at hq; exact hfs q e hq
        | some x => rw [hx] at hq; exact hfs q e hq
      | append r s =>
        simp only [step] at hq
        cases hx : fs.opens r with
        | none => rw [hx] at hq; exact hfs q e hq
        | some x =>
          rw [hx] at hq
          simp only at hq
          split at hq
          · exact hfs q e hq
          · exact hfs q e hq
      | create r =>
        simp only [step] at hq
        cases hx : fs.entry r with
        | some x => rw [hx] at hq; exact hfs q e hq
        | none =>
          rw [hx] at hq
          by_cases hr : q = r
          · subst hr; exact hnm q q (Or.inl rfl)
          · simp only [Files.setEntry, if_neg hr] at hq; exact hfs q e hq
      | unlink r =>
        simp only [step] at hq
        cases hx : fs.entry r with
        | none => rw [hx] at hq; exact hfs q e hq
        | some x =>
          rw [hx] at hq
          by_cases hr : q = r
          · simp only [Files.setEntry, if_pos hr] at hq; cases hq
          · simp only [Files.setEntry, if_neg hr] at hq; exact hfs q e hq
      | rename r t =>
        simp only [step] at hq
        cases hx : fs.entry r with
        | none => rw [hx] at hq; exact hfs q e hq
        | some x =>
          rw [hx] at hq
          simp only at hq
          split at hq
          · exact hfs q e hq
          · by_cases h1 : q = r
            · simp only [Files.setEntry, if_pos h1] at hq; cases hq
            · by_cases h2 : q = t
              · subst h2; exact hnm q r (Or.inr (Or.inr (Or.inr rfl)))
              · simp only [Files.setEntry, if_neg h1, if_neg h2] at hq; exact hfs q e hq
      | hardLink r t =>
        simp only [step] at hq
        split at hq
        · by_cases h2 : q = t
          · subst h2; exact hnm q r (Or.inr (Or.inl rfl))
          · simp only [Files.setEntry, if_neg h2] at hq; exact hfs q e hq
        · exact hfs q e hq
      | symLink r t =>
        simp only [step] at hq
        split at hq
        · by_cases h2 : q = t
          · subst h2; exact hnm q r (Or.inr (Or.inr (Or.inl rfl)))
          · simp only [Files.setEntry, if_neg h2] at hq; exact hfs q e hq
        · exact hfs q e hq
    show reported p.text ((step fs op).2 ++ (run (step fs op).1 ops).2) ≠ []
    rw [reported_append]
    by_cases hd : (step fs op).1.data n = fs.data n
    · have := ih (step fs op).1 hfs' ho' (fun o h => hops o (by simp [h])) (fun o h => hnames o (by simp [h]))
        (by rw [hd]; exact hc)
      exact List.append_ne_nil_of_right_ne_nil _ this
    · rw [(C182_exact fs hfs p hp op).1 (hw hd)]
      simp

/-- C182 fails for files that are replaced, as editors and tools do to save a file safely: whatever the files are,
nothing is reported when a file is renamed to the one watched, and its text is the one of the other file then. -/
theorem C182_negation_rename (fs : Files) (p q : Path) (m : Nat) (hq : fs.entry q = some (.file m)) :
    (step fs (.rename q p)).1.content p = some (fs.data m) ∧ reported p.text (step fs (.rename q p)).2 = [] := by
  by_cases h1 : q = p ∨ (Entry.file m).isFile = true ∧ fs.entry p = some (Entry.file m)
  · have hp : fs.entry p = some (.file m) := by
      rcases h1 with rfl | ⟨-, h⟩
      · exact hq
      · exact h
    simp only [step, hq, if_pos h1]
    exact ⟨by simp [Files.content, Files.opens, hp], reported_nil⟩
  · have hqp : p ≠ q := fun h => h1 (.inl h.symm)
    simp only [step, hq, if_neg h1]
    exact ⟨by simp [Files.content, Files.opens, Files.setEntry, hqp], reported_nil⟩

/-- C182: what a rename does to the names: the new name stands for what the old one stood for, and the old name is gone unless
both are the same or names of one file. -/
theorem C182_rename (fs : Files) (p q : Path) (e : Entry) (hq : fs.entry q = some e) :
    (step fs (.rename q p)).1.entry p = some e ∧
    (q ≠ p → (∃ t, e = .link t) ∨ fs.entry p ≠ some e → (step fs (.rename q p)).1.entry q = none) := by
  by_cases h1 : q = p ∨ e.isFile = true ∧ fs.entry p = some e
  · simp only [step, hq, if_pos h1]
    refine ⟨?_, fun hqp h => ?_⟩
    · rcases h1 with rfl | ⟨-, h⟩
      · exact hq
      · exact h
    · rcases h1 with h' | ⟨h2, h3⟩
      · exact absurd h' hqp
      · rcases h with ⟨t, rfl⟩ | h
        · cases h2
        · exact absurd h3 h
  · have hqp : p ≠ q := fun h => h1 (.inl h.symm)
    simp only [step, hq, if_neg h1]
    exact ⟨by simp [Files.setEntry, hqp], fun _ _ => by simp [Files.setEntry]⟩

/-- C182 fails for symbolic links: as long as the path watched is a link to another file, no operation is reported, although
the text that is read from it changes with every write. -/
theorem C182_negation_link (fs : Files) (hfs : fs.Good) (p q : Path) (hp : p.Good) (m : Nat)
    (hl : fs.entry p = some (.link q)) (hq : fs.entry q = some (.file m)) :
    (∀ op : Op, reported p.text (step fs op).2 = []) ∧
    ∀ s : Str, s ≠ [] → (step fs (.append p s)).1.content p = some (fs.data m ++ s) ∧
      (step fs (.append p s)).1.content p ≠ fs.content p := by
  constructor
  · intro op
    refine (C182_exact fs hfs p hp op).2 ?_
    rintro ⟨r, n, h, -⟩
    have := opens_file h
    rw [hl] at this
    cases this
  · intro s hs
    have h1 : fs.opens p = some (q, m) := by simp [Files.opens, hl, hq]
    simp only [step, h1, if_neg hs]
    have h2 : (fs.setData m (fs.data m ++ s)).content p = some (fs.data m ++ s) := by
      simp [Files.content, Files.opens, Files.setData, hl, hq]
    refine ⟨h2, ?_⟩
    rw [h2, Files.content, h1]
    simp [hs]

/-- C182 fails for files with several names: what is written by another name is not reported. -/
theorem C182_negation_hard_link (fs : Files) (hfs : fs.Good) (p q : Path) (hp : p.Good) (m : Nat) (hqp : q ≠ p)
    (he : fs.entry p = some (.file m)) (hq : fs.entry q = some (.file m)) (s : Str) (hs : s ≠ []) :
    reported p.text (step fs (.append q s)).2 = [] ∧ (step fs (.append q s)).1.content p = some (fs.data m ++ s) ∧
      (step fs (.append q s)).1.content p ≠ fs.content p := by
  have h1 : fs.opens q = some (q, m) := by simp [Files.opens, hq]
  have h2 : fs.opens p = some (p, m) := by simp [Files.opens, he]
  refine ⟨?_, ?_⟩
  · refine (C182_exact fs hfs p hp _).2 ?_
    rintro ⟨r, n, h, h' | ⟨t, -, h'⟩⟩
    · cases h'
    · cases h'
      rw [h1] at h
      cases h
      exact hqp rfl
  · simp only [step, h1, if_neg hs]
    have h3 : (fs.setData m (fs.data m ++ s)).content p = some (fs.data m ++ s) := by
      simp [Files.content, Files.opens, Files.setData, he]
    refine ⟨h3, ?_⟩
    rw [h3, Files.content, h2]
    simp [hs]

/-- A configuration file, a new version of it beside it, another name of it, and a link to it. -/
def sampleFiles : Files :=
  { entry := fun p =>
      if p = ⟨c!"/etc/", c!"ddsrouter.yaml"⟩ then some (.file 0)
      else if p = ⟨c!"/etc/", c!"ddsrouter.tmp"⟩ then some (.file 1)
      else if p = ⟨c!"/srv/", c!"a"⟩ then some (.file 2)
      else if p = ⟨c!"/srv/", c!"b"⟩ then some (.file 2)
      else if p = ⟨c!"/srv/", c!"l"⟩ then some (.link ⟨c!"/etc/", c!"ddsrouter.yaml"⟩)
      else none
    data := fun n => if n = 0 then c!"old" else if n = 1 then c!"new" else []
    fresh := 3 }

theorem sample_good : sampleFiles.Good := by
  intro q e h
  simp only [sampleFiles] at h
  repeat' split at h
  all_goals first
    | (rename_i hq; subst hq; first | exact ⟨⟨c!"/etc", rfl⟩, by decide⟩ | exact ⟨⟨c!"/srv", rfl⟩, by decide⟩)
    | cases h

/-- Non-trivial case for `C182_reports_partial`: the file is written anew while other files are renamed. -/
example : Own sampleFiles ⟨c!"/etc/", c!"ddsrouter.yaml"⟩ 0 ∧
    (run sampleFiles [.truncate ⟨c!"/srv/", c!"l"⟩, .rename ⟨c!"/etc/", c!"ddsrouter.tmp"⟩ ⟨c!"/etc/", c!"x"⟩,
      .append ⟨c!"/etc/", c!"ddsrouter.yaml"⟩ c!"1"]).1.content ⟨c!"/etc/", c!"ddsrouter.yaml"⟩ = some c!"1" ∧
    reported c!"/etc/ddsrouter.yaml"
      (run sampleFiles [.truncate ⟨c!"/srv/", c!"l"⟩, .rename ⟨c!"/etc/", c!"ddsrouter.tmp"⟩ ⟨c!"/etc/", c!"x"⟩,
        .append ⟨c!"/etc/", c!"ddsrouter.yaml"⟩ c!"1"]).2 = [c!"ddsrouter.yaml", c!"ddsrouter.yaml"] := by
  refine ⟨⟨by decide, ?_, by decide⟩, by decide, by decide⟩
  intro q hq
  simp only [sampleFiles] at hq
  repeat' split at hq
  all_goals first | assumption | (cases hq; done) | (simp at hq)

/-- Non-trivial cases for the negations: the new version is renamed to the file; the link is watched; one of two names
is. -/
example : sampleFiles.entry ⟨c!"/etc/", c!"ddsrouter.tmp"⟩ = some (.file 1) ∧
    sampleFiles.entry ⟨c!"/etc/", c!"ddsrouter.yaml"⟩ ≠ some (.file 1) ∧
    sampleFiles.entry ⟨c!"/srv/", c!"l"⟩ = some (.link ⟨c!"/etc/", c!"ddsrouter.yaml"⟩) ∧
    sampleFiles.entry ⟨c!"/srv/", c!"a"⟩ = some (.file 2) ∧ sampleFiles.entry ⟨c!"/srv/", c!"b"⟩ = some (.file 2) ∧
    (step sampleFiles (.rename ⟨c!"/etc/", c!"ddsrouter.tmp"⟩ ⟨c!"/etc/", c!"ddsrouter.yaml"⟩)).1.content
      ⟨c!"/etc/", c!"ddsrouter.yaml"⟩ = some c!"new" := by
  decide

end Verif.FileSave
