import Verif.DiffProg
import Verif.Props.DiffLog

/-!
C76: what the program `nitf_diff` prints, writes to its log, and returns.
-/

namespace Verif
namespace DiffProg

/-! ### Specification -/

/-- No JSON configuration is given, or one that is an empty object. -/
def NoConfig {C : Type} (w : World C) (a : Args) : Prop :=
  a.configJson = none ∨ a.configJson = some [] ∨
    ∃ f, a.configJson = some f ∧ w.json f = .ok (.obj [])

/-- A log file is asked for: `--log-file-only` wins over `--log-file`; an empty name is no name. -/
def LogsTo (a : Args) (f : Text) : Prop :=
  f ≠ [] ∧ (a.logFileOnly = some f ∨
    ((a.logFileOnly = none ∨ a.logFileOnly = some []) ∧ a.logFile = some f))

/-- `--log-file-only` is not given. -/
def OnScreen (a : Args) : Prop := a.logFileOnly = none ∨ a.logFileOnly = some []

/-- The log file, when there is one, can be opened. -/
def LogOpens {C : Type} (w : World C) (a : Args) : Prop := ∀ f, LogsTo a f → w.opens f = true

/-- The delta given to the comparison. -/
def deltaOf (a : Args) : Option Text := if a.jsonDelta = some [] then none else a.jsonDelta

/-- What the comparison of the two files logs and returns. -/
def resultOf {C : Type} (w : World C) (a : Args) : List Record × Except Fail Bool :=
  w.compare w.config0 a.treWarningAsError a.file1 a.file2 (deltaOf a)

/-- The least level that is of interest, by the options. -/
def Wanted (a : Args) (level : Nat) : Prop :=
  (a.debug = true ∧ 10 ≤ level) ∨
  (a.debug = false ∧ a.verbose = true ∧ 20 ≤ level) ∨
  (a.debug = false ∧ a.verbose = false ∧ a.quiet = true ∧ 1000 ≤ level) ∨
  (a.debug = false ∧ a.verbose = false ∧ a.quiet = false ∧ 30 ≤ level)

instance (a : Args) (n : Nat) : Decidable (Wanted a n) := by unfold Wanted; infer_instance

/-- A text without its color codes: whatever is between an escape character and the next "m" is
left out. -/
def strip : Bool → Text → Text
  | _, [] => []
  | true, c :: r => strip (c != 'm') r
  | false, c :: r => if c = '\x1b' then strip true r else c :: strip false r

/-- A record whose texts have no escape character. -/
def Record.Clean (r : Record) : Prop :=
  '\x1b' ∉ r.msg ∧ '\x1b' ∉ r.name ∧ ∀ c, r.ctx = some c → '\x1b' ∉ c

/-- The lines a log file starts with. -/
def logStart {C : Type} (w : World C) (a : Args) : List Text :=
  ["Comparing file 1: ".toList ++ w.abspath a.file1,
   "Comparing file 2: ".toList ++ w.abspath a.file2] ++
  ((deltaOf a).map fun j => "JSON delta file: ".toList ++ w.abspath j).toList

/-- The verdict at the end of a log file. -/
def logEnd {C : Type} (w : World C) (a : Args) : List Text :=
  match (resultOf w a).2 with
  | .error _ => []
  | .ok false => ["Files are different".toList]
  | .ok true => if a.quiet then [] else ["Files are the same".toList]

/-- Two lines of arguments that differ at most in how the result is shown. -/
structure SameRequest (a a' : Args) : Prop where
  file1 : a.file1 = a'.file1
  file2 : a.file2 = a'.file2
  jsonDelta : a.jsonDelta = a'.jsonDelta
  configJson : a.configJson = a'.configJson
  tre : a.treWarningAsError = a'.treWarningAsError

/-! ### Lemmas -/

theorem given_deltaOf (a : Args) : given a.jsonDelta = deltaOf a := by
  unfold deltaOf
  match h : a.jsonDelta with
  | none => simp [given]
  | some [] => simp [given]
  | some (c :: r) => simp [given]

theorem given_some {o : Option Text} {f : Text} : given o = some f ↔ o = some f ∧ f ≠ [] := by
  match o with
  | none => simp [given]
  | some [] =>
    simp only [given, Option.some.injEq, reduceCtorEq, false_iff, not_and, ne_eq, Classical.not_not]
    exact fun h => h.symm
  | some (c :: r) =>
    simp only [given, Option.some.injEq]
    exact ⟨fun h => ⟨h, by simp [← h]⟩, fun h => h.1⟩

theorem given_none {o : Option Text} : given o = none ↔ o = none ∨ o = some [] := by
  match o with
  | none => simp [given]
  | some [] => simp [given]
  | some (c :: r) => simp [given]

theorem logName_iff (a : Args) (f : Text) : logName a = some f ↔ LogsTo a f := by
  unfold logName LogsTo
  split
  · rename_i g hg
    obtain ⟨h1, h2⟩ := given_some.mp hg
    rw [h1]
    simp only [Option.some.injEq, reduceCtorEq, false_or]
    constructor
    · rintro rfl; exact ⟨h2, .inl rfl⟩
    · rintro ⟨_, h | ⟨h, _⟩⟩
      · exact h
      · exact absurd h h2
  · rename_i hg
    rw [given_some]
    have h1 := given_none.mp hg
    constructor
    · rintro ⟨h, h0⟩; exact ⟨h0, .inr ⟨h1, h⟩⟩
    · rintro ⟨h0, h | ⟨_, h⟩⟩
      · rcases h1 with h1 | h1
        · rw [h1] at h; cases h
        · rw [h1] at h; injection h with h; exact absurd h.symm h0
      · exact ⟨h, h0⟩

theorem given_onScreen (a : Args) : given a.logFileOnly = none ↔ OnScreen a := given_none

theorem configure_ok {C : Type} {w : World C} {a : Args} (h : NoConfig w a) :
    configure w a = .ok w.config0 := by
  rcases h with h | h | ⟨f, h, hj⟩
  · simp [configure, h, given]
  · simp [configure, h, given]
  · match f with
    | [] => simp [configure, h, given]
    | c :: r => simp [configure, h, given, hj, updateConfig]

theorem configure_only {C : Type} {w : World C} {a : Args} {c : C} (h : configure w a = .ok c) :
    NoConfig w a ∧ c = w.config0 := by
  unfold configure at h
  split at h
  · rename_i hg
    injection h with h
    refine ⟨?_, h.symm⟩
    match hc : a.configJson with
    | none => exact .inl hc
    | some [] => exact .inr (.inl hc)
    | some (c :: r) => simp [hc, given] at hg
  · rename_i f hg
    have hc : a.configJson = some f := by
      match hc : a.configJson with
      | none => simp [hc, given] at hg
      | some [] => simp [hc, given] at hg
      | some (c :: r) => simpa [hc, given] using hg
    split at h
    · cases h
    · rename_i j hj
      match j with
      | .obj [] => injection h with h; exact ⟨.inr (.inr ⟨f, hc, hj⟩), h.symm⟩
      | .obj (_ :: _) => cases h
      | .other => cases h

theorem run_eq {C : Type} {w : World C} {a : Args} (hc : NoConfig w a) (ho : LogOpens w a) :
    nitfDiff w a = finish a (fileHandler a) (screenHandler a)
      (if (logName a).isSome then header w a else []) (resultOf w a) := by
  unfold nitfDiff resultOf
  rw [configure_ok hc, given_deltaOf]
  dsimp only
  match h : logName a with
  | none => simp
  | some f => simp [ho f ((logName_iff a f).mp h)]

theorem run_bad {C : Type} {w : World C} {a : Args} (h : ¬ (NoConfig w a ∧ LogOpens w a)) :
    ∃ e, nitfDiff w a = { raised := some e, status := 1 } := by
  unfold nitfDiff
  match hc : configure w a with
  | .error e => exact ⟨e, rfl⟩
  | .ok c =>
    obtain ⟨hn, _⟩ := configure_only hc
    dsimp only
    match hl : logName a with
    | none =>
      refine absurd ⟨hn, fun f hf => ?_⟩ h
      rw [(logName_iff a f).mpr hf] at hl
      cases hl
    | some f =>
      dsimp only
      match hop : w.opens f with
      | false => exact ⟨.io, by simp⟩
      | true =>
        refine absurd ⟨hn, fun g hg => ?_⟩ h
        rw [(logName_iff a g).mpr hg] at hl
        injection hl with hl
        rw [hl, hop]

theorem screenLevel_wanted (a : Args) (n : Nat) : screenLevel a ≤ n ↔ Wanted a n := by
  unfold screenLevel Wanted
  cases a.debug <;> cases a.verbose <;> cases a.quiet <;>
    simp [levelDebug, levelInfo, levelWarning]

theorem strip_of_clean {t u : Text} (h : '\x1b' ∉ t) : strip false (t ++ u) = t ++ strip false u := by
  induction t with
  | nil => rfl
  | cons c r ih =>
    simp only [List.mem_cons, not_or] at h
    have : ¬ c = '\x1b' := fun e => h.1 e.symm
    simp [strip, ih h.2, this]

theorem strip_ansi (code : String) (hc : 'm' ∉ code.toList) (u : Text) :
    strip false (ansi code ++ u) = strip false u := by
  have inner : ∀ l : Text, 'm' ∉ l → strip true (l ++ 'm' :: u) = strip false u := by
    intro l
    induction l with
    | nil => intro _; rfl
    | cons c r ih =>
      intro h
      simp only [List.mem_cons, not_or] at h
      have : (c != 'm') = true := by simpa using fun e => h.1 (Eq.symm e)
      simp only [List.cons_append, strip, this]
      exact ih h.2
  simp only [ansi, List.cons_append, List.append_assoc, List.nil_append, strip, if_true]
  exact inner _ hc

theorem strip_color {t u : Text} (n : Nat) (h : '\x1b' ∉ t) :
    strip false (colorText true t n ++ u) = t ++ strip false u := by
  unfold colorText
  simp only [Bool.not_true, Bool.false_eq_true, if_false]
  repeat' split
  all_goals first
    | exact strip_of_clean h
    | (simp only [List.append_assoc]
       rw [strip_ansi _ (by decide), strip_of_clean h, strip_ansi _ (by decide)])

theorem strip_clean {t : Text} (h : '\x1b' ∉ t) : strip false t = t := by
  have := strip_of_clean (u := []) h
  simpa [strip] using this

/-! ### Theorems -/

section
variable {C : Type} {w : World C} {a a' : Args}

/-- C76: the exit status is 0 exactly if the comparison says that the files are the same (and
nothing went wrong before); otherwise it is 1. -/
theorem C76_status :
    ((nitfDiff w a).status = 0 ↔
      NoConfig w a ∧ LogOpens w a ∧ (resultOf w a).2 = .ok true) ∧
    ((nitfDiff w a).status = 0 ∨ (nitfDiff w a).status = 1) := by
  by_cases h : NoConfig w a ∧ LogOpens w a
  · rw [run_eq h.1 h.2]
    simp only [finish]
    match hr : (resultOf w a).2 with
    | .error e => simp
    | .ok true => simp [h.1, h.2]
    | .ok false => simp
  · obtain ⟨e, he⟩ := run_bad h
    rw [he]
    exact ⟨⟨fun h0 => by simp at h0, fun h0 => absurd ⟨h0.1, h0.2.1⟩ h⟩, .inr rfl⟩

/-- C76: a run that does not end with an exception ends with status 0 if the comparison says
that the files are the same, and with 1 if it says that they differ. -/
theorem C76_verdict (h : (nitfDiff w a).raised = none) :
    ∃ same, (resultOf w a).2 = .ok same ∧ (nitfDiff w a).status = if same then 0 else 1 := by
  by_cases h0 : NoConfig w a ∧ LogOpens w a
  · rw [run_eq h0.1 h0.2] at h ⊢
    simp only [finish] at h ⊢
    match hr : (resultOf w a).2 with
    | .error e => simp [hr] at h
    | .ok true => exact ⟨true, rfl, rfl⟩
    | .ok false => exact ⟨false, rfl, rfl⟩
  · obtain ⟨e, he⟩ := run_bad h0
    rw [he] at h
    cases h

/-- C76: how the result is shown (colors, levels, log files that can be opened) does not change the
status, nor whether the program fails. -/
theorem C76_options (h : SameRequest a a') (ho : LogOpens w a) (ho' : LogOpens w a') :
    (nitfDiff w a).status = (nitfDiff w a').status ∧
    (nitfDiff w a).raised = (nitfDiff w a').raised := by
  have hn : NoConfig w a ↔ NoConfig w a' := by simp only [NoConfig, h.configJson]
  have hres : resultOf w a = resultOf w a' := by
    simp only [resultOf, deltaOf, h.file1, h.file2, h.jsonDelta, h.tre]
  by_cases hc : NoConfig w a
  · rw [run_eq hc ho, run_eq (hn.mp hc) ho', hres]
    simp only [finish]
    match (resultOf w a').2 with
    | .error e => exact ⟨rfl, rfl⟩
    | .ok true => exact ⟨rfl, rfl⟩
    | .ok false => exact ⟨rfl, rfl⟩
  · have hcfg : configure w a = configure w a' := by simp only [configure, h.configJson]
    unfold nitfDiff
    match hx : configure w a with
    | .error e => rw [← hcfg, hx]; exact ⟨rfl, rfl⟩
    | .ok c => exact absurd (configure_only hx).1 hc

/-- C76: on the screen are, in order, the records logged that the options ask for, and nothing with
`--log-file-only`. -/
theorem C76_screen (hc : NoConfig w a) (ho : LogOpens w a) :
    (OnScreen a → (nitfDiff w a).stderr =
      ((resultOf w a).1.filter fun r => decide (Wanted a r.level)).map (format (!a.noColor))) ∧
    (¬ OnScreen a → (nitfDiff w a).stderr = []) := by
  have : (nitfDiff w a).stderr = emitted (screenLevel a) (screenHandler a) (resultOf w a).1 := by
    rw [run_eq hc ho]
    simp only [finish]
    match (resultOf w a).2 with
    | .error e => rfl
    | .ok true => rfl
    | .ok false => rfl
  rw [this]
  constructor
  · intro hs
    have hg := (given_onScreen a).mpr hs
    simp only [emitted, screenHandler, hg, List.filter_filter]
    congr 2
    funext r
    rw [Bool.and_self, decide_eq_decide]
    exact screenLevel_wanted a r.level
  · intro hs
    match hg : given a.logFileOnly with
    | none => exact absurd ((given_onScreen a).mp hg) hs
    | some f => simp [emitted, screenHandler, hg]

/-- C76: the log file gets the names of the files, the records that the options ask for and that are
at least information, without color, and at the end the verdict — but see `C76_quiet_log` for
`--quiet`.  There is a log exactly when one is asked for. -/
theorem C76_log_partial (hc : NoConfig w a) (ho : LogOpens w a) :
    (∀ f, LogsTo a f → (nitfDiff w a).log = some (f, logStart w a ++
      ((resultOf w a).1.filter fun r => decide (Wanted a r.level ∧ 20 ≤ r.level)).map
        (format false) ++ logEnd w a)) ∧
    ((∀ f, ¬ LogsTo a f) → (nitfDiff w a).log = none) := by
  constructor
  · intro f hf
    have hl := (logName_iff a f).mpr hf
    have hh : header w a = logStart w a := by
      unfold header logStart
      rw [given_deltaOf]
      match deltaOf a with
      | none => rfl
      | some j => rfl
    have he : emitted (screenLevel a) (fileHandler a) (resultOf w a).1 =
        ((resultOf w a).1.filter fun r => decide (Wanted a r.level ∧ 20 ≤ r.level)).map
          (format false) := by
      simp only [emitted, fileHandler, hl, Option.map_some, List.filter_filter, levelInfo]
      congr 2
      funext r
      rw [← Bool.decide_and, decide_eq_decide, screenLevel_wanted, and_comm]
    rw [run_eq hc ho]
    simp only [finish, hl, Option.isSome_some, if_true, Option.map_some, he, hh, logEnd]
    match (resultOf w a).2 with
    | .error e => simp
    | .ok true => cases a.quiet <;> simp
    | .ok false => simp
  · intro hf
    have hl : logName a = none := by
      match h : logName a with
      | none => rfl
      | some f => exact absurd ((logName_iff a f).mp h) (hf f)
    rw [run_eq hc ho]
    simp only [finish, hl, Option.map_none]
    match (resultOf w a).2 with
    | .error e => rfl
    | .ok true => rfl
    | .ok false => rfl

/-- C76: without `--quiet` exactly one line is printed, the verdict; nothing when the program
fails. -/
theorem C76_printed (hc : NoConfig w a) (ho : LogOpens w a) (hq : a.quiet = false) :
    (nitfDiff w a).stdout.map (strip false) =
      match (resultOf w a).2 with
      | .error _ => []
      | .ok false => ["Files are different".toList]
      | .ok true => ["Files are the same".toList] := by
  rw [run_eq hc ho]
  simp only [finish, hq]
  match (resultOf w a).2 with
  | .error e => rfl
  | .ok true =>
    show [strip false (colorText (!a.noColor) "Files are the same".toList levelDetail)] = _
    cases a.noColor <;> decide +kernel
  | .ok false =>
    show [strip false (colorText (!a.noColor) "Files are different".toList levelError)] = _
    cases a.noColor <;> decide +kernel

/-- C76: with `--quiet` (and neither `--debug` nor `--verbose`) nothing is printed, on stdout or
stderr, whatever the comparison logs below level 1000. -/
theorem C76_quiet (hq : a.quiet = true) (hd : a.debug = false) (hv : a.verbose = false)
    (hl : ∀ r ∈ (resultOf w a).1, r.level < 1000) :
    (nitfDiff w a).stdout = [] ∧ (nitfDiff w a).stderr = [] := by
  by_cases h : NoConfig w a ∧ LogOpens w a
  · have he : (nitfDiff w a).stderr = [] := by
      by_cases hs : OnScreen a
      · rw [(C76_screen h.1 h.2).1 hs, List.map_eq_nil_iff, List.filter_eq_nil_iff]
        intro r hr
        have := hl r hr
        simp [Wanted, hq, hd, hv]
        omega
      · exact (C76_screen h.1 h.2).2 hs
    refine ⟨?_, he⟩
    rw [run_eq h.1 h.2]
    simp only [finish, hq]
    match (resultOf w a).2 with
    | .error e => rfl
    | .ok true => rfl
    | .ok false => rfl
  · obtain ⟨e, he⟩ := run_bad h
    rw [he]
    exact ⟨rfl, rfl⟩

/-- C76: colors are decoration: without them a line of the screen is the line of the log file. -/
theorem C76_color {r : Record} (h : r.Clean) : strip false (format true r) = format false r := by
  obtain ⟨h1, h2, h3⟩ := h
  have hp : ∀ p : String, '\x1b' ∉ p.toList →
      '\x1b' ∉ ctxText r ++ p.toList := by
    intro p hp
    unfold ctxText
    match hc : r.ctx with
    | none => simpa using hp
    | some c =>
      have := h3 c hc
      simp only [List.mem_append, not_or]
      exact ⟨⟨this, by decide⟩, hp⟩
  unfold format
  split
  · rw [strip_color _ (hp "Difference found: " (by decide)), strip_clean h1]; simp [colorText]
  split
  · rw [List.append_assoc, strip_color _ (hp "Difference found, but ignored: " (by decide)),
      strip_of_clean h1,
      strip_clean (by decide)]
    simp [colorText]
  split
  · have : '\x1b' ∉ "      - ".toList ++ r.msg := by
      simp only [List.mem_append, not_or]
      exact ⟨by decide, h1⟩
    have h4 := strip_color (u := []) levelDetail this
    simp only [List.append_nil, strip] at h4
    rw [h4]
    simp [colorText]
  · have : '\x1b' ∉ r.name ++ ": ".toList := by
      simp only [List.mem_append, not_or]
      exact ⟨h2, by decide⟩
    rw [strip_color _ this, strip_clean h1]
    simp [colorText]

/-- C76: the log file and the screen tell the same, but for `--debug`, which shows more on the
screen: without it, the lines of the log file between the names and the verdict are those of the
screen without color. -/
theorem C76_screen_log {f : Text} (hc : NoConfig w a) (ho : LogOpens w a) (hs : OnScreen a)
    (hf : LogsTo a f) (hd : a.debug = false) (hcl : ∀ r ∈ (resultOf w a).1, r.Clean) :
    (nitfDiff w a).log =
      some (f, logStart w a ++ (nitfDiff w a).stderr.map (strip false) ++ logEnd w a) := by
  rw [(C76_log_partial hc ho).1 f hf]
  congr 3
  rw [(C76_screen hc ho).1 hs]
  have hw : ∀ n, Wanted a n ∧ 20 ≤ n ↔ Wanted a n := by
    intro n
    refine ⟨fun h => h.1, fun h => ⟨h, ?_⟩⟩
    rcases h with h | h | h | h
    · rw [hd] at h; cases h.1
    · omega
    · omega
    · omega
  simp only [hw, List.map_map]
  refine congrArg (logStart w a ++ ·) (List.map_congr_left fun r hr => ?_)
  have := hcl r (List.mem_filter.mp hr).1
  cases a.noColor
  · exact (C76_color this).symm
  · have := C76_color this
    simp only [Function.comp, Bool.not_true]
    rw [← this]
    have hcl2 : '\x1b' ∉ strip false (format true r) → strip false (strip false (format true r)) =
      strip false (format true r) := strip_clean
    refine (hcl2 ?_).symm
    have aux : ∀ (b : Bool) (t : Text), '\x1b' ∉ strip b t := by
      intro b t
      induction t generalizing b with
      | nil => cases b <;> simp [strip]
      | cons c r ih =>
        cases b
        · unfold strip
          split
          · exact ih true
          · rename_i hne
            simp only [List.mem_cons, not_or]
            exact ⟨fun e => hne e.symm, ih false⟩
        · unfold strip; exact ih _
    exact aux _ _

end

/-! ### The lines -/

/-- C76: what the lines are without color: a difference, a difference that does not count, and
a warning are told apart by their text, and the first two name their context. -/
theorem C76_lines (c m n : Text) :
    format false ⟨39, n, some c, m⟩ = c ++ ": Difference found: ".toList ++ m ∧
    format false ⟨38, n, some c, m⟩ = c ++ ": Difference found, but ignored: ".toList ++ m ++
      " (not considering files different)".toList ∧
    format false ⟨21, n, some c, m⟩ = "      - ".toList ++ m ∧
    format false ⟨30, n, some c, m⟩ = n ++ ": ".toList ++ m := by
  simp [format, ctxText, colorText, levelFound, levelIgnored, levelDetail]

/-! ### With the comparison of C73 -/

/-- The number and name of a level of `LogLevel` (nitf_diff_handle.py:24-25, logging.WARNING;
`logging.getLevelName`). -/
def levelNo : LogLevel → Nat × Text
  | .found => (39, "Level 39".toList)
  | .ignored => (38, "Level 38".toList)
  | .warning => (30, "WARNING".toList)

/-- What is logged is what `log` says, plus details of level below WARNING; `text` are the texts of
the messages. -/
def Renders (text : LogMsg → Text) (log : List LogLine) (rs : List Record) : Prop :=
  (rs.filter fun r => decide (30 ≤ r.level)) =
    log.map fun l => ⟨(levelNo l.msg.level).1, (levelNo l.msg.level).2, some l.ctx, text l.msg⟩

/-- C76: if what the program compares are two files, with the handlers registered by default, then
without options it ends with status 1 exactly if one of the lines on the screen is that of a
difference found, and the lines on the screen are those logged by the comparison. -/
theorem C76_found {P : PyFloat} {it : IterOrder (DHandle LeafHandle)}
    {hp : Heap (DHandle LeafHandle)} {o : HandleSet} {cfg : FileDiffConfig P}
    {skip : List (DObj (Leaf P) → Bool)} {shown : Val P.F → List Char} {f1 f2 : DFile (Leaf P)}
    {s' : LogSt} {same : Bool} {text : LogMsg → Text}
    (h : compareLog it hp o (defaultLogEnv P cfg skip shown) (.file f1) (.file f2) LogSt.start =
      .ok (same, s'))
    {C : Type} {w : World C} {a : Args} (hc : NoConfig w a) (ho : LogOpens w a)
    (hs : OnScreen a) (hd : a.debug = false) (hv : a.verbose = false) (hq : a.quiet = false)
    (hr : (resultOf w a).2 = .ok same) (hl : Renders text s'.log (resultOf w a).1) :
    ((nitfDiff w a).status = 1 ↔ ∃ l ∈ s'.log, l.Found) ∧
    (nitfDiff w a).stderr = s'.log.map fun l => format (!a.noColor)
      ⟨(levelNo l.msg.level).1, (levelNo l.msg.level).2, some l.ctx, text l.msg⟩ := by
  obtain ⟨_, new, ⟨_, hn⟩, hlog⟩ := C73_default_partial h
  have hn' : s'.log = new := by rw [hn]; rfl
  constructor
  · rw [run_eq hc ho]
    simp only [finish, hr]
    rw [hn', ← hlog.honest]
    cases same <;> simp
  · rw [(C76_screen hc ho).1 hs]
    have : (fun r : Record => decide (Wanted a r.level)) = fun r => decide (30 ≤ r.level) := by
      funext r
      simp [Wanted, hd, hv, hq]
    rw [this, hl, List.map_map]
    rfl

/-! ### Cases -/

/-- A world in which the comparison logs a difference, a detail and a warning. -/
def exWorld (same : Bool) : World Unit where
  config0 := ()
  json f := if f = "e.json".toList then .ok (.obj []) else
    if f = "c.json".toList then .ok (.obj [("exclude".toList, "x".toList)]) else .error .io
  opens _ := true
  abspath f := '/' :: f
  compare _ _ _ _ _ :=
    ([⟨39, "Level 39".toList, some "File level".toList, "fhdr: 1 != 2".toList⟩,
      ⟨21, "Level 21".toList, some "File level".toList, "x[1]: 1 != 2".toList⟩,
      ⟨30, "WARNING".toList, some "File level".toList, "Skipping".toList⟩], .ok same)

/-- The arguments `a b`. -/
def exArgs : Args := { file1 := ['a'], file2 := ['b'] }

example : NoConfig (exWorld false) exArgs ∧ LogOpens (exWorld false) exArgs ∧ OnScreen exArgs :=
  ⟨.inl rfl, fun _ _ => rfl, .inl rfl⟩

example : nitfDiff (exWorld false) { exArgs with noColor := true, logFile := some ['l'] } =
    { stdout := ["Files are different".toList]
      stderr := ["File level: Difference found: fhdr: 1 != 2".toList, "WARNING: Skipping".toList]
      log := some (['l'], ["Comparing file 1: /a".toList, "Comparing file 2: /b".toList,
        "File level: Difference found: fhdr: 1 != 2".toList, "WARNING: Skipping".toList,
        "Files are different".toList])
      status := 1 } := by decide +kernel

example : (nitfDiff (exWorld true)
    { exArgs with verbose := true, logFileOnly := some ['l'], configJson := some "e.json".toList }) =
    { stdout := ["\x1b[94mFiles are the same\x1b[0m".toList]
      stderr := []
      log := some (['l'], ["Comparing file 1: /a".toList, "Comparing file 2: /b".toList,
        "File level: Difference found: fhdr: 1 != 2".toList, "      - x[1]: 1 != 2".toList,
        "WARNING: Skipping".toList, "Files are the same".toList])
      status := 0 } := by decide +kernel

/-- C76_found: the comparison of two files with different TREs, as in C73. -/
def exFile (b : UInt8) : DFile (Leaf P0) := file0 [.treUnknown ['A'] [b]] []

example :
    compareLog (fun _ l => l) defaultSet.1 defaultSet.2
      (defaultLogEnv P0 cfg0 [] fun _ => []) (.file (exFile 65)) (.file (exFile 66)) .start =
      .ok (false, ⟨"File level".toList, [⟨"File level".toList, .bytes⟩]⟩) ∧
    Renders (fun _ => "TREs bytes don't match".toList) [⟨"File level".toList, .bytes⟩]
      [⟨39, "Level 39".toList, some "File level".toList, "TREs bytes don't match".toList⟩,
       ⟨21, "Level 21".toList, some "File level".toList, "a detail".toList⟩] :=
  ⟨by decide +kernel, by unfold Renders; decide +kernel⟩

/-- C76 violated ("Give a path for the logs to be written to"): with `--quiet` the log file does
not get the verdict that the files are the same, though it gets that they differ; and it gets none
of the differences. -/
theorem C76_quiet_log :
    (nitfDiff (exWorld true) { exArgs with quiet := true, logFile := some ['l'] }).log =
      some (['l'], ["Comparing file 1: /a".toList, "Comparing file 2: /b".toList]) ∧
    (nitfDiff (exWorld false) { exArgs with quiet := true, logFile := some ['l'] }).log =
      some (['l'], ["Comparing file 1: /a".toList, "Comparing file 2: /b".toList,
        "Files are different".toList]) := by decide +kernel

/-- C76 violated ("a JSON file can be supplied.  This provides a configuration hash that is merged
in"): whatever configuration a JSON file holds, unless it is empty, the program fails before it
compares anything, with the status of files that differ. -/
theorem C76_config_fails {C : Type} {w : World C} {a : Args} {f : Text} {k v : Text}
    {items : List (Text × Text)} (hf : a.configJson = some f) (h0 : f ≠ [])
    (hj : w.json f = .ok (.obj ((k, v) :: items))) :
    nitfDiff w a = { raised := some .name, status := 1 } := by
  match f, h0 with
  | c :: r, _ => simp [nitfDiff, configure, hf, given, hj, updateConfig]

example : nitfDiff (exWorld true) { exArgs with configJson := some "c.json".toList } =
    { raised := some .name, status := 1 } := by decide +kernel

end DiffProg
end Verif
