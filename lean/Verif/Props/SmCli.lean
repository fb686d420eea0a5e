import Verif.Spec.SmCli
import Verif.Props.Tools
import Verif.Lemmas.AMap
/-
C91: `sm-cli` as a program, and `sm-cli info`.
-/
namespace Verif.SmCli
open Verif.Tool

section prog
variable {P S T τ G B : Type} [LinearOrder τ] [SMul G P]

theorem readMap_ok_iff (e : Env P S T τ G B) (f : String) (sm : List (Key P S T)) : readMap e f = .ok sm ↔ e.readMap f = some sm := by
  unfold readMap; rcases e.readMap f with _ | x <;> simp

theorem saving_out {α : Type} (e : Env P S T τ G B) (path : String) (o : Outcome α) (c : α → Content P S T τ) :
    ((caught (saving e path o c)).out = .ok 0 ↔ ∃ x, o = .ok x) ∧
    (∀ x, o = .ok x → (caught (saving e path o c)).writes = if e.canWrite path then [(path, c x)] else []) ∧
    ((∀ x, o ≠ .ok x) → (caught (saving e path o c)).writes = []) := by
  rcases o with x | _ | _ <;> simp [saving, caught]

/-- C91: exit codes without a command: a command line that cannot be parsed, no command or an unknown one: 1; `--version`: 0; nothing is written.
(finding) Also `sm-cli --help`, which the usage text lists: 1. -/
theorem smcli_dispatch (e : Env P S T τ G B) (a : Args B) :
    (main e false a).out = .ok 1 ∧ (main e false a).writes = [] ∧
    (a.version = true → (main e true a).out = .ok 0 ∧ (main e true a).writes = []) ∧
    (a.version = false → (a.cmds = [] ∨ ∃ c cs, a.cmds = c :: cs ∧ c ∉ ["help", "info", "export-keyframes", "export-rawlog", "cut", "level", "trim", "join", "tf"]) →
      (main e true a).out = .ok 1 ∧ (main e true a).writes = []) := by
  refine ⟨rfl, rfl, fun h => by simp [main, h], ?_⟩
  rintro hv (h | ⟨c, cs, h, hc⟩)
  · simp [main, hv, h]
  · simp only [List.mem_cons, List.not_mem_nil, or_false, not_or] at hc
    simp [main, hv, h, lookup, hc]

/-- C91: `--help` with a known command: usage, exit code 0, nothing read or written. -/
theorem smcli_help (e : Env P S T τ G B) (a : Args B) (c : String) (cs : List String) (hv : a.version = false) (hh : a.help = true) (h : a.cmds = c :: cs)
    (hc : c ∈ ["help", "info", "export-keyframes", "export-rawlog", "cut", "level", "trim", "join", "tf"]) :
    (main e true a).out = .ok 0 ∧ (main e true a).writes = [] := by
  simp only [List.mem_cons, List.not_mem_nil, or_false] at hc
  rcases hc with rfl | rfl | rfl | rfl | rfl | rfl | rfl | rfl | rfl <;>
    simp [main, hv, h, lookup, caught, hh, usage, cmdInfo, cmdCut, cmdJoin, cmdTrim, cmdTf, cmdLevel, cmdExportKF, cmdExportRawlog]

theorem join_ok_iff (files : List (Option (List (Key P S T)))) (out : List (Key P S T)) :
    join [] files = .ok out ↔ ∃ sms : List (List (Key P S T)), files = sms.map some ∧ out = sms.flatten := by
  constructor
  · intro h
    by_cases hn : none ∈ files
    · rw [Verif.Props.join_unreadable files hn] at h; cases h
    · have : ∃ sms : List (List (Key P S T)), files = sms.map some := by
        clear h
        induction files with
        | nil => exact ⟨[], rfl⟩
        | cons f fs ih =>
          obtain ⟨sms, rfl⟩ := ih (fun h => hn (by simp [h]))
          rcases f with _ | f
          · simp at hn
          · exact ⟨f :: sms, rfl⟩
      obtain ⟨sms, rfl⟩ := this
      rw [Verif.Props.join_result] at h
      cases h
      exact ⟨sms, rfl, rfl⟩
  · rintro ⟨sms, rfl, rfl⟩
    exact Verif.Props.join_result sms

theorem twistRows_ok (l : List (Key P (List (Tool.Obs τ)) T)) : ∀ s s' : ExpSt τ P T, foldOutcome exportStep s l = .ok s' → twistRows s l = s'.twists := by
  induction l with
  | nil => intro s s' h; simp only [foldOutcome] at h; cases h; rfl
  | cons k l ih =>
    intro s s' h
    simp only [foldOutcome] at h
    obtain ⟨s1, h1, h2⟩ := Outcome.bind_eq_ok.1 h
    rw [twistRows, h1]
    exact ih s1 s' h2

/-- C91: a valid call of a command that writes a file ends with exit code 0, and if the file can be written it is, as the command says (`export-keyframes`
may write the twists too, before). -/
theorem smcli_done (e : Env P S T τ G B) (a : Args B) (hv : a.version = false) (hh : a.help = false) (path : String) (c : Content P S T τ)
    (h : Computes e a path c) :
    (main e true a).out = .ok 0 ∧ ∃ tw, (main e true a).writes = tw ++ (if e.canWrite path then [(path, c)] else []) ∧
      (a.outputTwist = "" ∨ a.cmds.head? ≠ some "export-keyframes" → tw = []) ∧
      (∀ st sm file, a.cmds = ["export-keyframes", file] → e.readMap file = some sm → exportKfs (keysObs e sm) = .ok st →
        a.outputTwist ≠ "" → e.canWrite a.outputTwist = true → tw = [(a.outputTwist, .twists st.twists)]) := by
  cases h with
  | cut h1 h2 h3 h4 h5 h6 =>
    simp [main, hv, h1, lookup, cmdCut, hh, h2, h3, h4, readMap, h5, h6, saving, caught]
  | join h1 h2 h3 =>
    rename_i f1 fs sms
    have := (join_ok_iff _ _).2 ⟨_, h3, rfl⟩
    have hc : cmdJoin e a = ⟨if e.canWrite path then [(path, .simplemap sms.flatten)] else [], .ok 0⟩ := by
      unfold cmdJoin
      rw [hh, h1, h2]
      simp only [Bool.false_eq_true, if_false]
      rw [this]
      rfl
    simp [main, hv, h1, lookup, hc, caught]
  | trim h1 h2 h3 h4 h5 h6 =>
    simp [main, hv, h1, lookup, cmdTrim, hh, h2, h3, h4, readMap, h5, h6, saving, caught]
  | tf h1 h2 h3 h4 =>
    rename_i sm out
    have hne : sm ≠ [] := by
      rintro rfl; simp [tf, Outcome.assert] at h4
    simp [main, hv, h1, lookup, cmdTf, hh, h2, readMap, h3, h4, saving, caught, Outcome.assert, hne]
  | level h1 h2 h3 =>
    simp [main, hv, h1, lookup, cmdLevel, hh, h2, readMap, h3, saving, caught]
  | exportKF h1 h2 h3 h4 =>
    rename_i file sm st
    have ht := twistRows_ok (keysObs e sm) {} st h4
    have hm : main e true a = ⟨(if a.outputTwist ≠ "" ∧ e.canWrite a.outputTwist = true then [(a.outputTwist, Content.twists (twistRows {} (keysObs e sm)))] else []) ++
        (if e.canWrite path then [(path, .tum st.traj)] else []), .ok 0⟩ := by
      simp [main, hv, h1, lookup, cmdExportKF, hh, h2, h3, h4, saving, caught]
    rw [hm]
    refine ⟨rfl, (if a.outputTwist ≠ "" ∧ e.canWrite a.outputTwist = true then [(a.outputTwist, Content.twists (twistRows {} (keysObs e sm)))] else []), rfl, ?_, ?_⟩
    · rintro (h | h)
      · simp [h]
      · simp [h1] at h
    · intro st' sm' file' e1 e2 e3 e4 e5
      rw [h1] at e1; cases e1
      rw [h3] at e2; cases e2
      rw [h4] at e3; cases e3
      rw [if_pos ⟨e4, e5⟩, ht]
  | exportRawlog h1 h2 h3 h4 =>
    simp [main, hv, h1, lookup, cmdExportRawlog, hh, h2, readMap, h3, h4, saving, caught]

theorem caught_usage (b : Bool) : (caught (usage b : R P S T τ)).out = .ok (if b then 1 else 0) ∧ (caught (usage b : R P S T τ)).writes = [] := by
  simp [caught, usage]

theorem lookup_cases (c : String) (f : Env P S T τ G B → Args B → R P S T τ) (h : lookup c = some f) :
    (c = "help" ∧ f = fun _ _ => ⟨[], .ok 0⟩) ∨ (c = "info" ∧ f = cmdInfo) ∨ (c = "export-keyframes" ∧ f = cmdExportKF) ∨ (c = "export-rawlog" ∧ f = cmdExportRawlog) ∨
    (c = "cut" ∧ f = cmdCut) ∨ (c = "level" ∧ f = cmdLevel) ∨ (c = "trim" ∧ f = cmdTrim) ∨ (c = "join" ∧ f = cmdJoin) ∨ (c = "tf" ∧ f = cmdTf) := by
  unfold lookup at h
  split at h
  · cases h; simp [*]
  split at h
  · cases h; simp [*]
  split at h
  · cases h; simp [*]
  split at h
  · cases h; simp [*]
  split at h
  · cases h; simp [*]
  split at h
  · cases h; simp [*]
  split at h
  · cases h; simp [*]
  split at h
  · cases h; simp [*]
  split at h
  · cases h; simp [*]
  · cases h

/-- what a command does is one of: usage (1), or the computation of a valid call -/
theorem smcli_command_aux (e : Env P S T τ G B) (a : Args B) (hh : a.help = false) (c : String) (cs : List String) (hcs : a.cmds = c :: cs)
    (f : Env P S T τ G B → Args B → R P S T τ) (hf : lookup c = some f) (hne : c ≠ "help" ∧ c ≠ "info") :
    ((caught (f e a)).out = .ok 0 → ∃ path x, Computes e a path x) ∧
    ((caught (f e a)).out ≠ .ok 0 → c ≠ "export-keyframes" ∨ a.outputTwist = "" → (caught (f e a)).writes = []) := by
  rcases lookup_cases c f hf with ⟨rfl, rfl⟩ | ⟨rfl, rfl⟩ | ⟨rfl, rfl⟩ | ⟨rfl, rfl⟩ | ⟨rfl, rfl⟩ | ⟨rfl, rfl⟩ | ⟨rfl, rfl⟩ | ⟨rfl, rfl⟩ | ⟨rfl, rfl⟩
  · exact absurd rfl hne.1
  · exact absurd rfl hne.2
  · -- export-keyframes
    unfold cmdExportKF
    rw [hh]; simp only [Bool.false_eq_true, if_false]
    split
    · rename_i x file o h1 h2
      rw [hcs] at h1; cases h1
      rcases hr : e.readMap file with _ | sm
      · simp [caught]
      · simp only [caught, saving]
        rcases hx : exportKfs (keysObs e sm) with st | _ | _
        · exact ⟨fun _ => ⟨_, _, .exportKF hcs h2 hr hx⟩, fun h => absurd rfl h⟩
        · simp
          intro h; rw [h]; simp
        · simp
          intro h; rw [h]; simp
    · simp [caught_usage]
  · unfold cmdExportRawlog
    rw [hh]; simp only [Bool.false_eq_true, if_false]
    split
    · rename_i x file o h1 h2
      rw [hcs] at h1; cases h1
      obtain ⟨s1, _, s3⟩ := saving_out e o ((readMap e file).bind fun sm => exportRawlog (keysObs e sm)) Content.rawlog
      constructor
      · intro h
        obtain ⟨out, ho⟩ := s1.1 h
        obtain ⟨sm, r1, r2⟩ := Outcome.bind_eq_ok.1 ho
        exact ⟨_, _, .exportRawlog hcs h2 ((readMap_ok_iff _ _ _).1 r1) r2⟩
      · intro h _; exact s3 (fun x hx => h (s1.2 ⟨x, hx⟩))
    · simp [caught_usage]
  · unfold cmdCut
    rw [hh]; simp only [Bool.false_eq_true, if_false]
    split
    · rename_i x file f t o h1 h2 h3 h4
      rw [hcs] at h1; cases h1
      obtain ⟨s1, _, s3⟩ := saving_out e o ((readMap e file).bind fun sm => cut sm f t) Content.simplemap
      constructor
      · intro h
        obtain ⟨out, ho⟩ := s1.1 h
        obtain ⟨sm, r1, r2⟩ := Outcome.bind_eq_ok.1 ho
        exact ⟨_, _, .cut hcs h2 h3 h4 ((readMap_ok_iff _ _ _).1 r1) r2⟩
      · intro h _; exact s3 (fun x hx => h (s1.2 ⟨x, hx⟩))
    · simp [caught_usage]
  · unfold cmdLevel
    rw [hh]; simp only [Bool.false_eq_true, if_false]
    split
    · rename_i x file o h1
      rw [hcs] at h1; cases h1
      obtain ⟨s1, _, s3⟩ := saving_out e o ((readMap e file).bind fun sm => level e.opt sm) Content.simplemap
      constructor
      · intro h
        obtain ⟨out, ho⟩ := s1.1 h
        obtain ⟨sm, r1, r2⟩ := Outcome.bind_eq_ok.1 ho
        exact ⟨_, _, .level hcs ((readMap_ok_iff _ _ _).1 r1) r2⟩
      · intro h _; exact s3 (fun x hx => h (s1.2 ⟨x, hx⟩))
    · simp [caught_usage]
  · unfold cmdTrim
    rw [hh]; simp only [Bool.false_eq_true, if_false]
    split
    · rename_i x file c1 c2 o h1 h2 h3 h4
      rw [hcs] at h1; cases h1
      obtain ⟨s1, _, s3⟩ := saving_out e o (c1.bind fun lo => c2.bind fun hi => (readMap e file).bind fun sm => trim (e.inBox lo hi) sm) Content.simplemap
      constructor
      · intro h
        obtain ⟨out, ho⟩ := s1.1 h
        obtain ⟨lo, q1, ho⟩ := Outcome.bind_eq_ok.1 ho
        obtain ⟨hi, q2, ho⟩ := Outcome.bind_eq_ok.1 ho
        obtain ⟨sm, r1, r2⟩ := Outcome.bind_eq_ok.1 ho
        subst q1 q2
        exact ⟨_, _, .trim hcs h2 h3 h4 ((readMap_ok_iff _ _ _).1 r1) r2⟩
      · intro h _; exact s3 (fun x hx => h (s1.2 ⟨x, hx⟩))
    · simp [caught_usage]
  · unfold cmdJoin
    rw [hh]; simp only [Bool.false_eq_true, if_false]
    split
    · rename_i x f1 fs o h1 h2
      rw [hcs] at h1; cases h1
      obtain ⟨s1, _, s3⟩ := saving_out e o (join [] ((f1 :: fs).map e.readMap)) Content.simplemap
      constructor
      · intro h
        obtain ⟨out, ho⟩ := s1.1 h
        obtain ⟨sms, r1, r2⟩ := (join_ok_iff _ _).1 ho
        exact ⟨_, _, .join hcs h2 r1⟩
      · intro h _; exact s3 (fun x hx => h (s1.2 ⟨x, hx⟩))
    · simp [caught_usage]
  · unfold cmdTf
    rw [hh]; simp only [Bool.false_eq_true, if_false]
    split
    · rename_i x file o str h1
      rw [hcs] at h1; cases h1
      obtain ⟨s1, _, s3⟩ := saving_out e o ((readMap e file).bind fun sm => (Outcome.assert (sm ≠ [])).bind fun _ => (e.parsePose str).bind fun g => tf g sm) Content.simplemap
      constructor
      · intro h
        obtain ⟨out, ho⟩ := s1.1 h
        obtain ⟨sm, r1, ho⟩ := Outcome.bind_eq_ok.1 ho
        obtain ⟨_, _, ho⟩ := Outcome.bind_eq_ok.1 ho
        obtain ⟨g, r2, r3⟩ := Outcome.bind_eq_ok.1 ho
        exact ⟨_, _, .tf hcs r2 ((readMap_ok_iff _ _ _).1 r1) r3⟩
      · intro h _; exact s3 (fun x hx => h (s1.2 ⟨x, hx⟩))
    · simp [caught_usage]

/-- C91: exit code 0 (without `--version` and `--help`, and for commands other than `help` and `info`) means that a valid call was computed. -/
theorem smcli_success_only_if (e : Env P S T τ G B) (a : Args B) (hv : a.version = false) (hh : a.help = false)
    (hc : a.cmds.head? ≠ some "help" ∧ a.cmds.head? ≠ some "info") (h : (main e true a).out = .ok 0) : ∃ path c, Computes e a path c := by
  unfold main at h
  rw [hv] at h
  rcases hcs : a.cmds with _ | ⟨c, cs⟩
  · simp [hcs] at h
  · simp only [hcs, List.head?_cons, ne_eq, Option.some.injEq] at hc h
    rcases hl : lookup (P := P) (S := S) (T := T) (τ := τ) (G := G) (B := B) c with _ | f
    · simp [hl] at h
    · simp only [hl, Bool.true_eq_false, if_false, Bool.false_eq_true] at h
      exact (smcli_command_aux e a hh c cs hcs f hl hc).1 h

/-- C91 (partial): if the exit code is not 0, nothing has been written, but for `export-keyframes` with a twist file. -/
theorem smcli_failure_writes_nothing_partial (e : Env P S T τ G B) (parsed : Bool) (a : Args B) (h : (main e parsed a).out ≠ .ok 0)
    (ht : a.cmds.head? ≠ some "export-keyframes" ∨ a.outputTwist = "") : (main e parsed a).writes = [] := by
  cases parsed
  · rfl
  · rcases hv : a.version with _ | _
    · rcases hcs : a.cmds with _ | ⟨c, cs⟩
      · exact ((smcli_dispatch e a).2.2.2 hv (Or.inl hcs)).2
      · simp only [hcs, List.head?_cons, ne_eq, Option.some.injEq] at ht
        rcases hh : a.help with _ | _
        · simp only [main, hv, hcs] at h ⊢
          rcases hl : lookup (P := P) (S := S) (T := T) (τ := τ) (G := G) (B := B) c with _ | f
          · simp
          · simp only [hl, Bool.true_eq_false, if_false, Bool.false_eq_true] at h ⊢
            by_cases h1 : c = "help"
            · subst h1
              rcases lookup_cases _ f hl with ⟨_, rfl⟩ | ⟨h, _⟩ | ⟨h, _⟩ | ⟨h, _⟩ | ⟨h, _⟩ | ⟨h, _⟩ | ⟨h, _⟩ | ⟨h, _⟩ | ⟨h, _⟩
              · rfl
              all_goals exact absurd h (by decide)
            · by_cases h2 : c = "info"
              · subst h2
                rcases lookup_cases _ f hl with ⟨h, _⟩ | ⟨_, rfl⟩ | ⟨h, _⟩ | ⟨h, _⟩ | ⟨h, _⟩ | ⟨h, _⟩ | ⟨h, _⟩ | ⟨h, _⟩ | ⟨h, _⟩
                · exact absurd h (by decide)
                · unfold cmdInfo
                  rw [hh]; simp only [Bool.false_eq_true, if_false]
                  split
                  · simp only [caught]; split <;> rfl
                  · exact (caught_usage true).2
                all_goals exact absurd h (by decide)
              · exact (smcli_command_aux e a hh c cs hcs f hl ⟨h1, h2⟩).2 h ht
        · by_cases hm : c ∈ ["help", "info", "export-keyframes", "export-rawlog", "cut", "level", "trim", "join", "tf"]
          · exact (smcli_help e a c cs hv hh hcs hm).2
          · exact ((smcli_dispatch e a).2.2.2 hv (Or.inr ⟨c, cs, hcs, hm⟩)).2
    · exact ((smcli_dispatch e a).2.2.1 hv).2

/-- C91 (finding): if the output file cannot be written, the exit code is 0 all the same, and nothing is written. -/
theorem smcli_unwritable_unreported (e : Env P S T τ G B) (a : Args B) (hv : a.version = false) (hh : a.help = false) (path : String) (c : Content P S T τ)
    (h : Computes e a path c) (ht : a.outputTwist = "") (hw : e.canWrite path = false) :
    (main e true a).out = .ok 0 ∧ (main e true a).writes = [] := by
  obtain ⟨h1, tw, h2, h3, _⟩ := smcli_done e a hv hh path c h
  refine ⟨h1, ?_⟩
  rw [h2, h3 (Or.inl ht), hw]; rfl

/-- C91 (finding): `export-keyframes` on a map with a keyframe without observations fails (exit code 1), leaving behind a twist file with the
rows of the keyframes before it. -/
theorem smcli_twists_left (e : Env P S T τ G B) (a : Args B) (hv : a.version = false) (hh : a.help = false) (file path : String) (sm : List (Key P S T))
    (h1 : a.cmds = ["export-keyframes", file]) (h2 : a.output = some path) (h3 : e.readMap file = some sm) (h4 : exportKfs (keysObs e sm) = .throw)
    (ht : a.outputTwist ≠ "") (hw : e.canWrite a.outputTwist = true) :
    (main e true a).out = .ok 1 ∧ (main e true a).writes = [(a.outputTwist, .twists (twistRows {} (keysObs e sm)))] := by
  simp [main, hv, h1, lookup, cmdExportKF, hh, h2, h3, h4, saving, caught, ht, hw]

end prog

/-- an environment: two maps; poses are integers, transformations too -/
def demoEnv (w : Bool) : Env ℤ (List (Tool.Obs Nat)) Nat Nat (Multiplicative ℤ) Nat where
  readMap := fun f => if f = "a" then some [⟨some 1, some [some (some 5)], some 8⟩, ⟨some 2, some [none, some (some 6)], none⟩]
    else if f = "b" then some [⟨some 1, some [some (some 5)], some 8⟩, ⟨some 3, none, none⟩] else none
  canWrite := fun _ => w
  inBox := fun lo hi p => decide ((lo : ℤ) ≤ p ∧ p ≤ (hi : ℤ))
  parsePose := fun s => if s = "7" then .ok (Multiplicative.ofAdd 7) else .throw
  opt := fun _ => Multiplicative.ofAdd 0
  obs := id
  infoOf := fun _ => .ok ()
instance : SMul (Multiplicative ℤ) ℤ := ⟨fun g p => g.toAdd + p⟩

example : Computes (demoEnv true) { cmds := ["cut", "a"], from_ := some 1, to_ := some 1, output := some "o" } "o" (.simplemap [⟨some 2, some [none, some (some 6)], none⟩]) :=
  .cut rfl rfl rfl rfl rfl (by decide +kernel)
example : (main (demoEnv false) true { cmds := ["cut", "a"], from_ := some 1, to_ := some 1, output := some "o" }).out = .ok 0 := by decide +kernel
example : (main (demoEnv true) true { cmds := ["export-keyframes", "b"], output := some "o", outputTwist := "t" }).out = .ok 1 ∧
    (main (demoEnv true) true { cmds := ["export-keyframes", "b"], output := some "o", outputTwist := "t" }).writes.map (·.1) = ["t"] := by decide +kernel
example : (main (demoEnv true) true { cmds := [], help := true }).out = .ok 1 ∧ (main (demoEnv true) true { cmds := ["cut"], help := true }).out = .ok 0 ∧
    (main (demoEnv true) true { cmds := ["tf", "a", "o", "x"] }).out = .ok 1 ∧ (main (demoEnv true) true { cmds := ["tf", "a", "o", "7"] }).out = .ok 0 := by decide +kernel

/-! ### `info` -/

section info
variable {P K τ T : Type} [LinearOrder K] [LinearOrder τ]

theorem leastOf_step {α : Type} [LinearOrder α] (l : List α) (b : Option α) (t : α) (h : LeastOf l b) : LeastOf (l ++ [t]) (earlier b t) := by
  obtain ⟨h1, h2⟩ := h
  rcases b with _ | x
  · have := h1.1 rfl; subst this
    exact ⟨by simp [earlier], by simp [earlier]⟩
  · obtain ⟨hx, hy⟩ := h2 x rfl
    refine ⟨by simp [earlier]; split <;> simp, ?_⟩
    intro z hz
    simp only [earlier] at hz
    split at hz
    · rename_i hlt
      cases hz
      refine ⟨by simp, ?_⟩
      intro y hy'
      rcases List.mem_append.1 hy' with hm | hm
      · exact (le_of_lt hlt).trans (hy y hm)
      · simp at hm; exact le_of_eq hm.symm
    · rename_i hlt
      cases hz
      refine ⟨by simp [hx], ?_⟩
      intro y hy'
      rcases List.mem_append.1 hy' with hm | hm
      · exact hy y hm
      · simp at hm; subst hm; exact le_of_not_gt hlt

theorem greatestOf_step {α : Type} [LinearOrder α] (l : List α) (b : Option α) (t : α) (h : GreatestOf l b) : GreatestOf (l ++ [t]) (later b t) := by
  obtain ⟨h1, h2⟩ := h
  rcases b with _ | x
  · have := h1.1 rfl; subst this
    exact ⟨by simp [later], by simp [later]⟩
  · obtain ⟨hx, hy⟩ := h2 x rfl
    refine ⟨by simp [later]; split <;> simp, ?_⟩
    intro z hz
    simp only [later] at hz
    split at hz
    · rename_i hlt
      cases hz
      refine ⟨by simp, ?_⟩
      intro y hy'
      rcases List.mem_append.1 hy' with hm | hm
      · exact (hy y hm).trans (le_of_lt hlt)
      · simp at hm; exact le_of_eq hm
    · rename_i hlt
      cases hz
      refine ⟨by simp [hx], ?_⟩
      intro y hy'
      rcases List.mem_append.1 hy' with hm | hm
      · exact hy y hm
      · simp at hm; subst hm; exact le_of_not_gt hlt

/-- The report so far, about the observations `os` and the keyframes `ks` seen. -/
structure Seen (pos : P → P3 K) (n : Nat) (os : List (IObs τ)) (ks : List (Key P (List (Option (IObs τ))) T)) (i : Info K τ) : Prop where
  kf : i.keyframes = n
  tw : i.hasTwist = true ↔ ∃ k ∈ ks, k.twist ≠ none
  t0 : LeastOf (os.map (·.stamp)) i.timeMin
  t1 : GreatestOf (os.map (·.stamp)) i.timeMax
  ty : ∀ s, AMap.get i.types s = ((os.filter fun o => o.label = s).getLast?).map (·.cls)
  ct : ∀ s, (AMap.get i.counts s).getD 0 = (os.filter fun o => o.label = s).length
  ctm : ∀ s, (AMap.get i.counts s).isSome = (AMap.get i.types s).isSome
  b0x : LeastOf (ks.filterMap fun k => k.pose.map fun p => (pos p).x) (i.boxMin.map (·.x))
  b0y : LeastOf (ks.filterMap fun k => k.pose.map fun p => (pos p).y) (i.boxMin.map (·.y))
  b0z : LeastOf (ks.filterMap fun k => k.pose.map fun p => (pos p).z) (i.boxMin.map (·.z))
  b1x : GreatestOf (ks.filterMap fun k => k.pose.map fun p => (pos p).x) (i.boxMax.map (·.x))
  b1y : GreatestOf (ks.filterMap fun k => k.pose.map fun p => (pos p).y) (i.boxMax.map (·.y))
  b1z : GreatestOf (ks.filterMap fun k => k.pose.map fun p => (pos p).z) (i.boxMax.map (·.z))

theorem seen_obs (pos : P → P3 K) (n : Nat) (os : List (IObs τ)) (ks : List (Key P (List (Option (IObs τ))) T)) (i : Info K τ) (h : Seen pos n os ks i) (o : IObs τ) :
    ∃ i', infoObs i (some o) = .ok i' ∧ Seen pos n (os ++ [o]) ks i' := by
  refine ⟨_, rfl, h.kf, h.tw, ?_, ?_, ?_, ?_, ?_, h.b0x, h.b0y, h.b0z, h.b1x, h.b1y, h.b1z⟩
  · rw [List.map_append]; exact leastOf_step _ _ _ h.t0
  · rw [List.map_append]; exact greatestOf_step _ _ _ h.t1
  · intro s
    rw [AMap.get_set, List.filter_append]
    by_cases hs : o.label = s
    · subst hs; simp
    · have : ¬ s = o.label := fun e => hs e.symm
      simp [hs, this, h.ty s]
  · intro s
    rw [AMap.get_set, List.filter_append]
    by_cases hs : o.label = s
    · subst hs; simp [h.ct]
    · have : ¬ s = o.label := fun e => hs e.symm
      simp [hs, this, h.ct s]
  · intro s
    rw [AMap.get_set, AMap.get_set]
    by_cases hs : s = o.label
    · simp [hs]
    · simp [hs, h.ctm s]

theorem seen_fold (pos : P → P3 K) (n : Nat) (ks : List (Key P (List (Option (IObs τ))) T)) : ∀ (sf os : List (IObs τ)) (i : Info K τ), Seen pos n os ks i →
    ∃ i', foldOutcome infoObs i (sf.map some) = .ok i' ∧ Seen pos n (os ++ sf) ks i'
  | [], os, i, h => ⟨i, rfl, by simpa using h⟩
  | o :: sf, os, i, h => by
    obtain ⟨i1, h1, h2⟩ := seen_obs pos n os ks i h o
    obtain ⟨i2, h3, h4⟩ := seen_fold pos n ks sf (os ++ [o]) i1 h2
    refine ⟨i2, ?_, by simpa using h4⟩
    rw [List.map_cons, foldOutcome, h1]
    exact h3

theorem least_map_aux {α : Type} [LinearOrder α] (g : P3 K → α) (f : Option (P3 K) → P3 K → P3 K) (hf : ∀ b p, earlier (b.map g) (g p) = some (g (f b p)))
    (l : List α) (b : Option (P3 K)) (p : P3 K) (h : LeastOf l (b.map g)) : LeastOf (l ++ [g p]) (some (g (f b p))) := by
  rw [← hf]; exact leastOf_step _ _ _ h
theorem greatest_map_aux {α : Type} [LinearOrder α] (g : P3 K → α) (f : Option (P3 K) → P3 K → P3 K) (hf : ∀ b p, later (b.map g) (g p) = some (g (f b p)))
    (l : List α) (b : Option (P3 K)) (p : P3 K) (h : GreatestOf l (b.map g)) : GreatestOf (l ++ [g p]) (some (g (f b p))) := by
  rw [← hf]; exact greatestOf_step _ _ _ h

theorem earlier_min (x t : K) : earlier (some x) t = some (min x t) := by
  simp only [earlier]
  split
  · rename_i h; rw [min_eq_right (le_of_lt h)]
  · rename_i h; rw [min_eq_left (le_of_not_gt h)]
theorem later_max (x t : K) : later (some x) t = some (max x t) := by
  simp only [later]
  split
  · rename_i h; rw [max_eq_right (le_of_lt h)]
  · rename_i h; rw [max_eq_left (le_of_not_gt h)]

theorem seen_key (pos : P → P3 K) (n : Nat) (os sf : List (IObs τ)) (ks : List (Key P (List (Option (IObs τ))) T)) (i : Info K τ) (h : Seen pos n os ks i)
    (kf : Key P (List (Option (IObs τ))) T) (hp : kf.pose ≠ none) (hs : kf.sf.getD [] = sf.map some) :
    ∃ i', infoKey pos i kf = .ok i' ∧ Seen pos n (os ++ sf) (ks ++ [kf]) i' := by
  obtain ⟨pose, fr, tw⟩ := kf
  rcases pose with _ | p
  · exact absurd rfl hp
  have h1 : Seen pos n os (ks ++ [⟨some p, fr, tw⟩]) { i with hasTwist := if tw.isSome then true else i.hasTwist, boxMin := some (boxLow i.boxMin (pos p)), boxMax := some (boxHigh i.boxMax (pos p)) } := by
    refine ⟨h.kf, ?_, h.t0, h.t1, h.ty, h.ct, h.ctm, ?_, ?_, ?_, ?_, ?_, ?_⟩
    · rcases tw with _ | w
      · simp only [Option.isSome_none, Bool.false_eq_true, if_false]
        rw [h.tw]; simp
      · simp
    · simp only [List.filterMap_append, List.filterMap_cons, List.filterMap_nil, Option.map_some]
      exact least_map_aux (·.x) boxLow (by intro b q; rcases b with _ | b <;> simp [boxLow, earlier_min]; rfl) _ _ _ h.b0x
    · simp only [List.filterMap_append, List.filterMap_cons, List.filterMap_nil, Option.map_some]
      exact least_map_aux (·.y) boxLow (by intro b q; rcases b with _ | b <;> simp [boxLow, earlier_min]; rfl) _ _ _ h.b0y
    · simp only [List.filterMap_append, List.filterMap_cons, List.filterMap_nil, Option.map_some]
      exact least_map_aux (·.z) boxLow (by intro b q; rcases b with _ | b <;> simp [boxLow, earlier_min]; rfl) _ _ _ h.b0z
    · simp only [List.filterMap_append, List.filterMap_cons, List.filterMap_nil, Option.map_some]
      exact greatest_map_aux (·.x) boxHigh (by intro b q; rcases b with _ | b <;> simp [boxHigh, later_max]; rfl) _ _ _ h.b1x
    · simp only [List.filterMap_append, List.filterMap_cons, List.filterMap_nil, Option.map_some]
      exact greatest_map_aux (·.y) boxHigh (by intro b q; rcases b with _ | b <;> simp [boxHigh, later_max]; rfl) _ _ _ h.b1y
    · simp only [List.filterMap_append, List.filterMap_cons, List.filterMap_nil, Option.map_some]
      exact greatest_map_aux (·.z) boxHigh (by intro b q; rcases b with _ | b <;> simp [boxHigh, later_max]; rfl) _ _ _ h.b1z
  rcases fr with _ | fr
  · have : sf = [] := List.map_eq_nil_iff.1 hs.symm
    subst this
    exact ⟨_, rfl, by simpa using h1⟩
  · simp only [Option.getD_some] at hs
    subst hs
    exact seen_fold pos n _ sf os _ h1

theorem seen_keys (pos : P → P3 K) (n : Nat) : ∀ (rest ks : List (Key P (List (Option (IObs τ))) T)) (os os' : List (IObs τ)) (i : Info K τ), Seen pos n os ks i →
    (∀ k ∈ rest, k.pose ≠ none) → allObs rest = os'.map some → ∃ i', foldOutcome (infoKey pos) i rest = .ok i' ∧ Seen pos n (os ++ os') (ks ++ rest) i'
  | [], ks, os, os', i, h, _, ho => by
    have : os' = [] := List.map_eq_nil_iff.1 ho.symm
    subst this
    exact ⟨i, rfl, by simpa using h⟩
  | k :: rest, ks, os, os', i, h, hp, ho => by
    rw [allObs, List.flatMap_cons] at ho
    obtain ⟨a, b, rfl, ha, hb⟩ := List.map_eq_append_iff.1 ho.symm
    obtain ⟨i1, h1, h2⟩ := seen_key pos n os a ks i h k (hp k (by simp)) ha.symm
    obtain ⟨i2, h3, h4⟩ := seen_keys pos n rest (ks ++ [k]) (os ++ a) b i1 h2 (fun x hx => hp x (by simp [hx])) hb.symm
    refine ⟨i2, ?_, by simpa using h4⟩
    rw [foldOutcome, h1]; exact h3

/-- C91: what `info` reports, for every map whose keyframes have poses and whose observations are not null: the number of keyframes, whether one has a
twist, the smallest box around their positions, the first and last stamp of all observations (invalid stamps, too), and for each label the number of
its observations and the class of the last of them. -/
theorem info_result (pos : P → P3 K) (sm : List (Key P (List (Option (IObs τ))) T)) (os : List (IObs τ)) (hp : ∀ k ∈ sm, k.pose ≠ none)
    (ho : allObs sm = os.map some) :
    ∃ i, info pos sm = .ok i ∧ i.keyframes = sm.length ∧ (i.hasTwist = true ↔ ∃ k ∈ sm, k.twist ≠ none) ∧
      LeastOf (os.map (·.stamp)) i.timeMin ∧ GreatestOf (os.map (·.stamp)) i.timeMax ∧
      (∀ s, AMap.get i.types s = ((os.filter fun o => o.label = s).getLast?).map (·.cls)) ∧
      (∀ s, AMap.get i.counts s = if (os.filter fun o => o.label = s) = [] then none else some (os.filter fun o => o.label = s).length) ∧
      (∀ f : P3 K → K, f ∈ [P3.x, P3.y, P3.z] → LeastOf (sm.filterMap fun k => k.pose.map fun p => f (pos p)) (i.boxMin.map f) ∧
        GreatestOf (sm.filterMap fun k => k.pose.map fun p => f (pos p)) (i.boxMax.map f)) := by
  have h0 : Seen pos sm.length [] ([] : List (Key P (List (Option (IObs τ))) T)) ({ keyframes := sm.length } : Info K τ) := by
    refine ⟨rfl, by simp, ?_, ?_, ?_, ?_, ?_, ?_, ?_, ?_, ?_, ?_, ?_⟩ <;> simp [LeastOf, GreatestOf, AMap.get]
  obtain ⟨i, h1, h2⟩ := seen_keys pos sm.length sm [] [] os _ h0 hp ho
  simp only [List.nil_append] at h2
  refine ⟨i, h1, h2.kf, h2.tw, h2.t0, h2.t1, h2.ty, ?_, ?_⟩
  · intro s
    have e1 := h2.ct s
    have e2 := h2.ctm s
    have e3 := h2.ty s
    split
    · rename_i hnil
      rw [hnil] at e3
      simp only [List.getLast?_nil, Option.map_none] at e3
      rw [e3] at e2
      simpa using e2
    · rename_i hne
      rcases hg : AMap.get i.counts s with _ | c
      · rw [hg] at e1
        simp only [Option.getD_none] at e1
        exact absurd (List.length_eq_zero_iff.1 e1.symm) hne
      · rw [hg] at e1
        simp only [Option.getD_some] at e1
        rw [e1]
  · intro f hf
    simp only [List.mem_cons, List.not_mem_nil, or_false] at hf
    rcases hf with rfl | rfl | rfl
    · exact ⟨h2.b0x, h2.b1x⟩
    · exact ⟨h2.b0y, h2.b1y⟩
    · exact ⟨h2.b0z, h2.b1z⟩

end info

def demoInfo : List (Key ℤ (List (Option (IObs ℤ))) Unit) :=
  [⟨some 3, some [some ⟨10, "a", "X"⟩, some ⟨12, "b", "Y"⟩], none⟩, ⟨some 1, none, some ()⟩, ⟨some 2, some [some ⟨0, "a", "Z"⟩], none⟩]
/-- Hypotheses met; the invalid stamp (0) is reported as the first one. -/
example : (info (fun p : ℤ => (⟨p, -p, 0⟩ : P3 ℤ)) demoInfo).Sat (fun i => i.timeMin = some 0 ∧ i.timeMax = some 12 ∧ i.boxMin = some ⟨1, -3, 0⟩ ∧ i.boxMax = some ⟨3, -1, 0⟩ ∧
    AMap.get i.types "a" = some "Z" ∧ AMap.get i.counts "a" = some 2 ∧ i.hasTwist = true) := by decide +kernel
example : (∀ k ∈ demoInfo, k.pose ≠ none) := by
  intro k hk; simp only [demoInfo, List.mem_cons, List.not_mem_nil, or_false] at hk
  rcases hk with rfl | rfl | rfl <;> simp

end Verif.SmCli
