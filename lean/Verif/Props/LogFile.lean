import Verif.Lemmas.LogFile
/-
Properties C08 (numbering of debug logs under concurrency) and C09 (file-name templates).
-/
namespace Verif.Props
open Verif Verif.Spec

/-! ### C08 -/
section
variable {Tid : Type} [DecidableEq Tid]

/-- C08: in each state reachable by any interleaving of any number of threads, the ids handed out, in the
order in which they were handed out, are 0, 1, 2, ... (32-bit), so no two calls share one as long as
there were at most 2^32 calls. -/
theorem log_ids_sequential (s : LogState Tid) (h : LogReach s) :
    s.issued.map (fun e => e.2.1) = (List.range s.issued.length).map (fun k => k % 2 ^ 32) ∧
    (s.issued.length ≤ 2 ^ 32 → (s.issued.map (fun e => e.2.1)).Nodup) := by
  refine ⟨(Lemmas.logInv_reach h).ids, fun hn => ?_⟩
  rw [Lemmas.ids_nodup h hn]; exact List.nodup_range

/-- C08: mutual exclusion around the counter. -/
theorem log_mutual_exclusion (s : LogState Tid) (h : LogReach s) (t u : Tid)
    (ht : (∃ d, s.pc t = .locked d) ∨ (∃ d v, s.pc t = .loaded d v) ∨ (∃ d v, s.pc t = .stored d v))
    (hu : (∃ d, s.pc u = .locked d) ∨ (∃ d v, s.pc u = .loaded d v) ∨ (∃ d v, s.pc u = .stored d v)) :
    t = u := by
  have h1 := (Lemmas.logInv_reach h).crit t ht
  have h2 := (Lemmas.logInv_reach h).crit u hu
  rw [h1] at h2; cases h2; rfl

/-- C08: whenever all calls have returned (and there were at most 2^32 of them), the files written are
exactly those of the calls selected by their decimation, each once. -/
theorem log_files_exact (s : LogState Tid) (h : LogReach s) (hn : s.issued.length ≤ 2 ^ 32)
    (hidle : ∀ t, s.pc t = .idle) :
    s.files.Nodup ∧ ∀ v, v ∈ s.files ↔ ∃ t d, (t, v, d) ∈ s.issued ∧ Selected d v := by
  have hF := Lemmas.fileInv_reach h hn
  refine ⟨hF.nodup, fun v => ⟨hF.sound v, ?_⟩⟩
  rintro ⟨t, d, hm, hs⟩
  rcases hF.complete t v d hm hs with h1 | ⟨u, h1⟩ | ⟨u, d', h1⟩
  · exact h1
  · rw [hidle] at h1; cases h1
  · rw [hidle] at h1; cases h1

/-- C08: with one decimation `d > 1` for all calls, exactly every `d`-th call writes a file. -/
theorem log_every_dth (s : LogState Tid) (h : LogReach s) (hn : s.issued.length ≤ 2 ^ 32)
    (hidle : ∀ t, s.pc t = .idle) (d : Nat) (hd : 1 < d) (hall : ∀ e ∈ s.issued, e.2.2 = d) (v : Nat) :
    v ∈ s.files ↔ v < s.issued.length ∧ d ∣ v := by
  rw [(log_files_exact s h hn hidle).2 v]
  have hids := Lemmas.ids_nodup h hn
  constructor
  · rintro ⟨t, d', hm, hs⟩
    have : d' = d := hall _ hm
    subst this
    refine ⟨?_, by rcases hs with hs | hs <;> [omega; exact hs]⟩
    have : v ∈ s.issued.map (fun e => e.2.1) := List.mem_map.mpr ⟨_, hm, rfl⟩
    rw [hids] at this; simpa using this
  · rintro ⟨hv, hdv⟩
    have : v ∈ s.issued.map (fun e => e.2.1) := by rw [hids]; simpa using hv
    obtain ⟨⟨t, v', d'⟩, hm, rfl⟩ := List.mem_map.mp this
    have : d' = d := hall _ hm
    subst this
    exact ⟨t, d', hm, Or.inr hdv⟩

/-- C08, limit: after 2^32 + 1 calls the first id is handed out again (the counter is 32 bits wide);
such a state is reachable, even with one thread. -/
theorem log_ids_wrap (t : Tid) :
    ∃ s : LogState Tid, LogReach s ∧ s.issued.length = 2 ^ 32 + 1 ∧
      (s.issued.map (fun e => e.2.1))[0]? = some 0 ∧ (s.issued.map (fun e => e.2.1))[2 ^ 32]? = some 0 := by
  obtain ⟨s, hr, hl, -⟩ := Lemmas.one_call t (2 ^ 32 + 1)
  refine ⟨s, hr, hl, ?_⟩
  rw [(log_ids_sequential s hr).1, hl]
  rw [List.getElem?_map, List.getElem?_map, List.getElem?_range (by omega), List.getElem?_range (by omega)]
  simp

/-- Non-vacuity: states with any number of completed calls are reachable. -/
example : ∃ s : LogState Nat, LogReach s ∧ s.issued.length = 7 ∧ ∀ t, s.pc t = .idle := by
  obtain ⟨s, h1, h2, h3, -⟩ := Lemmas.one_call (3 : Nat) 7
  exact ⟨s, h1, h2, h3⟩

end

/-! ### C09 -/

/-- C09: for each template made of placeholders and of literal characters other than `$`, and map labels
without `$`, the file name is the template with each placeholder replaced by its value.

Partial: not for labels containing `$`, nor for templates with a stray `$`; see
`logFileName_label_reexpanded`, `logFileName_label_format` and `logFileName_glued`. -/
theorem logFileName_expands_partial (t : List Piece) (ht : ∀ c, .lit c ∈ t → c ≠ '$') (uid : Nat)
    (gid lid : Option Nat) (gl ll : Option (List Char))
    (hg : ∀ l, gl = some l → '$' ∉ l) (hl : ∀ l, ll = some l → '$' ∉ l) :
    logFileName (templateText t) uid gid gl lid ll =
      templateMeaning (fun
        | .uniqueId => fmt05u (uid % 2 ^ 32)
        | .globalId => fmt05u (gid.getD 0 % 2 ^ 32)
        | .globalLabel => gl.getD []
        | .localId => fmt05u (lid.getD 0 % 2 ^ 32)
        | .localLabel => ll.getD []) t :=
  Lemmas.logFileName_meaning t ht uid gid lid gl ll hg hl

/-- The default template of the library, Parameters.h: hypotheses are met. -/
example : (logFileName "icp-run-$UNIQUE_ID-local-$LOCAL_ID$LOCAL_LABEL-global-$GLOBAL_ID$GLOBAL_LABEL.icplog".toList
    12 (some 7) (some "G".toList) none (some "L".toList)) =
    "icp-run-00012-local-00000L-global-00007G.icplog".toList := by decide +kernel

example : templateText [.lit 'a', .ph .localLabel, .lit '-', .ph .globalId] =
    "a$LOCAL_LABEL-$GLOBAL_ID".toList := by decide

/-- C09, negative: a global label that mentions a placeholder is itself expanded. -/
theorem logFileName_label_reexpanded :
    logFileName (templateText [.ph .globalLabel]) 1 none (some "$LOCAL_ID".toList) (some 42) none =
      "00042".toList := by decide +kernel

/-- C09, negative: `$&` or `$$` in a label are interpreted, not copied. -/
theorem logFileName_label_format :
    logFileName (templateText [.ph .localLabel]) 1 none none none (some "a$$b".toList) = "a$b".toList := by
  decide +kernel

/-- C09, negative: a stray `$` in the template can join a value to form a placeholder. -/
theorem logFileName_glued :
    logFileName (templateText [.lit '$', .lit 'L', .lit 'O', .lit 'C', .lit 'A', .lit 'L', .lit '_',
      .ph .globalLabel]) 1 none (some "ID".toList) (some 42) none = "00042".toList := by decide +kernel

end Verif.Props
