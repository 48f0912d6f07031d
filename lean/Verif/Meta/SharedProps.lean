import Verif.Meta.Shared
import Verif.Locks.Lemmas

/-!
# C133: the threads that share a meta client do not race and do not block each other

For every member there is a short list of functions that break its locking (`culprits`); as long as none of
them runs, no two threads are ever at the member at once with one of them writing, whatever else any number
of threads run in whatever order.  Every function on a list is there for a reason: each of them does race.
No execution gets stuck: whatever the threads are in the middle of, they can all finish.
-/
namespace Nebula.Meta.Shared
open Nebula.Locks

/-- The functions that access a member without the protection the other functions rely on. -/
def culprits : Var → List Fn
  | .spaces => [.isMetadReady]
  | .spaceNames => [.isMetadReady]
  | .tagIndexNames => [.getTagIndexByNameFromCache, .getRelatedTagIDByIndexNameFromCache, .isMetadReady]
  | .edgeIndexNames => [.getEdgeIndexByNameFromCache, .getRelatedEdgeTypeByIndexNameFromCache, .isMetadReady]
  | .ftClients => [.getFTClientsFromCache]
  | .ftIndexes => [.getFTIndexByNameFromCache]
  | .leader => [.download, .ingest, .heartBeatTask, .waitForMetadReady, .isMetadReady]
  | .leaderIds => [.isMetadReady]
  | .listener => [.heartBeatTask, .waitForMetadReady, .isMetadReady]
  | .serverTime => [.isMetadReady]
  | .localTime => [.isMetadReady]
  | .running => [.stop]
  | .worker => [.stop]
  | .tagNames | .edgeNames | .edgeTypes | .tagIds | .tagVersions | .edgeVersions | .allEdges | .userRoles
  | .passwords | .storageHosts | .active | .leadersInfo | .config => []

/-- How each member is protected (a device of the proof). -/
private def discipline : Var → Discipline Lock
  | .spaces | .spaceNames => .published .cache
  | .tagNames | .edgeNames | .edgeTypes | .tagIds | .tagVersions | .edgeVersions | .allEdges | .userRoles
  | .passwords | .ftClients | .ftIndexes | .storageHosts => .locked .cache
  | .active | .leader => .locked .host
  | .leadersInfo => .locked .leaders
  | .leaderIds => .published .leaderIds
  | .listener => .locked .listener
  | .config => .locked .config
  | .tagIndexNames | .edgeIndexNames | .serverTime | .localTime | .running => .owned
  | .worker => .frozen

/-- The order in which locks are taken: while the configuration or the listener is locked, the cache may be. -/
private def rank : Lock → Nat
  | .config => 0
  | .listener => 0
  | .cache => 1
  | .host => 2
  | .leaders => 2
  | .leaderIds => 2

private theorem ordered (f : Fn) : (body f).ordered rank [] = true := by cases f <;> decide

private theorem keeps (v : Var) (f : Fn) (h : f ∉ culprits v) :
    (body f).keeps (discipline v) (own f) v [] = true := by
  revert h
  cases v <;> cases f <;> decide

/-- Whatever functions any number of threads run, in whatever order their steps interleave: no two threads
are at the same member at once, one of them writing, unless one of the functions listed for that member is
among those that run. -/
theorem C133_no_race_partial {uses : Fn → Prop} {v : Var} (h : ∀ f, uses f → f ∉ culprits v)
    {s : State Lock Var} (r : Reach client uses s) : ¬ RaceOn v s :=
  no_race (rank := rank) (d := discipline v) ordered (fun f hf => keeps v f (h f hf)) r

/-- The members no function is listed for never see a race. -/
theorem C133_sound {v : Var} (h : v ∈ [Var.tagNames, .edgeNames, .edgeTypes, .tagIds, .tagVersions, .edgeVersions,
      .allEdges, .userRoles, .passwords, .storageHosts, .active, .leadersInfo, .config])
    {s : State Lock Var} (r : Reach client (fun _ => True) s) : ¬ RaceOn v s := by
  refine C133_no_race_partial (fun f _ => ?_) r
  revert h
  cases v <;> simp [culprits]

/-- Each listed function does race on the member it is listed for, with some one other function (or with
another call of itself): threads that run only these two reach a state where one is about to write the
member and the other is at it too. -/
theorem C133_race_violated {v : Var} {f : Fn} (h : f ∈ culprits v) :
    ∃ g s, Reach client (fun x => x = f ∨ x = g) s ∧ RaceOn v s := by
  have sw : ∀ {f g : Fn}, (∃ s, Reach client (fun x => x = g ∨ x = f) s ∧ RaceOn v s) →
      ∃ g s, Reach client (fun x => x = f ∨ x = g) s ∧ RaceOn v s := by
    rintro f g ⟨s, r, q⟩
    have : (fun x : Fn => x = g ∨ x = f) = (fun x => x = f ∨ x = g) := by
      funext x; exact propext ⟨Or.symm, Or.symm⟩
    exact ⟨g, s, this ▸ r, q⟩
  cases v <;> simp only [culprits, List.mem_cons, List.not_mem_nil, or_false] at h
  case spaces =>
    subst h
    exact ⟨_, race_of_racy (S := client) (i := 1) (j := 0) Fn.isMetadReady [] 71 Fn.refreshTask [] 73 (by decide) (by decide) (by decide) (by decide +kernel)⟩
  case spaceNames =>
    subst h
    exact sw (race_of_racy (S := client) (i := 0) (j := 1) Fn.refreshTask [] 61 Fn.isMetadReady [] 62 (by decide) (by decide) (by decide) (by decide +kernel))
  case tagIndexNames =>
    rcases h with rfl | rfl | rfl
    · exact sw (race_of_racy (S := client) (i := 0) (j := 1) Fn.refreshTask [] 40 Fn.getTagIndexByNameFromCache [] 0 (by decide) (by decide) (by decide) (by decide +kernel))
    · exact sw (race_of_racy (S := client) (i := 0) (j := 1) Fn.refreshTask [] 40 Fn.getRelatedTagIDByIndexNameFromCache [] 0 (by decide) (by decide) (by decide) (by decide +kernel))
    · exact ⟨_, race_of_racy (S := client) (i := 1) (j := 0) Fn.isMetadReady [] 51 Fn.refreshTask [] 40 (by decide) (by decide) (by decide) (by decide +kernel)⟩
  case edgeIndexNames =>
    rcases h with rfl | rfl | rfl
    · exact sw (race_of_racy (S := client) (i := 0) (j := 1) Fn.refreshTask [] 41 Fn.getEdgeIndexByNameFromCache [] 0 (by decide) (by decide) (by decide) (by decide +kernel))
    · exact sw (race_of_racy (S := client) (i := 0) (j := 1) Fn.refreshTask [] 41 Fn.getRelatedEdgeTypeByIndexNameFromCache [] 0 (by decide) (by decide) (by decide) (by decide +kernel))
    · exact ⟨_, race_of_racy (S := client) (i := 1) (j := 0) Fn.isMetadReady [] 52 Fn.refreshTask [] 41 (by decide) (by decide) (by decide) (by decide +kernel)⟩
  case ftClients =>
    subst h
    exact sw (race_of_racy (S := client) (i := 0) (j := 1) Fn.refreshTask [] 14 Fn.getFTClientsFromCache [] 0 (by decide) (by decide) (by decide) (by decide +kernel))
  case ftIndexes =>
    subst h
    exact sw (race_of_racy (S := client) (i := 1) (j := 2) Fn.getFTIndexByNameFromCache [true, true, false] 3 Fn.getFTIndexByNameFromCache [] 1 (by decide) (by decide) (by decide) (by decide +kernel))
  case leader =>
    rcases h with rfl | rfl | rfl | rfl | rfl
    · exact sw (race_of_racy (S := client) (i := 1) (j := 2) Fn.remoteReply [] 1 Fn.download [] 0 (by decide) (by decide) (by decide) (by decide +kernel))
    · exact sw (race_of_racy (S := client) (i := 1) (j := 2) Fn.remoteReply [] 1 Fn.ingest [] 0 (by decide) (by decide) (by decide) (by decide +kernel))
    · exact sw (race_of_racy (S := client) (i := 1) (j := 0) Fn.remoteReply [] 1 Fn.heartBeatTask [] 6 (by decide) (by decide) (by decide) (by decide +kernel))
    · exact sw (race_of_racy (S := client) (i := 1) (j := 0) Fn.remoteReply [] 1 Fn.waitForMetadReady [] 7 (by decide) (by decide) (by decide) (by decide +kernel))
    · exact sw (race_of_racy (S := client) (i := 1) (j := 2) Fn.remoteReply [] 1 Fn.isMetadReady [] 6 (by decide) (by decide) (by decide) (by decide +kernel))
  case leaderIds =>
    subst h
    exact sw (race_of_racy (S := client) (i := 0) (j := 1) Fn.heartBeatTask [] 4 Fn.isMetadReady [] 2 (by decide) (by decide) (by decide) (by decide +kernel))
  case listener =>
    rcases h with rfl | rfl | rfl
    · exact sw (race_of_racy (S := client) (i := 1) (j := 0) Fn.unRegisterListener [] 1 Fn.heartBeatTask [] 0 (by decide) (by decide) (by decide) (by decide +kernel))
    · exact sw (race_of_racy (S := client) (i := 1) (j := 0) Fn.unRegisterListener [] 1 Fn.waitForMetadReady [] 1 (by decide) (by decide) (by decide) (by decide +kernel))
    · exact sw (race_of_racy (S := client) (i := 1) (j := 2) Fn.unRegisterListener [] 1 Fn.isMetadReady [] 0 (by decide) (by decide) (by decide) (by decide +kernel))
  case serverTime =>
    subst h
    exact ⟨_, race_of_racy (S := client) (i := 1) (j := 0) Fn.isMetadReady [] 10 Fn.heartBeatTask [] 10 (by decide) (by decide) (by decide) (by decide +kernel)⟩
  case localTime =>
    subst h
    exact ⟨_, race_of_racy (S := client) (i := 1) (j := 0) Fn.isMetadReady [] 118 Fn.heartBeatTask [] 11 (by decide) (by decide) (by decide) (by decide +kernel)⟩
  case running =>
    subst h
    exact ⟨_, race_of_racy (S := client) (i := 1) (j := 0) Fn.stop [] 4 Fn.waitForMetadReady [] 0 (by decide) (by decide) (by decide) (by decide +kernel)⟩
  case worker =>
    subst h
    exact ⟨_, race_of_racy (S := client) (i := 1) (j := 2) Fn.stop [] 3 Fn.refreshCache [] 0 (by decide) (by decide) (by decide) (by decide +kernel)⟩

/-- No execution gets stuck: whatever calls any number of threads are in the middle of, they can all be
brought to an end, with every lock given back. -/
theorem C133_no_deadlock {s : State Lock Var} (r : Reach client (fun _ => True) s) :
    ∃ s', Steps s s' ∧ Quiet s' :=
  can_finish (rank := rank) (B := 3) (fun l => by cases l <;> decide) ordered r

/-- In particular some thread can go on as long as one is at work. -/
theorem C133_progress {s : State Lock Var} (r : Reach client (fun _ => True) s) {i : Nat} (h : s.todo i ≠ []) :
    ∃ s', Step s s' :=
  progress (rank := rank) (B := 3) (fun l => by cases l <;> decide) (inv_reach ordered r) h

/-- A lock held for writing is held by nobody else. -/
theorem C133_writers_alone {s : State Lock Var} (r : Reach client (fun _ => True) s) {i j : Nat} (ne : i ≠ j)
    {l : Lock} {m : Mode} (h : (Mode.wr, l) ∈ s.held i) : (m, l) ∉ s.held j :=
  (inv_reach (rank := rank) ordered r).excl i j l m ne h

/-! ## The hypotheses are met -/

/-- Two threads in the middle of a refresh and of a lookup: both want the cache, one of them is in. -/
example : ∃ s, Reach client (fun f => f = .refreshTask ∨ f = .getSpaceDesc) s ∧ (Mode.wr, Lock.cache) ∈ s.held 0
    ∧ s.todo 1 = [.acq .rd .cache, .acc .rd .spaces, .rel .rd .cache] := by
  have r1 : Reach client (fun f => f = .refreshTask ∨ f = .getSpaceDesc) _ :=
    .start (i := 1) .init (.inr rfl) (by decide) rfl (run_trace (body .getSpaceDesc) [])
  have r2 := Reach.start (S := client) (uses := fun f => f = .refreshTask ∨ f = .getSpaceDesc) (i := 0) (f := .refreshTask)
    r1 (.inl rfl) (fun _ => rfl) rfl (run_trace (body .refreshTask) [])
  have r3 := reach_upto (i := 0) (j := 1) 7 r2 (fun k h1 h2 => by rw [put_held, if_neg h1, put_held, if_neg h2]; rfl)
    (by decide) (h' := [(.wr, .cache)]) (t' := (((body .refreshTask).trace []).1).drop 7) (by decide +kernel)
  exact ⟨_, r3, by decide, rfl⟩

example : ∀ f, f = Fn.refreshTask ∨ f = .getSpaceDesc ∨ f = .heartBeatTask ∨ f = .waitForMetadReady →
    f ∉ culprits .spaces := by
  intro f h; rcases h with rfl | rfl | rfl | rfl <;> decide

end Nebula.Meta.Shared
