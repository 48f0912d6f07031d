import Verif.Process.Model
/-! # Pid files and commands (C108) -/
namespace Nebula
namespace Process

/-! ## Pid files -/

/-- **C108 (pids).** A pid is free iff it is that of the process itself or there is no such process. -/
theorem C108_pid (s : Sys) (pid : Int) : pidAvailable s pid = true ↔ pid = s.self ∨ s.kill pid = .esrch := by
  unfold pidAvailable
  by_cases h : pid = s.self
  · simp [h]
  · rw [if_neg h]
    cases hk : s.kill pid <;> simp [h]

theorem digitRun_of {pre d post : Bytes} (h1 : ∀ c ∈ pre, isDigit c = false) (h2 : ∀ c ∈ d, isDigit c = true) (h3 : ∀ c, post.head? = some c → isDigit c = false)
    (hd : d ≠ []) : digitRun (pre ++ d ++ post) = d := by
  unfold digitRun
  rw [List.append_assoc, List.dropWhile_append_of_pos (by intro c hc; simp [h1 c hc])]
  cases d with
  | nil => exact absurd rfl hd
  | cons x d =>
    rw [List.cons_append, List.dropWhile_cons_of_neg (by simp [h2 x (by simp)]), ← List.cons_append, List.takeWhile_append_of_pos (fun c hc => h2 c hc)]
    cases post with
    | nil => simp
    | cons p post => rw [List.takeWhile_cons_of_neg (by simp [h3 p rfl])]; simp

theorem digitRun_none {t : Bytes} (h : ∀ c ∈ t, isDigit c = false) : digitRun t = [] := by
  unfold digitRun
  rw [dropWhile_all t (by intro c hc; simp [h c hc])]
  rfl

theorem digitRun_skip {a : Bytes} (b : Bytes) (h : ∀ c ∈ a, isDigit c = false) : digitRun (a ++ b) = digitRun b := by
  unfold digitRun
  rw [List.dropWhile_append_of_pos (by intro c hc; simp [h c hc])]

theorem digitRun_nil {l : Bytes} : digitRun l = [] ↔ ∀ c ∈ l, isDigit c = false := by
  induction l with
  | nil => simp [digitRun]
  | cons x l ih =>
    unfold digitRun at ih ⊢
    cases hx : isDigit x with
    | true =>
      rw [List.dropWhile_cons_of_neg (by simp [hx]), List.takeWhile_cons_of_pos hx]
      constructor
      · intro h; cases h
      · intro h; have := h x (by simp); rw [hx] at this; cases this
    | false =>
      rw [List.dropWhile_cons_of_pos (by simp [hx]), ih]
      simp [hx]

/-- A text has no digit, or it has a first run of digits. -/
theorem run_cases (t : Bytes) : (∀ c ∈ t, isDigit c = false) ∨ ∃ pre d post, t = pre ++ d ++ post ∧ (∀ c ∈ pre, isDigit c = false) ∧ (∀ c ∈ d, isDigit c = true) ∧
    d ≠ [] ∧ (∀ c, post.head? = some c → isDigit c = false) := by
  induction t with
  | nil => exact .inl (by simp)
  | cons x t ih =>
    cases hx : isDigit x with
    | false =>
      rcases ih with h | ⟨pre, d, post, rfl, h1, h2, h3, h4⟩
      · exact .inl (by intro c hc; rcases List.mem_cons.1 hc with rfl | hc; exact hx; exact h c hc)
      · exact .inr ⟨x :: pre, d, post, by simp, by intro c hc; rcases List.mem_cons.1 hc with rfl | hc; exact hx; exact h1 c hc, h2, h3, h4⟩
    | true =>
      refine .inr ⟨[], (x :: t).takeWhile isDigit, (x :: t).dropWhile isDigit, by simp [List.takeWhile_append_dropWhile], by simp, ?_, ?_, ?_⟩
      · intro c hc; exact mem_takeWhile_sat _ _ c hc
      · rw [List.takeWhile_cons_of_pos hx]; simp
      · intro c hc
        have := List.head?_dropWhile_not isDigit (x :: t)
        rw [hc] at this
        simpa using this

theorem getline_spec : ∀ (s : Bytes), (s = [] ∧ Fs.getline s = none) ∨
    ∃ l r, Fs.getline s = some (l, r) ∧ r.length < s.length ∧ (s = l ++ 10 :: r ∨ (s = l ∧ r = []))
  | [] => .inl ⟨rfl, rfl⟩
  | c :: s => by
    by_cases hc : c = 10
    · subst hc
      exact .inr ⟨[], s, rfl, by simp, .inl rfl⟩
    · have e : Fs.getline (c :: s) = match Fs.getline s with | none => some ([c], []) | some (l, r) => some (c :: l, r) := by
        rw [Fs.getline.eq_3 c s (fun h => hc h)]; cases Fs.getline s <;> rfl
      rcases getline_spec s with ⟨rfl, h⟩ | ⟨l, r, h, hlt, hs⟩
      · exact .inr ⟨[c], [], by rw [e, h], by simp, .inr ⟨rfl, rfl⟩⟩
      · refine .inr ⟨c :: l, r, by rw [e, h], by simp; omega, ?_⟩
        rcases hs with rfl | ⟨rfl, rfl⟩
        · exact .inl rfl
        · exact .inr ⟨rfl, rfl⟩

theorem search_lines : ∀ (f : Nat) (t e : Bytes), t.length < f →
    ((Fs.nextF (fun l => digitRun l ≠ []) f (.file t) e).valid = true ↔ digitRun t ≠ []) ∧
    (digitRun t ≠ [] → digitRun (Fs.nextF (fun l => digitRun l ≠ []) f (.file t) e).entry = digitRun t)
  | 0, _, _, h => by omega
  | f + 1, t, e, h => by
    rcases getline_spec t with ⟨rfl, hg⟩ | ⟨l, r, hg, hlt, hs⟩
    · simp [Fs.nextF, Fs.advance, hg, digitRun]
    · have hadv : Fs.advance (.file t) = some (l, .file r) := by simp [Fs.advance, hg]
      rw [Fs.nextF, hadv]
      dsimp only
      by_cases hl : digitRun l = []
      · have htr : digitRun t = digitRun r := by
          have hno := digitRun_nil.1 hl
          rcases hs with rfl | ⟨rfl, rfl⟩
          · rw [show l ++ 10 :: r = (l ++ [10]) ++ r by simp]
            exact digitRun_skip r (by intro c hc; rcases List.mem_append.1 hc with hc | hc; exact hno c hc; simp at hc; subst hc; decide)
          · rw [hl]; rfl
        have hi := search_lines f r l (by omega)
        simp only [hl, ne_eq, not_true_eq_false, decide_false, Bool.false_eq_true, if_false]
        rw [htr]; exact hi
      · have htr : digitRun t = digitRun l := by
          rcases hs with rfl | ⟨rfl, rfl⟩
          · rcases run_cases l with h | ⟨pre, d, post, rfl, h1, h2, h3, h4⟩
            · exact absurd (digitRun_none h) hl
            · rw [digitRun_of h1 h2 h4 h3, show pre ++ d ++ post ++ 10 :: r = pre ++ d ++ (post ++ 10 :: r) by simp, digitRun_of h1 h2 _ h3]
              intro c hc
              cases post with
              | nil => simp at hc; subst hc; decide
              | cons p post => exact h4 c (by simpa using hc)
          · rfl
        simp only [ne_eq, hl, not_false_eq_true, decide_true, if_true, htr]
        exact ⟨trivial, fun _ => trivial⟩

/-- **C108 (reading a pid file).** A file that is missing or holds no digit is free, one that cannot be read is not; otherwise the first run of digits is
the pid, unless it is too large for 32 bits, which throws. -/
theorem C108_file (s : Sys) :
    fileAvailable s .missing = some true ∧ fileAvailable s .denied = some false ∧
    (∀ t, (∀ c ∈ t, isDigit c = false) → fileAvailable s (.text t) = some true) ∧
    (∀ pre d post, (∀ c ∈ pre, isDigit c = false) → (∀ c ∈ d, isDigit c = true) → d ≠ [] → (∀ c, post.head? = some c → isDigit c = false) →
      fileAvailable s (.text (pre ++ d ++ post)) = if digitsVal 0 d ≤ 4294967295 then some (pidAvailable s (toPid (digitsVal 0 d))) else none) := by
  refine ⟨rfl, rfl, fun t h => ?_, fun pre d post h1 h2 h3 h4 => ?_⟩
  · have hs := search_lines (t.length + 1) t [] (by omega)
    have hn : ¬ digitRun t ≠ [] := fun hh => hh (digitRun_none h)
    have hv : (Fs.open_ (fun l => digitRun l ≠ []) (.file t)).valid = false := by
      have := mt hs.1.1 hn
      simpa [Fs.open_, Fs.Source.size] using this
    unfold fileAvailable
    dsimp only
    rw [hv]; rfl
  · have hr := digitRun_of h1 h2 h4 h3
    have hs := search_lines ((pre ++ d ++ post).length + 1) (pre ++ d ++ post) [] (by omega)
    rw [hr] at hs
    have hv : (Fs.open_ (fun l => digitRun l ≠ []) (.file (pre ++ d ++ post))).valid = true := hs.1.2 h3
    have he : digitRun (Fs.open_ (fun l => digitRun l ≠ []) (.file (pre ++ d ++ post))).entry = d := hs.2 h3
    unfold fileAvailable
    dsimp only
    rw [hv, he]; rfl

/-- **C108 (round trip).** What `makePidFile` writes is read back as that pid, or that of the writer for 0. -/
theorem C108_round_trip (s : Sys) {self pid : Int} {path t : Bytes} {dirOk openOk : Bool} (hw : makePidFile self path dirOk openOk pid = some t)
    (h1 : 0 < (if pid = 0 then self else pid)) (h2 : (if pid = 0 then self else pid) < 2147483648) :
    fileAvailable s (.text t) = some (pidAvailable s (if pid = 0 then self else pid)) := by
  unfold makePidFile at hw
  split at hw
  · cases hw
  split at hw
  · cases hw
  split at hw
  · cases hw
  generalize (if pid = 0 then self else pid) = p at *
  have e : t = [] ++ natDec p.natAbs ++ [10] := by
    rw [← Option.some.inj hw, intDec, if_neg (by omega)]; rfl
  rw [e, (C108_file s).2.2.2 [] (natDec p.natAbs) [10] (by simp) (natDec_digits _) (natDec_ne_nil _) (by intro c hc; simp at hc; subst hc; decide),
    digitsVal_natDec, if_pos (by omega), toPid, if_pos (by omega)]
  congr 2
  omega

/-- **C108 (one at a time).** If a process has written its pid, another one that starts is refused as long as the first one lives, whether or not it may be
signalled, and is let in once it is gone. -/
theorem C108_second (s : Sys) {first : Int} {path t : Bytes} {dirOk openOk : Bool} (hw : makePidFile first path dirOk openOk 0 = some t) (h1 : 0 < first)
    (h2 : first < 2147483648) (hne : s.self ≠ first) :
    (s.kill first = .ok ∨ s.kill first = .eperm → fileAvailable s (.text t) = some false) ∧ (s.kill first = .esrch → fileAvailable s (.text t) = some true) := by
  have e := C108_round_trip s hw (by simpa using h1) (by simpa using h2)
  rw [e]
  simp only [if_true]
  have hp := C108_pid s first
  constructor
  · intro h
    cases hx : pidAvailable s first with
    | false => rfl
    | true =>
      rcases hp.1 hx with he | he
      · exact absurd he.symm hne
      · rw [he] at h; rcases h with h | h <;> cases h
  · intro h
    rw [hp.2 (.inr h)]

/-- **C108 (a race, violated).** Of two processes that start at the same time both may find the pid file free and run. -/
theorem C108_race_violated (pa pb : Int) : ∃ x, startRun pa pb ⟨.missing, .new, .new⟩ [.a, .b, .a, .b] = some x ∧ x.a = .running ∧ x.b = .running :=
  ⟨_, rfl, rfl, rfl⟩

/-- **C108 (no race).** If one process has done its second step before the other one does its first, the other one is refused. -/
theorem C108_no_race {pa pb : Int} (ha : 0 < pa) (ha' : pa < 2147483648) (hne : pa ≠ pb) (file : PidFile) {x : Starting}
    (h : startRun pa pb ⟨file, .new, .new⟩ [.a, .a, .b] = some x) : x.a = .running ∧ x.b = .refused := by
  simp only [startRun, startStep, starterStep] at h
  cases hf : fileAvailable (twoSys pa pb pa) file with
  | none => rw [hf] at h; simp at h
  | some ok =>
    rw [hf] at h
    cases ok with
    | false => simp at h
    | true =>
      have := (C108_second (twoSys pa pb pb) (first := pa) (path := [1]) (t := intDec pa ++ [10]) (dirOk := true) (openOk := true) (by simp [makePidFile]) ha ha'
        (by simpa [twoSys] using hne.symm)).1 (.inl (by simp [twoSys]))
      simp only [Option.map_some, Option.bind_some, if_true, this] at h
      have e := Option.some.inj h
      subst e
      exact ⟨rfl, rfl⟩

/-- **C108 (odd pid files, violated).** A pid file with 0 or -1 is refused for ever, and one with a long number throws. -/
theorem C108_file_violated (s : Sys) (h0 : s.kill 0 = .ok) (h1 : s.kill 1 = .ok) (hs : 1 < s.self) :
    fileAvailable s (.text (ascii "0\n")) = some false ∧ fileAvailable s (.text (ascii "-1\n")) = some false ∧
    fileAvailable s (.text (ascii "4294967296\n")) = none := by
  have key := (C108_file s).2.2.2
  have e0 : pidAvailable s 0 = false := by unfold pidAvailable; rw [if_neg (by omega), h0]
  have e1 : pidAvailable s 1 = false := by unfold pidAvailable; rw [if_neg (by omega), h1]
  refine ⟨?_, ?_, ?_⟩
  · have := key [] [48] [10] (by simp) (by simp; decide) (by simp) (by intro c hc; simp at hc; subst hc; decide)
    rw [show ([] ++ [48] ++ [10] : Bytes) = ascii "0\n" by decide +kernel, show digitsVal 0 [48] = 0 from rfl] at this
    rw [this, show toPid 0 = 0 from rfl, e0]; rfl
  · have := key [45] [49] [10] (by simp; decide) (by simp; decide) (by simp) (by intro c hc; simp at hc; subst hc; decide)
    rw [show ([45] ++ [49] ++ [10] : Bytes) = ascii "-1\n" by decide +kernel, show digitsVal 0 [49] = 1 from rfl] at this
    rw [this, show toPid 1 = 1 from rfl, e1]; rfl
  · have := key [] (ascii "4294967296") [10] (by simp) (by decide +kernel) (by decide +kernel) (by intro c hc; simp at hc; subst hc; decide)
    rw [show ([] ++ ascii "4294967296" ++ [10] : Bytes) = ascii "4294967296\n" by decide +kernel,
      show digitsVal 0 (ascii "4294967296") = 4294967296 by decide +kernel] at this
    rw [this]; rfl

/-! ## Commands -/

theorem fread_spec (n : Nat) (hn : 0 < n) (exit : Int) (fails : Bool) : ∀ (cs : List Bytes) (buf : Bytes),
    (n ≤ (buf ++ cs.flatten).length → (fread n exit fails buf cs).1 = (buf ++ cs.flatten).take n ∧ (fread n exit fails buf cs).2.1.rest = (buf ++ cs.flatten).drop n ∧
      (fread n exit fails buf cs).2.1.fails = fails ∧ (fread n exit fails buf cs).2.1.exit = exit ∧ (fread n exit fails buf cs).2.2 = false) ∧
    ((buf ++ cs.flatten).length < n → (fread n exit fails buf cs).1 = buf ++ cs.flatten ∧ (fread n exit fails buf cs).2.2 = fails)
  | [], buf => by
    rw [fread]
    simp only [List.flatten_nil, List.append_nil]
    constructor
    · intro h; rw [if_pos h]; simp [Pipe.rest]
    · intro h; rw [if_neg (by omega)]; simp
  | c :: cs, buf => by
    rw [fread]
    by_cases hb : n ≤ buf.length
    · rw [if_pos hb]
      constructor
      · intro _
        refine ⟨?_, ?_, rfl, rfl, rfl⟩
        · rw [List.take_append_of_le_length hb]
        · rw [List.drop_append_of_le_length hb]; rfl
      · intro h
        rw [List.length_append] at h; omega
    · rw [if_neg hb]
      have ih := fread_spec n hn exit fails cs (buf ++ c)
      rw [List.flatten_cons, ← List.append_assoc]
      exact ih

theorem readLoop_spec : ∀ (f : Nat) (p : Pipe) (out : Bytes), p.rest.length < f → readLoop f p out = (out ++ p.rest, p.fails)
  | 0, _, _, h => by omega
  | f + 1, p, out, h => by
    rw [readLoop]
    have hs := fread_spec 1024 (by omega) p.exit p.fails p.chunks p.buf
    generalize fread 1024 p.exit p.fails p.buf p.chunks = r at hs
    obtain ⟨got, p', err⟩ := r
    dsimp only at hs ⊢
    have happ : (if 0 < got.length then out ++ got else out) = out ++ got := by
      split
      · rfl
      · have : got = [] := List.length_eq_zero_iff.1 (by omega)
        simp [this]
    rw [happ]
    have hrest : p.buf ++ p.chunks.flatten = p.rest := rfl
    rw [hrest] at hs
    by_cases hl : 1024 ≤ p.rest.length
    · obtain ⟨h1, h2, h3, _, _⟩ := hs.1 hl
      have hgl : got.length = 1024 := by rw [h1, List.length_take]; omega
      rw [if_pos hgl, readLoop_spec f p' (out ++ got) (by rw [h2, List.length_drop]; omega), h2, h1, h3, List.append_assoc, List.take_append_drop]
    · obtain ⟨h1, h2⟩ := hs.2 (by omega)
      rw [if_neg (by rw [h1]; omega), h1, h2]

/-- **C108 (output).** Running a command gives its whole output, however it comes in pieces, unless reading fails, which is reported. -/
theorem C108_output (p : Pipe) : runCommand (some p) = if p.fails then none else some (p.buf ++ p.chunks.flatten) := by
  unfold runCommand
  dsimp only
  rw [readLoop_spec _ p [] (by omega)]
  dsimp only
  rw [List.nil_append]
  rfl

/-- **C108 (failed commands, violated).** A command that fails is reported as a success with whatever it has written. -/
theorem C108_exit_violated : runCommand (some ⟨[], [], false, 127⟩) = some [] := by rw [C108_output]; rfl

/-- The hypotheses can be met. -/
example : makePidFile 321 (ascii "/run/x.pid") true true 0 = some (ascii "321\n") ∧
    fileAvailable ⟨400, fun p => if p = 321 then .eperm else .esrch⟩ (.text (ascii "321\n")) = some false ∧
    fileAvailable ⟨400, fun _ => .esrch⟩ (.text (ascii "pid:\n  321 x 7\n")) = some true ∧
    (∃ x, startRun 5 6 ⟨.text (ascii "9\n"), .new, .new⟩ [.a, .a, .b] = some x) := by
  refine ⟨by decide +kernel, by decide +kernel, by decide +kernel, ?_⟩
  exact Option.isSome_iff_exists.1 (by decide +kernel)

example : runCommand (some ⟨[], [List.replicate 1000 1, List.replicate 1048 2, [3]], false, 0⟩) = some (List.replicate 1000 1 ++ (List.replicate 1048 2 ++ [3])) := by
  rw [C108_output, if_neg Bool.false_ne_true, List.flatten_cons, List.flatten_cons, List.flatten_cons, List.flatten_nil, List.append_nil, List.nil_append]

end Process
end Nebula
