import Verif.Http.Dispatch
import Verif.Http.DispatchSpec
import Verif.Http.Props
/-! # Downloads and ingests (C125) -/
namespace Nebula
namespace Http
open FullText (sh shellArgs QuotableByte)

theorem pieces_cut {c : UInt8} : ∀ {a : Bytes} (b : Bytes), c ∉ a → pieces c (a ++ c :: b) = a :: pieces c b
  | [], b, _ => by simp [pieces]
  | x :: a, b, h => by
    simp only [List.mem_cons, not_or] at h
    rw [List.cons_append, pieces, if_neg (Ne.symm h.1), pieces_cut b h.2]

theorem pieces_last {c : UInt8} : ∀ {a : Bytes}, c ∉ a → pieces c a = [a]
  | [], _ => rfl
  | x :: a, h => by
    simp only [List.mem_cons, not_or] at h
    rw [pieces, if_neg (Ne.symm h.1), pieces_last h.2]

theorem cut_at {c : UInt8} {a : Bytes} (b : Bytes) (h : c ∉ a) : cut c (a ++ c :: b) = (a, b) := by
  have h' : ∀ x ∈ a, (decide (x ≠ c)) = true := fun x hx => by simp; rintro rfl; exact h hx
  unfold cut
  rw [List.takeWhile_append_of_pos h', List.dropWhile_append_of_pos h']
  simp

theorem intDec_no (c : UInt8) (h1 : isDigit c = false) (h2 : c ≠ 45) (i : Int) : c ∉ intDec i := by
  intro h
  unfold intDec at h
  split at h
  · rcases List.mem_cons.1 h with h | h
    · exact h2 h
    · rw [natDec_digits _ c h] at h1; cases h1
  · rw [natDec_digits _ c h] at h1; cases h1

theorem isDigit_quotable : ∀ c : UInt8, isDigit c = true → QuotableByte c :=
  FullText.allBytes (P := fun c => isDigit c = true → QuotableByte c) (by unfold QuotableByte; decide +kernel)

theorem intDec_quotable (i : Int) : ∀ b ∈ intDec i, QuotableByte b := by
  intro b hb
  unfold intDec at hb
  split at hb
  · rcases List.mem_cons.1 hb with rfl | hb
    · unfold QuotableByte; decide +kernel
    · exact isDigit_quotable b (natDec_digits _ b hb)
  · exact isDigit_quotable b (natDec_digits _ b hb)

theorem request_printed (run : Bytes → Option Process.Pipe) (cmd : Bytes) : request run cmd = printed (run cmd) := by
  unfold request printed
  cases run cmd with
  | none => rfl
  | some p => exact Process.C108_output p

theorem readUrl_args {front : Bytes} (h : (63 : UInt8) ∉ front) (rest : Bytes) :
    readUrl (front ++ 63 :: rest) = (front, (pieces 38 rest).map (cut 61)) := by
  unfold readUrl; rw [cut_at rest h]

/-- The front of an address. -/
def front (leader : Bytes) (wsPort : Int) (path : Bytes) : Bytes := ascii "http://" ++ leader ++ ascii ":" ++ intDec wsPort ++ path

theorem front_no {leader : Bytes} (hl : SafeHost leader) (wsPort : Int) {path : Bytes} (hp : (63 : UInt8) ∉ path) :
    (63 : UInt8) ∉ front leader wsPort path := by
  unfold front
  simp only [List.mem_append, not_or]
  exact ⟨⟨⟨⟨by decide +kernel, fun h => (hl _ h).1 rfl⟩, by decide +kernel⟩, intDec_no 63 (by decide) (by decide) _⟩, hp⟩

theorem downloadUrl_eq {leader host path : Bytes} (hl : SafeHost leader) (hh : SafeArg host) (hp : SafeArg path) (wsPort port space : Int) :
    downloadUrl leader wsPort host port path space = front leader wsPort (ascii "/download-dispatch") ++
      63 :: ((ascii "host" ++ 61 :: host) ++ 38 :: ((ascii "port" ++ 61 :: intDec port) ++ 38 :: ((ascii "path" ++ 61 :: path) ++
        38 :: (ascii "space" ++ 61 :: intDec space)))) := by
  unfold downloadUrl front
  rw [cstr_quotable fun b hb => (hl b hb).2, cstr_quotable fun b hb => (hh b hb).2, cstr_quotable fun b hb => (hp b hb).2,
    show ascii "/download-dispatch?host=" = ascii "/download-dispatch" ++ 63 :: (ascii "host" ++ [61]) by decide +kernel,
    show ascii "&port=" = 38 :: (ascii "port" ++ [61]) by decide +kernel,
    show ascii "&path=" = 38 :: (ascii "path" ++ [61]) by decide +kernel,
    show ascii "&space=" = 38 :: (ascii "space" ++ [61]) by decide +kernel]
  simp

theorem ingestUrl_eq {leader : Bytes} (hl : SafeHost leader) (wsPort space : Int) :
    ingestUrl leader wsPort space = front leader wsPort (ascii "/ingest-dispatch") ++ 63 :: (ascii "space" ++ 61 :: intDec space) := by
  unfold ingestUrl front
  rw [cstr_quotable fun b hb => (hl b hb).2,
    show ascii "/ingest-dispatch?space=" = ascii "/ingest-dispatch" ++ 63 :: (ascii "space" ++ [61]) by decide +kernel]
  simp

/-- **C125 (address).** The web server of the leader is asked for a download with exactly the four arguments of the call. -/
theorem C125_download_address {leader host path : Bytes} (hl : SafeHost leader) (hh : SafeArg host) (hp : SafeArg path) (wsPort port space : Int) :
    readUrl (downloadUrl leader wsPort host port path space) =
      (ascii "http://" ++ leader ++ ascii ":" ++ intDec wsPort ++ ascii "/download-dispatch",
        [(ascii "host", host), (ascii "port", intDec port), (ascii "path", path), (ascii "space", intDec space)]) := by
  have h1 : (38 : UInt8) ∉ ascii "host" ++ 61 :: host := by
    simp only [List.mem_append, List.mem_cons, not_or]
    exact ⟨by decide +kernel, by decide, fun h => (hh _ h).1 rfl⟩
  have h2 : (38 : UInt8) ∉ ascii "port" ++ 61 :: intDec port := by
    simp only [List.mem_append, List.mem_cons, not_or]
    exact ⟨by decide +kernel, by decide, intDec_no 38 (by decide) (by decide) _⟩
  have h3 : (38 : UInt8) ∉ ascii "path" ++ 61 :: path := by
    simp only [List.mem_append, List.mem_cons, not_or]
    exact ⟨by decide +kernel, by decide, fun h => (hp _ h).1 rfl⟩
  have h4 : (38 : UInt8) ∉ ascii "space" ++ 61 :: intDec space := by
    simp only [List.mem_append, List.mem_cons, not_or]
    exact ⟨by decide +kernel, by decide, intDec_no 38 (by decide) (by decide) _⟩
  rw [downloadUrl_eq hl hh hp, readUrl_args (front_no hl wsPort (by decide +kernel)), pieces_cut _ h1, pieces_cut _ h2, pieces_cut _ h3, pieces_last h4]
  simp only [List.map_cons, List.map_nil, front]
  rw [cut_at _ (by decide +kernel), cut_at _ (by decide +kernel), cut_at _ (by decide +kernel), cut_at _ (by decide +kernel)]

/-- **C125 (address).** The same for an ingest. -/
theorem C125_ingest_address {leader : Bytes} (hl : SafeHost leader) (wsPort space : Int) :
    readUrl (ingestUrl leader wsPort space) =
      (ascii "http://" ++ leader ++ ascii ":" ++ intDec wsPort ++ ascii "/ingest-dispatch", [(ascii "space", intDec space)]) := by
  have h4 : (38 : UInt8) ∉ ascii "space" ++ 61 :: intDec space := by
    simp only [List.mem_append, List.mem_cons, not_or]
    exact ⟨by decide +kernel, by decide, intDec_no 38 (by decide) (by decide) _⟩
  rw [ingestUrl_eq hl, readUrl_args (front_no hl wsPort (by decide +kernel)), pieces_last h4]
  simp only [List.map_cons, List.map_nil, front]
  rw [cut_at _ (by decide +kernel)]

/-- **C125 (address).** Different downloads ask for different things. -/
theorem C125_distinct_partial {leader h1 p1 h2 p2 : Bytes} (hl : SafeHost leader) (hh1 : SafeArg h1) (hp1 : SafeArg p1) (hh2 : SafeArg h2) (hp2 : SafeArg p2)
    {wsPort n1 n2 s1 s2 : Int} (h : downloadUrl leader wsPort h1 n1 p1 s1 = downloadUrl leader wsPort h2 n2 p2 s2) :
    h1 = h2 ∧ n1 = n2 ∧ p1 = p2 ∧ s1 = s2 := by
  have e1 := C125_download_address hl hh1 hp1 wsPort n1 s1
  rw [h, C125_download_address hl hh2 hp2 wsPort n2 s2] at e1
  simp only [Prod.mk.injEq, true_and, List.cons.injEq, and_true] at e1
  obtain ⟨a, b, c, d⟩ := e1
  exact ⟨a.symm, (intDec_inj b).symm, c.symm, (intDec_inj d).symm⟩

theorem ascii_quotable (s : String) (h : (ascii s).all (fun b => decide (b ≠ 34 ∧ b ≠ 92 ∧ FullText.dquoteSpecial b = false)) = true) :
    ∀ b ∈ ascii s, QuotableByte b := by
  intro b hb
  have := List.all_eq_true.1 h b hb
  simpa [QuotableByte] using this

theorem downloadUrl_quotable {leader host path : Bytes} (hl : SafeHost leader) (hh : SafeArg host) (hp : SafeArg path) (wsPort port space : Int) :
    ∀ b ∈ downloadUrl leader wsPort host port path space, QuotableByte b := by
  unfold downloadUrl
  rw [cstr_quotable fun b hb => (hl b hb).2, cstr_quotable fun b hb => (hh b hb).2, cstr_quotable fun b hb => (hp b hb).2]
  intro b hb
  simp only [List.mem_append] at hb
  rcases hb with (((((((((((h | h) | h) | h) | h) | h) | h) | h) | h) | h) | h) | h)
  · exact ascii_quotable _ (by decide +kernel) b h
  · exact (hl b h).2
  · exact ascii_quotable _ (by decide +kernel) b h
  · exact intDec_quotable _ b h
  · exact ascii_quotable _ (by decide +kernel) b h
  · exact (hh b h).2
  · exact ascii_quotable _ (by decide +kernel) b h
  · exact intDec_quotable _ b h
  · exact ascii_quotable _ (by decide +kernel) b h
  · exact (hp b h).2
  · exact ascii_quotable _ (by decide +kernel) b h
  · exact intDec_quotable _ b h

theorem ingestUrl_quotable {leader : Bytes} (hl : SafeHost leader) (wsPort space : Int) : ∀ b ∈ ingestUrl leader wsPort space, QuotableByte b := by
  unfold ingestUrl
  rw [cstr_quotable fun b hb => (hl b hb).2]
  intro b hb
  simp only [List.mem_append] at hb
  rcases hb with ((((h | h) | h) | h) | h) | h
  · exact ascii_quotable _ (by decide +kernel) b h
  · exact (hl b h).2
  · exact ascii_quotable _ (by decide +kernel) b h
  · exact intDec_quotable _ b h
  · exact ascii_quotable _ (by decide +kernel) b h
  · exact intDec_quotable _ b h

/-- **C125 (outcome of a download).** If the command can be run and read, curl was called with that address and nothing else, and the
download counts as done exactly if it printed exactly the text of success. -/
theorem C125_download_partial {leader host path : Bytes} (hl : SafeHost leader) (hh : SafeArg host) (hp : SafeArg path) (wsPort port space : Int)
    (run : Bytes → Option Process.Pipe) : ∃ cmd, shellArgs cmd = some [ascii "/usr/bin/curl", ascii "-G", downloadUrl leader wsPort host port path space] ∧
      ∀ text, printed (run cmd) = some text →
        download run leader wsPort host port path space = .done (decide (text = ascii "SSTFile dispatch successfully")) := by
  refine ⟨getCommand (downloadUrl leader wsPort host port path space) (ascii "-G"), ?_, fun text ht => ?_⟩
  · exact (C109_options (ws := [ascii "-G"]) (by decide +kernel) (downloadUrl_quotable hl hh hp wsPort port space)).1
  · unfold download
    rw [request_printed, ht]

/-- **C125 (outcome of an ingest).** The same for an ingest, which is not done if the command cannot be run or read. -/
theorem C125_ingest {leader : Bytes} (hl : SafeHost leader) (wsPort space : Int)
    (run : Bytes → Option Process.Pipe) : ∃ cmd, shellArgs cmd = some [ascii "/usr/bin/curl", ascii "-G", ingestUrl leader wsPort space] ∧
      ingest run leader wsPort space = .done (decide (printed (run cmd) = some (ascii "SSTFile ingest successfully"))) := by
  refine ⟨getCommand (ingestUrl leader wsPort space) (ascii "-G"), ?_, ?_⟩
  · exact (C109_options (ws := [ascii "-G"]) (by decide +kernel) (ingestUrl_quotable hl wsPort space)).1
  · unfold ingest
    rw [request_printed]
    cases printed (run (getCommand (ingestUrl leader wsPort space) (ascii "-G"))) with
    | none => simp
    | some t => simp

/-- **C125 (violated).** If curl cannot be started, the download is not reported as failed: the missing value is read. -/
theorem C125_download_violated (leader host path : Bytes) (wsPort port space : Int) :
    download (fun _ => none) leader wsPort host port path space = .undef := rfl

/-- **C125 (violated).** Arguments are not escaped: two different downloads ask for the same. -/
theorem C125_escape_violated (leader : Bytes) (wsPort space : Int) :
    downloadUrl leader wsPort (ascii "a&port=1&path=/x") 2 (ascii "/y") space = downloadUrl leader wsPort (ascii "a") 1 (ascii "/x&port=2&path=/y") space := by
  unfold downloadUrl
  simp only [List.append_assoc]
  congr 5

/-- The hypotheses hold for ordinary names, and the download of a file is done if the leader says so. -/
example : SafeHost (ascii "meta-0.local") ∧ SafeArg (ascii "hdfs") ∧ SafeArg (ascii "/data/part 1/x.sst") ∧
    download (fun _ => some ⟨[], [ascii "SSTFile ", ascii "dispatch successfully"], false, 0⟩) (ascii "meta-0.local") 11000 (ascii "hdfs") 9000
      (ascii "/data/part 1/x.sst") 3 = .done true ∧
    download (fun _ => some ⟨[], [], false, 7⟩) (ascii "meta-0.local") 11000 (ascii "hdfs") 9000 (ascii "/data/part 1/x.sst") 3 = .done false := by
  refine ⟨?_, ?_, ?_, ?_, ?_⟩
  · unfold SafeHost QuotableByte; decide +kernel
  · unfold SafeArg QuotableByte; decide +kernel
  · unfold SafeArg QuotableByte; decide +kernel
  · unfold download; rw [request_printed]; decide +kernel
  · unfold download; rw [request_printed]; decide +kernel

end Http
end Nebula
