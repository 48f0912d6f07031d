import Verif.Net.Ports
import Verif.Net.Props
import Verif.Fs.LinesProps
/-! # C113 and C114: interfaces, name resolution and ports -/
namespace Nebula
namespace Net

/-! ## Specification -/

/-- The addresses of device `n` in the order of the list. -/
def addrsOf (n : Bytes) : List (Bytes × IfAddr) → List Bytes
  | [] => []
  | (m, .ipv4 a b c d) :: l => if m = n then dotted a.toNat b.toNat c.toNat d.toNat :: addrsOf n l else addrsOf n l
  | _ :: l => addrsOf n l

/-- The IPv4 addresses among the answers, in order. -/
def ipv4Texts : List IfAddr → List Bytes
  | [] => []
  | .ipv4 a b c d :: l => dotted a.toNat b.toNat c.toNat d.toNat :: ipv4Texts l
  | _ :: l => ipv4Texts l

def hexDigit (n : Nat) : UInt8 := if n < 10 then UInt8.ofNat (48 + n) else UInt8.ofNat (55 + n)

/-- A port as the kernel prints it: four hexadecimal digits. -/
def hex4 (p : Nat) : Bytes := [hexDigit (p / 4096 % 16), hexDigit (p / 256 % 16), hexDigit (p / 16 % 16), hexDigit (p % 16)]

/-- A line of /proc/net/tcp and its likes for a socket bound to port `p`: slot, local address, port, and the rest after a blank. -/
def SocketLine (l : Bytes) (p : Nat) : Prop :=
  ∃ slot addr tail, slot ≠ [] ∧ (58 : UInt8) ∉ slot ∧ addr ≠ [] ∧ (58 : UInt8) ∉ addr ∧ p < 65536 ∧ l = slot ++ 58 :: (addr ++ 58 :: (hex4 p ++ 32 :: tail))

/-- What the files of the kernel look like: lines of sockets, and headings without a colon. -/
def Table (s : Bytes) : Prop := ∀ l ∈ Fs.lines s, (58 : UInt8) ∉ l ∨ ∃ p, SocketLine l p

/-- Some readable file has a socket bound to port `p`. -/
def InUse (files : List (Option Bytes)) (p : Nat) : Prop := ∃ s, some s ∈ files ∧ ∃ l ∈ Fs.lines s, SocketLine l p

/-! ## Addresses -/

theorem ntoa_dotted (a b c d : UInt8) : ntoa a b c d = dotted a.toNat b.toNat c.toNat d.toNat := by
  simp [ntoa, dotted, join]

theorem find_assign (m : List (Bytes × Bytes)) (n t k : Bytes) :
    ((assign m n t).find? (·.1 == k)).map (·.2) = if n = k then some t else (m.find? (·.1 == k)).map (·.2) := by
  unfold assign
  split
  · rename_i hany
    induction m with
    | nil => simp at hany
    | cons e m ih =>
      simp only [List.map_cons]
      by_cases he : e.1 = n
      · simp only [he, if_true]
        by_cases hk : n = k
        · simp [hk]
        · rw [if_neg hk]
          rw [List.find?_cons_of_neg (by simp [hk]), List.find?_cons_of_neg (by simp [he, hk])]
          by_cases hm : m.any (·.1 == n) = true
          · rw [ih hm, if_neg hk]
          · have : m.map (fun e => if e.1 = n then (n, t) else e) = m := by
              rw [List.map_congr_left (g := id) (fun x hx => ?_)]; simp
              have : x.1 ≠ n := fun h => hm (List.any_eq_true.2 ⟨x, hx, by simp [h]⟩)
              simp [this]
            rw [this]
      · simp only [he, if_false]
        have hm : m.any (·.1 == n) = true := by simpa [he] using hany
        by_cases hk : e.1 = k
        · have : n ≠ k := fun h => he (hk.trans h.symm)
          simp [hk, this]
        · rw [List.find?_cons_of_neg (by simp [hk]), List.find?_cons_of_neg (by simp [hk]), ih hm]
  · rename_i hany
    rw [List.find?_append]
    by_cases hk : n = k
    · have : m.find? (·.1 == k) = none := by
        rw [List.find?_eq_none]; intro x hx h
        exact hany (List.any_eq_true.2 ⟨x, hx, by rw [hk]; exact h⟩)
      simp [this, hk]
    · simp [hk]

theorem devices_spec : ∀ (l : List (Bytes × IfAddr)) (m : List (Bytes × Bytes)), (∀ e ∈ l, e.2 ≠ .missing) →
    ∃ r, devices l m = some r ∧ ∀ k, (r.find? (·.1 == k)).map (·.2) = ((addrsOf k l).getLast?).or ((m.find? (·.1 == k)).map (·.2))
  | [], m, _ => ⟨m, rfl, fun k => by simp [addrsOf]⟩
  | (n, .missing) :: l, m, h => absurd rfl (h _ (List.mem_cons_self ..))
  | (n, .other) :: l, m, h => by
    obtain ⟨r, h1, h2⟩ := devices_spec l m (fun e he => h e (List.mem_cons_of_mem _ he))
    exact ⟨r, h1, fun k => by rw [h2, addrsOf]; simp⟩
  | (n, .ipv4 a b c d) :: l, m, h => by
    obtain ⟨r, h1, h2⟩ := devices_spec l (assign m n (ntoa a b c d)) (fun e he => h e (List.mem_cons_of_mem _ he))
    refine ⟨r, h1, fun k => ?_⟩
    rw [h2, find_assign, addrsOf, ntoa_dotted]
    by_cases hk : n = k
    · simp only [if_pos hk]
      cases hl : (addrsOf k l).getLast? with
      | none => rw [List.getLast?_eq_none_iff] at hl; simp [hl]
      | some x => rw [List.getLast?_cons, hl]; simp
    · simp only [if_neg hk]

theorem assign_ne_nil (m : List (Bytes × Bytes)) (n t : Bytes) : assign m n t ≠ [] := by
  unfold assign; split
  · rename_i h; cases m with
    | nil => simp at h
    | cons => simp
  · simp

theorem assign_nodup {m : List (Bytes × Bytes)} (h : (m.map (·.1)).Nodup) (n t : Bytes) : ((assign m n t).map (·.1)).Nodup := by
  unfold assign; split
  · have : (m.map fun e => if e.1 = n then (n, t) else e).map (·.1) = m.map (·.1) := by
      rw [List.map_map]; apply List.map_congr_left; intro x _; simp only [Function.comp]; split
      · rename_i h; exact h.symm
      · rfl
    rw [this]; exact h
  · rename_i hany
    rw [List.map_append, List.nodup_append]
    refine ⟨h, by simp, fun a ha b hb e => hany ?_⟩
    simp at hb; subst hb
    obtain ⟨x, hx, hxa⟩ := List.mem_map.1 ha
    exact List.any_eq_true.2 ⟨x, hx, by simp [hxa, e]⟩

theorem devices_nodup : ∀ (l : List (Bytes × IfAddr)) (m r : List (Bytes × Bytes)), devices l m = some r → (m.map (·.1)).Nodup → (r.map (·.1)).Nodup
  | [], m, r, h, hm => by cases h; exact hm
  | (n, .missing) :: l, m, r, h, hm => by cases h
  | (n, .other) :: l, m, r, h, hm => devices_nodup l m r h hm
  | (n, .ipv4 a b c d) :: l, m, r, h, hm => devices_nodup l _ r h (assign_nodup hm ..)

/-- **C113 (devices).** The address of a device is its IPv4 address, the last one listed if it has several; `any` is every address; asking for a device
without IPv4 address, or when the interfaces cannot be listed, is an error. -/
theorem C113_device (l : List (Bytes × IfAddr)) (hl : ∀ e ∈ l, e.2 ≠ .missing) (n : Bytes) :
    getIPv4FromDevice (some l) n = some (if n = ascii "any" then some (ascii "0.0.0.0") else (addrsOf n l).getLast?) := by
  unfold getIPv4FromDevice
  split
  · rfl
  · obtain ⟨r, h1, h2⟩ := devices_spec l [] hl
    simp only [listDeviceAndIPv4s, h1, Option.map_some]
    have := h2 n
    simp only [List.find?_nil, Option.map_none, Option.or_none] at this
    cases r with
    | nil => rw [← this]; rfl
    | cons e r => rw [← this]; rfl

theorem find_mem {m : List (Bytes × Bytes)} (hn : (m.map (·.1)).Nodup) {k t : Bytes} : (k, t) ∈ m ↔ (m.find? (·.1 == k)).map (·.2) = some t := by
  induction m with
  | nil => simp
  | cons e m ih =>
    rw [List.map_cons, List.nodup_cons] at hn
    by_cases hk : e.1 = k
    · simp only [List.find?_cons, beq_iff_eq, hk, if_true, beq_self_eq_true, Option.map_some, Option.some.injEq, List.mem_cons]
      refine ⟨fun h => ?_, fun h => .inl (by cases e; simp_all)⟩
      rcases h with h | h
      · rw [← h]
      · exact absurd (List.mem_map.2 ⟨_, h, hk.symm⟩) hn.1
    · rw [List.find?_cons_of_neg (by simp [hk]), ← ih hn.2, List.mem_cons]
      exact ⟨fun h => h.resolve_left (fun h => hk (by rw [← h])), .inr⟩

/-- **C113 (list of devices).** The table has every device with an IPv4 address once, with the address `getIPv4FromDevice` gives; it is an error if there is none. -/
theorem C113_list (l : List (Bytes × IfAddr)) (hl : ∀ e ∈ l, e.2 ≠ .missing) :
    (listDeviceAndIPv4s (some l) = some none ∧ ∀ n, addrsOf n l = []) ∨
    ∃ m, listDeviceAndIPv4s (some l) = some (some m) ∧ m ≠ [] ∧ (m.map (·.1)).Nodup ∧ ∀ n t, (n, t) ∈ m ↔ (addrsOf n l).getLast? = some t := by
  obtain ⟨r, h1, h2⟩ := devices_spec l [] hl
  have hn := devices_nodup l [] r h1 (by simp)
  have h3 : ∀ k, (r.find? (·.1 == k)).map (·.2) = (addrsOf k l).getLast? := fun k => by rw [h2]; simp
  simp only [listDeviceAndIPv4s, h1, Option.map_some]
  cases r with
  | nil => exact .inl ⟨rfl, fun n => List.getLast?_eq_none_iff.1 (h3 n).symm⟩
  | cons e r => exact .inr ⟨_, rfl, by simp, hn, fun n t => by rw [find_mem hn, h3]⟩

/-- **C113 (list of addresses).** The list has one address for every device with an IPv4 address, the one `getIPv4FromDevice` gives. -/
theorem C113_addresses (l : List (Bytes × IfAddr)) (hl : ∀ e ∈ l, e.2 ≠ .missing) :
    (listIPv4s (some l) = some none ∧ ∀ n, addrsOf n l = []) ∨
    ∃ (names : List Bytes) (r : List Bytes), listIPv4s (some l) = some (some r) ∧ names.Nodup ∧ (∀ n, n ∈ names ↔ addrsOf n l ≠ []) ∧
      r.map some = names.map fun n => (addrsOf n l).getLast? := by
  rcases C113_list l hl with ⟨h1, h2⟩ | ⟨m, h1, _, h2, h3⟩
  · exact .inl ⟨by rw [listIPv4s, h1]; rfl, h2⟩
  · refine .inr ⟨m.map (·.1), m.map (·.2), by rw [listIPv4s, h1]; rfl, h2, fun n => ?_, ?_⟩
    · constructor
      · intro h
        obtain ⟨⟨n', t⟩, hm, rfl⟩ := List.mem_map.1 h
        have := (h3 _ _).1 hm
        intro e
        simp [e] at this
      · intro h
        obtain ⟨t, ht⟩ : ∃ t, (addrsOf n l).getLast? = some t := ⟨_, List.getLast?_eq_some_getLast h⟩
        exact List.mem_map.2 ⟨(n, t), (h3 n t).2 ht, rfl⟩
    · rw [List.map_map, List.map_map]
      refine List.map_congr_left fun x hx => ?_
      exact ((h3 x.1 x.2).1 hx).symm

/-- C113: if the list of interfaces cannot be had, everything but the address of "any" is an error. -/
theorem C113_failure (d : Bytes) : listDeviceAndIPv4s none = some none ∧ listIPv4s none = some none ∧
    getIPv4FromDevice none d = some (if d = ascii "any" then some (ascii "0.0.0.0") else none) := by
  refine ⟨rfl, rfl, ?_⟩
  unfold getIPv4FromDevice
  by_cases h : d = ascii "any"
  · rw [if_pos h, if_pos h]
  · rw [if_neg h, if_neg h]; rfl

/-- **C113 fails for interfaces without an address** (as a tunnel or a bridge member may be): the null address is read. -/
theorem C113_missing_violated (n : Bytes) (l l' : List (Bytes × IfAddr)) (d : Bytes) (hd : d ≠ ascii "any") : getIPv4FromDevice (some (l ++ (n, .missing) :: l')) d = none := by
  have : ∀ (l : List (Bytes × IfAddr)) m, devices (l ++ (n, .missing) :: l') m = none := by
    intro l
    induction l with
    | nil => intro m; rfl
    | cons e l ih => intro m; obtain ⟨k, a⟩ := e; cases a <;> simp [devices, ih]
  simp [getIPv4FromDevice, hd, listDeviceAndIPv4s, this]

example : getIPv4FromDevice (some [(ascii "lo", .ipv4 127 0 0 1), (ascii "lo", .other), (ascii "eth0", .ipv4 10 0 0 5), (ascii "eth0", .ipv4 10 0 0 6)]) (ascii "eth0") =
    some (some (ascii "10.0.0.6")) := by
  rw [C113_device _ (by decide +kernel)]; decide +kernel

theorem or4 {a b c d : Nat} (hb : b < 256) (hc : c < 256) (hd : d < 256) :
    a * 2 ^ 24 ||| b * 2 ^ 16 ||| c * 2 ^ 8 ||| d = a * 2 ^ 24 + b * 2 ^ 16 + c * 2 ^ 8 + d := by
  have e1 : a * 2 ^ 24 ||| b * 2 ^ 16 = a * 2 ^ 24 + b * 2 ^ 16 := by
    rw [Nat.mul_comm a, ← Nat.two_pow_add_eq_or_of_lt (by omega)]
  have e2 : a * 2 ^ 24 + b * 2 ^ 16 ||| c * 2 ^ 8 = a * 2 ^ 24 + b * 2 ^ 16 + c * 2 ^ 8 := by
    have : a * 2 ^ 24 + b * 2 ^ 16 = 2 ^ 16 * (a * 256 + b) := by omega
    rw [this, ← Nat.two_pow_add_eq_or_of_lt (by omega)]
  have e3 : a * 2 ^ 24 + b * 2 ^ 16 + c * 2 ^ 8 ||| d = a * 2 ^ 24 + b * 2 ^ 16 + c * 2 ^ 8 + d := by
    have : a * 2 ^ 24 + b * 2 ^ 16 + c * 2 ^ 8 = 2 ^ 8 * (a * 65536 + b * 256 + c) := by omega
    rw [this, ← Nat.two_pow_add_eq_or_of_lt (by omega)]
  rw [e1, e2, e3]

theorem shl {x : UInt32} (k : Nat) (kk : UInt32) (hk : kk.toNat = k) (h24 : k ≤ 24) (hx : x.toNat < 256) : (x <<< kk).toNat = x.toNat * 2 ^ k := by
  have hlt : x.toNat * 2 ^ k < 2 ^ 32 := calc
    x.toNat * 2 ^ k < 256 * 2 ^ k := Nat.mul_lt_mul_of_pos_right hx (Nat.two_pow_pos k)
    _ ≤ 256 * 2 ^ 24 := Nat.mul_le_mul_left _ (Nat.pow_le_pow_right (by omega) h24)
    _ ≤ 2 ^ 32 := by decide
  have hk' : k % 32 = k := Nat.mod_eq_of_lt (by omega)
  rw [UInt32.toNat_shiftLeft, hk, hk', Nat.shiftLeft_eq, Nat.mod_eq_of_lt hlt]

theorem sAddr_toNat (a b c d : UInt8) : (sAddr a b c d).toNat = a.toNat + b.toNat * 2 ^ 8 + c.toNat * 2 ^ 16 + d.toNat * 2 ^ 24 := by
  have ha := a.toNat_lt; have hb := b.toNat_lt; have hc := c.toNat_lt; have hd := d.toNat_lt
  unfold sAddr
  simp only [UInt32.toNat_or]
  rw [shl 8 8 rfl (by omega) (by simpa using hb), shl 16 16 rfl (by omega) (by simpa using hc), shl 24 24 rfl (by omega) (by simpa using hd)]
  simp only [UInt8.toNat_toUInt32]
  have := or4 (a := d.toNat) hc hb ha
  rw [Nat.or_comm, Nat.or_comm (a.toNat ||| _), Nat.or_comm a.toNat, ← Nat.or_assoc, ← Nat.or_assoc, this]
  omega

theorem htonl_toNat (x : UInt32) : (htonl x).toNat = x.toNat % 256 * 2 ^ 24 + x.toNat / 2 ^ 8 % 256 * 2 ^ 16 + x.toNat / 2 ^ 16 % 256 * 2 ^ 8 + x.toNat / 2 ^ 24 % 256 := by
  have e1 : ∀ k : UInt32, k.toNat < 32 → ((x >>> k) &&& 0xFF).toNat = x.toNat / 2 ^ k.toNat % 256 := by
    intro k hk
    rw [and_ff, UInt32.toNat_shiftRight, Nat.shiftRight_eq_div_pow, Nat.mod_eq_of_lt hk]
  have m : ∀ n, n % 256 < 256 := fun n => Nat.mod_lt _ (by omega)
  unfold htonl
  simp only [UInt32.toNat_or]
  rw [shl 24 24 rfl (by omega) (by rw [and_ff]; exact m _), shl 16 16 rfl (by omega) (by rw [e1 8 (by decide)]; exact m _),
    shl 8 8 rfl (by omega) (by rw [e1 16 (by decide)]; exact m _), and_ff, e1 8 (by decide), e1 16 (by decide), e1 24 (by decide)]
  exact or4 (m _) (m _) (m _)

theorem ip_bytes (a b c d : UInt8) : intToIPv4 (htonl (sAddr a b c d)) = some (dotted a.toNat b.toNat c.toNat d.toNat) := by
  have ha := a.toNat_lt; have hb := b.toNat_lt; have hc := c.toNat_lt; have hd := d.toNat_lt
  have e : (htonl (sAddr a b c d)).toNat = a.toNat * 2 ^ 24 + b.toNat * 2 ^ 16 + c.toNat * 2 ^ 8 + d.toNat := by
    rw [htonl_toNat]
    have := sAddr_toNat a b c d
    have f1 : (sAddr a b c d).toNat % 256 = a.toNat := by omega
    have f2 : (sAddr a b c d).toNat / 2 ^ 8 % 256 = b.toNat := by omega
    have f3 : (sAddr a b c d).toNat / 2 ^ 16 % 256 = c.toNat := by omega
    have f4 : (sAddr a b c d).toNat / 2 ^ 24 % 256 = d.toNat := by omega
    rw [f1, f2, f3, f4]
  rw [C59_text, e]
  congr 2 <;> omega

theorem resolved_spec (port : Int) : ∀ l, resolved port l = some ((ipv4Texts l).map fun t => ⟨t, port⟩)
  | [] => rfl
  | .ipv4 a b c d :: l => by rw [resolved, ip_bytes, Option.bind_some, resolved_spec port l]; rfl
  | .other :: l => resolved_spec port l
  | .missing :: l => resolved_spec port l

/-- **C113 (names).** Resolving a name gives its IPv4 addresses in the order of the answer, as dotted quads with the port asked for; it is an error if
there are none or the name is unknown. -/
theorem C113_resolve (l : List IfAddr) (port : Int) :
    resolveHost none port = some none ∧
    resolveHost (some l) port = some (if ipv4Texts l = [] then none else some ((ipv4Texts l).map fun t => ⟨t, port⟩)) := by
  refine ⟨rfl, ?_⟩
  simp only [resolveHost, resolved_spec, Option.map_some]
  cases ipv4Texts l <;> rfl

example : resolveHost (some [.other, .ipv4 192 168 8 5, .ipv4 10 1 1 1]) 3699 = some (some [⟨ascii "192.168.8.5", 3699⟩, ⟨ascii "10.1.1.1", 3699⟩]) := by
  rw [(C113_resolve _ _).2]; decide +kernel

/-! ## Ports -/

theorem hexDigit_props : ∀ n : Fin 16, isHex (hexDigit n) = true ∧ hexVal (hexDigit n) = n := by decide

theorem hex4_hex (p : Nat) : ∀ c ∈ hex4 p, isHex c = true := by
  intro c hc
  have h := fun n => (hexDigit_props ⟨n % 16, Nat.mod_lt _ (by omega)⟩).1
  simp only [hex4, List.mem_cons, List.not_mem_nil, or_false] at hc
  rcases hc with e | e | e | e <;> (rw [e]; exact h _)

theorem hexVals_hex4 {p : Nat} (hp : p < 65536) : hexVals (hex4 p) = p := by
  have h : ∀ n, hexVal (hexDigit (n % 16)) = n % 16 := fun n => (hexDigit_props ⟨n % 16, Nat.mod_lt _ (by omega)⟩).2
  simp only [hexVals, hex4, List.foldl_cons, List.foldl_nil, h]
  omega

theorem hexGroup_stop {h : Bytes} (hh : ∀ c ∈ h, isHex c = true) (hne : h ≠ []) (tail : Bytes) : hexGroup (h ++ 32 :: tail) = some h := by
  have e1 : (h ++ 32 :: tail).takeWhile isHex = h := by
    rw [List.takeWhile_append_of_pos hh]; simp [List.takeWhile, isHex]
  have e2 : (h ++ 32 :: tail).dropWhile isHex = 32 :: tail := by
    rw [dropWhile_append_all _ _ hh]; rfl
  simp only [hexGroup, e1, e2]
  simp [hne]

theorem takeColon {s t : Bytes} (h : (58 : UInt8) ∉ s) : (s ++ 58 :: t).takeWhile (· ≠ 58) = s ∧ (s ++ 58 :: t).dropWhile (· ≠ 58) = 58 :: t := by
  have hs : ∀ c ∈ s, (decide (c ≠ 58)) = true := fun c hc => by simp; intro e; exact h (e ▸ hc)
  constructor
  · rw [List.takeWhile_append_of_pos hs]; simp
  · rw [dropWhile_append_all _ _ hs]; simp

theorem search_socket {l : Bytes} {p : Nat} (h : SocketLine l p) : (search l).bind portOf = some p := by
  obtain ⟨slot, addr, tail, h1, h2, h3, h4, hp, rfl⟩ := h
  have hm : matchHere (slot ++ 58 :: (addr ++ 58 :: (hex4 p ++ 32 :: tail))) = some (hex4 p) := by
    unfold matchHere
    rw [(takeColon h2).1, (takeColon h2).2]
    simp only [if_neg h1]
    rw [(takeColon h4).1, (takeColon h4).2]
    simp only [if_neg h3]
    exact hexGroup_stop (hex4_hex p) (by simp [hex4]) tail
  have hs : search (slot ++ 58 :: (addr ++ 58 :: (hex4 p ++ 32 :: tail))) = some (hex4 p) := by
    cases slot with
    | nil => exact absurd rfl h1
    | cons c s =>
      simp only [List.cons_append] at hm ⊢
      rw [search, hm]
  rw [hs, Option.bind_some, portOf, hexVals_hex4 hp, if_pos (by omega), Nat.mod_eq_of_lt hp]

theorem search_none : ∀ {l : Bytes}, (58 : UInt8) ∉ l → search l = none
  | [], _ => rfl
  | c :: l, h => by
    have hd : (c :: l).dropWhile (· ≠ 58) = [] := dropWhile_all _ fun x hx => by simp; intro e; exact h (e ▸ hx)
    have hm : matchHere (c :: l) = none := by
      unfold matchHere; rw [hd]; simp
    rw [search, hm]
    exact search_none fun hx => h (List.mem_cons_of_mem _ hx)

theorem collect_spec : ∀ (ls : List Bytes), (∀ l ∈ ls, (58 : UInt8) ∉ l ∨ ∃ p, SocketLine l p) →
    ∃ r, collectPorts (ls.filter fun l => (search l).isSome) = some r ∧ ∀ p, p ∈ r ↔ ∃ l ∈ ls, SocketLine l p
  | [], _ => ⟨[], rfl, fun p => by simp⟩
  | l :: ls, h => by
    obtain ⟨r, h1, h2⟩ := collect_spec ls (fun x hx => h x (List.mem_cons_of_mem _ hx))
    rcases h l (List.mem_cons_self ..) with hl | ⟨q, hq⟩
    · refine ⟨r, by rw [List.filter_cons_of_neg (by simp [search_none hl]), h1], fun p => ?_⟩
      rw [h2]
      constructor
      · rintro ⟨x, hx, hs⟩; exact ⟨x, List.mem_cons_of_mem _ hx, hs⟩
      · rintro ⟨x, hx, hs⟩
        rcases List.mem_cons.1 hx with rfl | hx
        · have := search_socket hs; rw [search_none hl] at this; cases this
        · exact ⟨x, hx, hs⟩
    · have hs := search_socket hq
      have hsome : (search l).isSome = true := by
        cases hh : search l with
        | none => rw [hh] at hs; cases hs
        | some _ => rfl
      refine ⟨q :: r, by rw [List.filter_cons_of_pos (by simpa using hsome), collectPorts, hs, h1]; rfl, fun p => ?_⟩
      rw [List.mem_cons, h2]
      constructor
      · rintro (rfl | ⟨x, hx, hs'⟩)
        · exact ⟨l, List.mem_cons_self .., hq⟩
        · exact ⟨x, List.mem_cons_of_mem _ hx, hs'⟩
      · rintro ⟨x, hx, hs'⟩
        rcases List.mem_cons.1 hx with rfl | hx
        · left; have := search_socket hs'; rw [hs] at this; exact (Option.some.inj this).symm
        · exact .inr ⟨x, hx, hs'⟩

theorem filePorts_spec (s : Bytes) (h : Table s) : ∃ r, filePorts (some s) = some r ∧ ∀ p, p ∈ r ↔ ∃ l ∈ Fs.lines s, SocketLine l p := by
  obtain ⟨r, h1, h2⟩ := collect_spec (Fs.lines s) h
  refine ⟨r, ?_, h2⟩
  have := Fs.C79_iterate (fun l => (search l).isSome) (.file s)
  rw [filePorts]
  rw [← h1]
  exact congrArg collectPorts this

/-- **C114 (ports in use).** The ports in use are exactly those of the sockets listed in the files that can be opened. -/
theorem C114_in_use : ∀ (files : List (Option Bytes)), (∀ s, some s ∈ files → Table s) → ∃ r, getPortsInUse files = some r ∧ ∀ p, p ∈ r ↔ InUse files p
  | [], _ => ⟨[], rfl, fun p => by simp [InUse]⟩
  | f :: fs, h => by
    obtain ⟨r, h1, h2⟩ := C114_in_use fs (fun s hs => h s (List.mem_cons_of_mem _ hs))
    have : ∃ a, filePorts f = some a ∧ ∀ p, p ∈ a ↔ ∃ s, some s = f ∧ ∃ l ∈ Fs.lines s, SocketLine l p := by
      cases f with
      | none => exact ⟨[], rfl, fun p => by simp⟩
      | some s =>
        obtain ⟨a, ha, hb⟩ := filePorts_spec s (h s (List.mem_cons_self ..))
        exact ⟨a, ha, fun p => by rw [hb]; simp⟩
    obtain ⟨a, ha, hb⟩ := this
    refine ⟨a ++ r, by rw [getPortsInUse, ha, h1], fun p => ?_⟩
    rw [List.mem_append, hb, h2]
    constructor
    · rintro (⟨s, e, hs⟩ | ⟨s, e, hs⟩)
      · exact ⟨s, by rw [e]; exact List.mem_cons_self .., hs⟩
      · exact ⟨s, List.mem_cons_of_mem _ e, hs⟩
    · rintro ⟨s, e, hs⟩
      rcases List.mem_cons.1 e with e | e
      · exact .inl ⟨s, e, hs⟩
      · exact .inr ⟨s, e, hs⟩

theorem scanHu_dec {n : Nat} (hn : n < 65536) {sp r : Bytes} (hsp : ∀ c ∈ sp, isSpace c = true) (hr : ∀ c, r.head? = some c → isDigit c = false) :
    scanHu (sp ++ natDec n ++ r) = some (n, r) := by
  have hd : natDec n ++ r = (natDec n ++ r).dropWhile isSpace := by
    refine (dropWhile_stop ?_).symm
    intro x hx
    cases hc : natDec n with
    | nil => exact absurd hc (natDec_ne_nil n)
    | cons c cs =>
      rw [hc] at hx; simp at hx; subst hx
      exact digit_not_space (natDec_digits n c (by rw [hc]; exact List.mem_cons_self ..))
  have e0 : (sp ++ natDec n ++ r).dropWhile isSpace = natDec n ++ r := by
    rw [List.append_assoc, dropWhile_append_all _ _ hsp, ← hd]
  have e1 : strtollSign (natDec n ++ r) = (false, natDec n ++ r) := by
    cases hc : natDec n with
    | nil => exact absurd hc (natDec_ne_nil n)
    | cons c cs =>
      have hdg := (isDigit_iff c).1 (natDec_digits n c (by rw [hc]; exact List.mem_cons_self ..))
      rw [List.cons_append]
      apply strtollSign_digit
      · rintro rfl; simp at hdg
      · rintro rfl; simp at hdg
  have t : (natDec n ++ r).takeWhile isDigit = natDec n := takeWhile_append_stop _ _ (natDec_digits n) hr
  have d : (natDec n ++ r).dropWhile isDigit = r := by
    rw [dropWhile_append_all _ _ (natDec_digits n), dropWhile_stop hr]
  simp only [scanHu, e0, e1, t, d, if_neg (natDec_ne_nil n), digitsVal_natDec]
  rw [if_neg (by omega)]
  simp [Nat.mod_eq_of_lt hn]

/-- **C114 (dynamic range).** The range is the one the kernel tells (two numbers with blanks between them), and 49152 to 65535 if it tells none or only one. -/
theorem C114_range {lo hi : Nat} (h1 : lo < 65536) (h2 : hi < 65536) {sp sp' r : Bytes} (hsp : ∀ c ∈ sp, isSpace c = true) (hsp' : ∀ c ∈ sp', isSpace c = true) (hne : sp' ≠ [])
    (hr : ∀ c, r.head? = some c → isDigit c = false) :
    getDynamicPortRange (some (sp ++ natDec lo ++ (sp' ++ natDec hi ++ r))) = some (lo, hi) ∧ getDynamicPortRange (some []) = some (49152, 65535) ∧
    getDynamicPortRange (some (sp ++ natDec lo ++ sp')) = some (49152, 65535) := by
  have hstop : ∀ x c, (sp' ++ x).head? = some c → isDigit c = false := by
    intro x c hc
    cases sp' with
    | nil => exact absurd rfl hne
    | cons x xs => simp at hc; subst hc; exact isSpace_not_digit (hsp' _ (List.mem_cons_self ..))
  refine ⟨?_, by decide, ?_⟩
  rotate_left
  · simp only [getDynamicPortRange, Option.map_some]
    rw [scanHu_dec h1 hsp (by simpa using hstop [])]
    have : sp'.dropWhile isSpace = [] := by have := dropWhile_append_all sp' ([] : Bytes) hsp'; simpa using this
    simp [scanHu, this, strtollSign]
  simp only [getDynamicPortRange, Option.map_some]
  rw [scanHu_dec h1 hsp]
  · simp only
    rw [scanHu_dec h2 hsp' hr]
  · intro c hc
    cases sp' with
    | nil => exact absurd rfl hne
    | cons x xs => simp at hc; subst hc; exact isSpace_not_digit (hsp' _ (List.mem_cons_self ..))

example : getDynamicPortRange (some (ascii "32768\t60999\n")) = some (32768, 60999) := by decide +kernel

theorem search_colons : ∀ (l : Bytes), (∀ pre c post, l = pre ++ 58 :: c :: post → isHex c = false) → search l = none
  | [], _ => rfl
  | c :: s, h => by
    have : matchHere (c :: s) = none := by
      unfold matchHere
      split
      · rfl
      split
      · rfl
      rename_i x s1 e1
      split
      · rfl
      split
      · rfl
      rename_i y s2 e2
      have hx : ∀ {t : Bytes} {x s'}, t.dropWhile (· ≠ 58) = x :: s' → ∃ p, t = p ++ 58 :: s' := by
        intro t x s' e
        have hx := List.head?_dropWhile_not (· ≠ 58) t
        rw [e] at hx
        simp only [List.head?_cons] at hx
        refine ⟨t.takeWhile (· ≠ 58), ?_⟩
        have : x = 58 := by simpa using hx
        subst this
        rw [← e, List.takeWhile_append_dropWhile]
      obtain ⟨p1, q1⟩ := hx e1
      obtain ⟨p2, q2⟩ := hx e2
      cases s2 with
      | nil => rfl
      | cons d ds =>
        have hd := h (p1 ++ 58 :: p2) d ds (by rw [q1, q2]; simp)
        simp [hexGroup, hd]
    rw [search, this]
    exact search_colons s fun pre d post e => h (c :: pre) d post (by rw [e]; rfl)

/-- **C114 (other lines).** A file without a hexadecimal digit right after a colon names no port, whatever else is in it. -/
theorem C114_skipped (s : Bytes) (h : ∀ l ∈ Fs.lines s, ∀ pre c post, l = pre ++ 58 :: c :: post → isHex c = false) : filePorts (some s) = some [] := by
  have := Fs.C79_iterate (fun l => (search l).isSome) (.file s)
  have hn : (Fs.Source.file s).all.filter (fun l => (search l).isSome) = [] := by
    rw [List.filter_eq_nil_iff]
    intro l hl
    rw [search_colons l (h l hl)]
    simp
  rw [hn] at this
  exact congrArg collectPorts this

example : filePorts (some (ascii "a: b: c\n::\n:: x\n")) = some [] := by decide +kernel

theorem pick_spec {low : Nat} (hl : 1025 < low) (hu : low < 65536) (used : List Nat) : ∀ (draws : List Nat),
    (∃ p, pickPort low used draws = some (some p) ∧ 1025 ≤ p ∧ p < low ∧ p ∉ used ∧ p + 1 ∉ used) ∨
    (pickPort low used draws = some none ∧ ∀ r ∈ draws, 1025 + r % (low - 1025) ∈ used ∨ 1025 + r % (low - 1025) + 1 ∈ used)
  | [] => .inr ⟨rfl, by simp⟩
  | r :: rs => by
    have hm : r % (low - 1025) < low - 1025 := Nat.mod_lt _ (by omega)
    have e : rand32 1025 low r = some (1025 + r % (low - 1025)) := by
      rw [rand32, if_neg (by omega), if_neg (by omega)]
    have e1 : (1025 + r % (low - 1025)) % 65536 = 1025 + r % (low - 1025) := Nat.mod_eq_of_lt (by omega)
    have e2 : (1025 + r % (low - 1025) + 1) % 65536 = 1025 + r % (low - 1025) + 1 := Nat.mod_eq_of_lt (by omega)
    have ih := pick_spec hl hu used rs
    simp only [pickPort, e, e1, e2]
    by_cases h1 : 1025 + r % (low - 1025) ∈ used
    · rw [if_pos h1]
      rcases ih with h | ⟨h, h'⟩
      · exact .inl h
      · exact .inr ⟨h, fun x hx => by rcases List.mem_cons.1 hx with rfl | hx; exact .inl h1; exact h' x hx⟩
    · rw [if_neg h1]
      by_cases h2 : 1025 + r % (low - 1025) + 1 ∈ used
      · rw [if_pos h2]
        rcases ih with h | ⟨h, h'⟩
        · exact .inl h
        · exact .inr ⟨h, fun x hx => by rcases List.mem_cons.1 hx with rfl | hx; exact .inr h2; exact h' x hx⟩
      · rw [if_neg h2]
        exact .inl ⟨_, rfl, by omega, by omega, h1, h2⟩

/-- **C114 (available ports), for ranges that begin above 1025.** A port that is given is between 1025 and the dynamic range, and neither it nor the next one is in use; as long as
none is given, every port drawn so far, or its successor, is in use. -/
theorem C114_available_partial {range : Bytes} {lo hi : Nat} (hr : getDynamicPortRange (some range) = some (lo, hi)) (hl : 1025 < lo) (hu : lo < 65536)
    {files : List (Option Bytes)} (hf : ∀ s, some s ∈ files → Table s) (draws : List Nat) :
    (∃ p, getAvailablePort (some range) files draws = some (some p) ∧ 1025 ≤ p ∧ p < lo ∧ ¬ InUse files p ∧ ¬ InUse files (p + 1)) ∨
    (getAvailablePort (some range) files draws = some none ∧ ∀ r ∈ draws, InUse files (1025 + r % (lo - 1025)) ∨ InUse files (1025 + r % (lo - 1025) + 1)) := by
  obtain ⟨used, h1, h2⟩ := C114_in_use files hf
  simp only [getAvailablePort, hr, h1, ← h2]
  exact pick_spec hl hu used draws

/-- **C114 fails for a line with more than 16 digits:** the conversion throws, and nobody catches it.  16 digits are cut to the last four. -/
theorem C114_digits_violated : getPortsInUse [some (ascii " 0: 00:10000000000000000 x")] = none ∧ getPortsInUse [some (ascii " 0: 00:FFFFFFFFFFFFFFFE x")] = some [65534] := by
  decide +kernel

/-- **C114 fails if the dynamic range begins at 1025:** the port given is 0. -/
theorem C114_zero_violated {range : Bytes} {hi : Nat} (hr : getDynamicPortRange (some range) = some (1025, hi)) (r : Nat) (draws : List Nat) :
    getAvailablePort (some range) [] (r :: draws) = some (some 0) := by
  simp [getAvailablePort, hr, getPortsInUse, pickPort, rand32]

/-- **C114 fails if the dynamic range begins at 1024 or below** (a common setting): a number is drawn from an empty range, which is undefined. -/
theorem C114_low_violated {range : Bytes} {lo hi : Nat} (hr : getDynamicPortRange (some range) = some (lo, hi)) (hl : lo ≤ 1024) (r : Nat) (draws : List Nat) :
    getAvailablePort (some range) [] (r :: draws) = none := by
  have e : rand32 1025 lo r = none := by rw [rand32, if_neg (by omega), if_pos (by omega)]
  simp [getAvailablePort, hr, getPortsInUse, pickPort, e]

example : getDynamicPortRange (some (ascii "1024 65535\n")) = some (1024, 65535) ∧ getDynamicPortRange (some (ascii "1025 65535\n")) = some (1025, 65535) := by decide +kernel

/-- Three sockets in two files, and the port that is given after two refused draws. -/
def tcp : Bytes := ascii "  sl  local_address rem_address   st\n   0: 0100007F:0401 00000000:0000 0A\n   1: 00000000:0404 00000000:0000 0A\n"

example : SocketLine (ascii "   0: 0100007F:0401 00000000:0000 0A") 1025 :=
  ⟨ascii "   0", ascii " 0100007F", ascii "00000000:0000 0A", by decide +kernel, by decide +kernel, by decide +kernel, by decide +kernel, by decide, by decide +kernel⟩

example : getPortsInUse [some tcp, none] = some [1025, 1028] := by decide +kernel
example : getAvailablePort (some (ascii "32768 60999")) [some tcp, none] [0, 2, 1] = some (some 1026) := by decide +kernel

end Net
end Nebula
