import Verif.Props.Values

/-!
# C129: UDP addresses with a host name, and all ports
-/

namespace FNLog
open Spec

/-- What may stand before the colon: a word. -/
def HostText (q : List Char) : Prop := q ≠ [] ∧ ∀ x ∈ q, isBlank x = false ∧ x ≠ ':'

/-- A word that is not a number with dots. -/
def NameText (q : List Char) : Prop := HostText q ∧ ∃ x ∈ q, isNumber x = false ∧ x ≠ '.'

theorem parseAddresIP_host (dns : List Char → Option Int) (pd : Bool) {q r : List Char} (hq : HostText q) :
    parseAddresIP dns pd (q ++ (':' :: r)) =
      if q.any (fun c => !isNumber c && c != '.') then
        if pd then match dns q with
          | none => (0, [])
          | some a => (a, ':' :: r)
        else (0, [])
      else ((inetAddr q : Int), ':' :: r) := by
  have hstop : ∀ x ∈ q, (!(isBlank x || x == ':')) = true := by
    intro x hx
    have := hq.2 x hx
    simp [this.1, this.2]
  have hcol : ∀ (x : Char) r', ':' :: r = x :: r' → (!(isBlank x || x == ':')) = false := by
    intro x r' e
    simp only [List.cons.injEq] at e
    rw [← e.1]; decide
  have hdrop : (q ++ (':' :: r)).dropWhile isBlank = q ++ (':' :: r) := by
    have := dropWhile_append_stop (p := isBlank) (s := []) (r := q ++ (':' :: r))
      (fun c hc => by cases hc) (fun c r' e => by
        cases hqq : q with
        | nil => exact absurd hqq hq.1
        | cons x xs =>
          rw [hqq] at e
          simp only [List.cons_append, List.cons.injEq] at e
          rw [← e.1]
          exact (hq.2 x (by rw [hqq]; exact List.mem_cons_self)).1)
    exact this
  have hv0 : q ++ (':' :: r) ≠ [] := by
    intro h; exact hq.1 (List.append_eq_nil_iff.mp h).1
  unfold parseAddresIP
  rw [if_neg hv0]
  simp only [hdrop]
  rw [takeWhile_append_stop hstop hcol, dropWhile_append_stop hstop hcol, if_neg hq.1]
  congr 1

theorem dropWhile_port (port : Nat) (hp : 0 < port) :
    (':' :: numeral 10 port).dropWhile (fun c => c < '1' || c > '9') = numeral 10 port := by
  refine dropWhile_append_stop (s := [':']) (fun c hc => ?_) (fun c r e => ?_)
  · rw [List.mem_singleton.mp hc]; decide
  · have hc := numeral_isNumber port c (by rw [e]; exact List.mem_cons_self)
    have h0 : c ≠ '0' := by
      intro h
      have := numeral_head 10 (by omega) (by omega) port (by rw [e, h]; rfl)
      omega
    have := (isNumber_iff c).mp hc
    have el : "0123456789".toList = ['0','1','2','3','4','5','6','7','8','9'] := rfl
    rw [el] at this
    simp only [List.mem_cons, List.not_mem_nil, or_false] at this
    rcases this with h | h | h | h | h | h | h | h | h | h <;> first | exact absurd h h0 | (subst h; decide)

/-- The value, when the part before the colon has been read. -/
theorem parseAddres_of (dns : List Char → Option Int) (pd : Bool) {q : List Char} (hq : q ≠ []) {port : Nat} (hp : 0 < port) (hp' : port < 2 ^ 31)
    {ip : Int} (h : parseAddresIP dns pd (q ++ (':' :: numeral 10 port)) = (ip, ':' :: numeral 10 port)) :
    parseAddres dns pd (q ++ (':' :: numeral 10 port)) = (ip, ((networkPort (port % 65536) : Nat) : Int)) := by
  have hlen := numeral_length_le 10 (by omega) 9 port (by omega)
  have hat : atoi (numeral 10 port) = port := by
    have := atoi_text (n := port) (s := numeral 10 port) (r := []) ⟨0, rfl⟩ (fun c r e => by cases e) (by omega)
    rwa [List.append_nil] at this
  have hv0 : q ++ (':' :: numeral 10 port) ≠ [] := by
    intro h; exact hq (List.append_eq_nil_iff.mp h).1
  unfold parseAddres
  rw [if_neg hv0]
  simp only [h, dropWhile_port port hp]
  rw [if_neg (numeral_ne_nil 10 port), if_neg (by omega), hat]
  have e2 : ((port : Int) % 2 ^ 16).toNat = port % 65536 := by omega
  rw [e2]
  unfold htons networkPort
  congr 1
  omega

theorem parseAddres_lost (dns : List Char → Option Int) (pd : Bool) {v : List Char} {ip : Int} (h : parseAddresIP dns pd v = (ip, [])) :
    parseAddres dns pd v = (0, 0) := by
  unfold parseAddres
  split
  · rfl
  · simp [h]

/-- **C129.** A host name is resolved if the device is enabled where the line is; without an address there is no port either. -/
theorem C129_name (dns : List Char → Option Int) (pd : Bool) (name : List Char) (hn : NameText name) (port : Nat) (hp : 0 < port) (hp' : port < 65536) :
    parseAddres dns pd (name ++ [':'] ++ numeral 10 port) =
      match (if pd then dns name else none) with
      | some ip => (ip, ((networkPort port : Nat) : Int))
      | none => (0, 0) := by
  rw [List.append_assoc]
  have hany : name.any (fun c => !isNumber c && c != '.') = true := by
    obtain ⟨x, hx, h1, h2⟩ := hn.2
    exact List.any_eq_true.mpr ⟨x, hx, by simp [h1, h2]⟩
  have hip := parseAddresIP_host dns pd (r := numeral 10 port) hn.1
  rw [if_pos hany] at hip
  cases pd with
  | false => exact parseAddres_lost dns false hip
  | true =>
    rw [if_pos rfl] at hip ⊢
    cases hd : dns name with
    | none => rw [hd] at hip; exact parseAddres_lost dns true hip
    | some ip =>
      rw [hd] at hip
      have := parseAddres_of dns true hn.1.1 hp (by omega) hip
      rw [Nat.mod_eq_of_lt hp'] at this
      exact this

/-- **C129**, every port: what is kept is the port modulo 65536, so one out of range is refused (as 0) only if it is a multiple of that. -/
theorem C129_port (dns : List Char → Option Int) (pd : Bool) (a b c d port : Nat) (ha : a < 256) (hb : b < 256) (hc : c < 256) (hd : d < 256)
    (hp : 0 < port) (hp' : port < 2 ^ 31) :
    parseAddres dns pd (quadText a b c d ++ [':'] ++ numeral 10 port) = (((networkQuad a b c d : Nat) : Int), ((networkPort (port % 65536) : Nat) : Int)) := by
  rw [List.append_assoc]
  have hq0 : quadText a b c d ≠ [] := by
    intro h
    have := congrArg List.length h
    simp [quadText] at this
  have hq := quad_chars a b c d
  have hh : HostText (quadText a b c d) := by
    refine ⟨hq0, fun x hx => ?_⟩
    rcases hq x hx with h | h
    · exact ⟨(isNumber_not_space h).2.2.2, (number_not_dot h).2⟩
    · subst h; exact ⟨by decide, by decide⟩
  have hany : ¬ (quadText a b c d).any (fun c => !isNumber c && c != '.') = true := by
    rw [List.any_eq_true]
    intro ⟨x, hx, h⟩
    rcases hq x hx with h' | h'
    · rw [h'] at h; simp at h
    · subst h'; simp at h
  have hip := parseAddresIP_host dns pd (r := numeral 10 port) hh
  rw [if_neg hany, inetAddr_quad ha hb hc hd] at hip
  exact parseAddres_of dns pd hq0 hp hp' hip

/-- **C129** on an enabled device: accepted with the address of the host and the port, if the host has an address (other than 0.0.0.0); else refused, with
the port blamed for a device with an input. -/
theorem C129_device (dns : List Char → Option Int) (name : List Char) (hn : NameText name) (port : Nat) (hp : 0 < port) (hp' : port < 65536)
    (tail : List Char) (dev : Device) (he : dev.cfg.able ≠ 0) :
    (∀ ip, dns name = some ip → ip ≠ 0 → devField dns .udpAddr (name ++ [':'] ++ numeral 10 port) tail dev =
      .ok { dev with cfg.udpIp := ip, cfg.udpPort := (networkPort port : Nat) }) ∧
    (dns name = none → devField dns .udpAddr (name ++ [':'] ++ numeral 10 port) tail dev =
      .err (if dev.inType = .null then .illegalAddrIp else .illegalAddrPort)) := by
  have h2 : networkPort port ≠ 0 := by unfold networkPort; omega
  have hb : (dev.cfg.able != 0) = true := by simp [he]
  constructor
  · intro ip hd h0
    simp only [devField]
    rw [C129_name dns _ name hn port hp hp', hb, if_pos rfl, hd]
    simp [he, h0, h2]
  · intro hd
    simp only [devField]
    rw [C129_name dns _ name hn port hp hp', hb, if_pos rfl, hd]
    by_cases hi : dev.inType = .null <;> simp [he, hi]

/-- **C129 is false** if the device is disabled by an earlier line: the name is not resolved, and the port is lost.  With the two lines the other way round
both are there; so the order of the lines matters, and a device enabled later sends to port 0 of 0.0.0.0. -/
theorem C129_order_counterexample (dns : List Char → Option Int) (name : List Char) (hn : NameText name) (port : Nat) (hp : 0 < port)
    (hp' : port < 65536) (ip : Int) (hd : dns name = some ip) (h0 : ip ≠ 0) (dev : Device) (he : dev.cfg.able ≠ 0) :
    (devField dns .disable "true".toList [] dev).bind (devField dns .udpAddr (name ++ [':'] ++ numeral 10 port) []) =
      .ok { dev with cfg.able := 0, cfg.udpIp := 0, cfg.udpPort := 0 } ∧
    (devField dns .udpAddr (name ++ [':'] ++ numeral 10 port) [] dev).bind (devField dns .disable "true".toList []) =
      .ok { dev with cfg.able := 0, cfg.udpIp := ip, cfg.udpPort := (networkPort port : Nat) } := by
  have hb : ∀ d : Device, devField dns .disable "true".toList [] d = .ok { d with cfg.able := 0 } := fun d => rfl
  have hbind : ∀ (d : Device) (f : Device → PRes Device), (PRes.ok d).bind f = f d := fun _ _ => rfl
  constructor
  · rw [hb, hbind]
    simp only [devField]
    rw [C129_name dns _ name hn port hp hp']
    simp
  · rw [(C129_device dns name hn port hp hp' [] dev he).1 ip hd h0]
    rw [hbind, hb]

/-- **C129 is false** for ports out of range: 65537 is port 1. -/
theorem C129_port_counterexample (dns : List Char → Option Int) (pd : Bool) :
    parseAddres dns pd "127.0.0.1:65537".toList = parseAddres dns pd "127.0.0.1:1".toList := by
  have h1 := C129_port dns pd 127 0 0 1 65537 (by omega) (by omega) (by omega) (by omega) (by omega) (by omega)
  have h2 := C129_port dns pd 127 0 0 1 1 (by omega) (by omega) (by omega) (by omega) (by omega) (by omega)
  have e1 : quadText 127 0 0 1 ++ [':'] ++ numeral 10 65537 = "127.0.0.1:65537".toList := by decide +kernel
  have e2 : quadText 127 0 0 1 ++ [':'] ++ numeral 10 1 = "127.0.0.1:1".toList := by decide +kernel
  rw [e1] at h1
  rw [e2] at h2
  rw [h1, h2]

/-- An address without a port is not taken, nor is a port without an address. -/
theorem C129_halves (dns : List Char → Option Int) (pd : Bool) :
    parseAddres dns pd "127.0.0.1".toList = (0, 0) ∧ parseAddres dns pd ":8080".toList = (0, 0) := by
  constructor <;> rfl

/-- `localhost:8080`. -/
theorem C129_case_localhost : NameText "localhost".toList ∧
    devField (fun n => if n = "localhost".toList then some 0x0100007F else none) .udpAddr "localhost:8080".toList [] { cfg := { able := 1 } } =
      .ok { cfg := { able := 1, udpIp := 0x0100007F, udpPort := 0x901F } } := by
  refine ⟨⟨⟨by decide, by decide⟩, ⟨'l', by decide, by decide⟩⟩, by decide +kernel⟩

end FNLog
