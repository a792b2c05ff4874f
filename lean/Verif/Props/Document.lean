import Verif.Proof.DocOf
import Verif.Props.Config

/-! # Property theorem C39: documents mean what they say -/

namespace FNLog
open Spec

/-- **C39.** A document of the documented subset, with its settings in any order and any indentation, is
accepted and means what its settings say; what it does not mention is zero, off or empty (except the
shared memory key, see C44). -/
theorem C39_meaning (dns : List Char → Option Int) (garbage : Int) (L : Layout) (doc : List TopLine)
    (h1 : L.chan < L.dev) (h2 : L.dev < L.set) (hdoc : DocOk doc { shmKey := garbage }) :
    Accepts dns garbage (render L doc) (doc.foldl (fun g t => t.apply g) { shmKey := garbage }) := by
  have hgood := docLines_good (L := L) doc 0 _ hdoc
  have hsig : significant (render L doc) = docLines L 0 doc := significant_lines _ hgood
  have hnul : '\x00' ∉ render L doc := no_nul _ hgood
  have hbom : hasBom (render L doc) = false := by
    unfold render
    cases hl : docLines L 0 doc with
    | nil => rfl
    | cons l ls =>
      rw [List.flatMap_cons, List.append_assoc]
      exact goodLine_bom (hgood l (by rw [hl]; exact List.mem_cons_self)) _
  have hrun : ∀ w, parseLogger dns garbage (2 * (render L doc).length + 4) (render L doc) ≠ .running w := by
    intro w
    unfold parseLogger
    rw [hbom]
    simp only [Bool.false_eq_true, if_false, Nat.zero_add]
    refine loggerLoop_nosub _ hnul w _ 0 _ (Nat.zero_le _) ?_ (by omega)
    rw [List.drop_zero, hsig]
    exact no_sub _ hgood
  have ha := parseLogger_lines (dns := dns) (garbage := garbage) hnul hbom (fuel := 2 * (render L doc).length + 4) (by omega)
  have hl : linesLogger dns (docLines L 0 doc).length (docLines L 0 doc) { shmKey := garbage } = _ :=
    linesLogger_doc (dns := dns) h1 h2 doc { shmKey := garbage } _ hdoc (Nat.le_refl _)
  rw [hsig, hl] at ha
  refine ⟨2 * (render L doc).length + 4, ?_⟩
  cases hp : parseLogger dns garbage (2 * (render L doc).length + 4) (render L doc) with
  | ok g => rw [hp] at ha; exact congrArg _ ha
  | err e =>
    rw [hp] at ha
    exact absurd ha.2 (doc_channels doc _ hdoc)
  | ub =>
    rw [hp] at ha
    exact False.elim ha
  | running w => exact absurd hp (hrun w)

/-- **C39.** Every configuration within the documented ranges can be written down, and reading it gives it
back. -/
theorem C39_round_trip (dns : List Char → Option Int) (garbage : Int) (L : Layout) (g : Config)
    (h1 : L.chan < L.dev) (h2 : L.dev < L.set) (hg : Expressible g) :
    Accepts dns garbage (render L (configDoc g)) g := by
  obtain ⟨ho, he⟩ := configDoc_ok hg garbage
  have := C39_meaning dns garbage L (configDoc g) h1 h2 ho
  rwa [he] at this

/-- A document and its text. -/
example : render ⟨0, 1, 3⟩
    [.hotUpdate true, .loggerName "my log".toList, .channel [.set (.sync .sync),
      .set (.filter (.categoryBlist [.one 3, .range 5 7])),
      .device [.disable false, .outType .file, .file "a$PID".toList, .limitSize 100, .udpAddr 127 0 0 1 8080]]] =
    "hot_update: true\nlogger_name: \"my log\"\n- channel: 0\n sync: sync\n category_blist: [3, 5-7]\n - device: 0\n   disable: false\n   out_type: file\n   file: \"a$PID\"\n   limit_size: 100\n   udp_addr: \"127.0.0.1:8080\"\n".toList := by
  decide +kernel

example : DocOk [.hotUpdate true, .channel [.set (.sync .sync), .set (.filter (.categoryBlist [.one 3, .range 5 7])),
      .device [.disable false, .outType .file, .limitSize 100, .udpAddr 127 0 0 1 8080]]] { shmKey := 5 } := by
  refine ⟨trivial, ⟨by decide, trivial, ?_, ⟨by decide, trivial, nofun, ?_, ?_, trivial⟩, trivial⟩, List.cons_ne_nil _ _⟩
  · intro it h
    simp only [List.mem_cons, List.not_mem_nil, or_false] at h
    rcases h with rfl | rfl <;> simp [BitItem.Small]
  · show LL _; unfold LL; decide
  · exact ⟨by decide, by decide, by decide, by decide, by decide, by decide, fun _ _ => Or.inl (by decide)⟩

/-- A configuration that can be written down. -/
def sampleDevices : List Device :=
  [{ outType := .file, file := ['x'], cfg := { able := 1, limitSize := 5000000 } },
   { id := 1, outType := .virtual, inType := .udp, cfg := { able := 1, udpIp := 0, udpPort := 80 } }]

def sampleChannels : List Channel :=
  [{ devices := sampleDevices, virtualDeviceId := 1, cfg := { priority := 3 } }, { id := 1 }]

example : Expressible { channels := sampleChannels, shmKey := -3 } := by
  have hd : ∀ j (d : Device), sampleDevices[j]? = some d → DevExpressible j d := by
    intro j d h
    match j, h with
    | 0, h =>
      rw [← Option.some.inj h]
      exact ⟨rfl, ⟨⟨by decide, by intro c r e; rw [← (List.cons.inj e).1]; exact fun h => absurd (h 'x' (by decide)) (by decide),
        by intro c r e
           have : c = 'x' := by
             cases r with
             | nil => exact ((List.cons.inj e).1).symm
             | cons x r => exact absurd (congrArg List.length e) (by simp)
           rw [this]; exact fun h => absurd (h 'x' (by decide)) (by decide)⟩, by decide⟩,
        ⟨⟨by decide, nofun, by intro c r e; exact absurd (congrArg List.length e) (by simp)⟩, by decide⟩,
        Or.inr rfl, by decide, by unfold LL; decide, by unfold LL; decide, by unfold LL; decide, by unfold LL; decide,
        by unfold LL; decide, by unfold LL; decide, ⟨by unfold LL; decide, by decide⟩, by unfold LL; decide, Or.inl rfl,
        Or.inl rfl, Or.inl rfl, Or.inl ⟨rfl, rfl⟩⟩
    | 1, h =>
      rw [← Option.some.inj h]
      exact ⟨rfl, ⟨⟨by decide, nofun, by intro c r e; exact absurd (congrArg List.length e) (by simp)⟩, by decide⟩,
        ⟨⟨by decide, nofun, by intro c r e; exact absurd (congrArg List.length e) (by simp)⟩, by decide⟩,
        Or.inr rfl, by decide, by unfold LL; decide, by unfold LL; decide, by unfold LL; decide, by unfold LL; decide,
        by unfold LL; decide, by unfold LL; decide, ⟨by unfold LL; decide, by decide⟩, by unfold LL; decide, Or.inl rfl,
        Or.inl rfl, Or.inl rfl, Or.inr ⟨by decide, by decide, by decide, by decide, by nofun⟩⟩
    | j + 2, h => exact absurd (show (none : Option Device) = some d from h) (by simp)
  have ht : TextOk [] := ⟨by decide, nofun, by intro c r e; exact absurd (congrArg List.length e) (by simp)⟩
  refine ⟨by decide, ?_, ⟨ht, by decide⟩, ⟨ht, by decide⟩, by unfold LL; decide⟩
  intro i c h
  match i, h with
  | 0, h =>
    rw [← Option.some.inj h]
    exact ⟨rfl, rfl, by decide, hd, rfl, by decide, by unfold I32; decide, by unfold I32; decide, by unfold LL; decide,
      by unfold I32; decide, by unfold I32; decide, by unfold LL; decide⟩
  | 1, h =>
    rw [← Option.some.inj h]
    exact ⟨rfl, rfl, by decide, fun j d h => absurd (show (none : Option Device) = some d from h) (by simp), rfl, by decide, by unfold I32; decide, by unfold I32; decide, by unfold LL; decide,
      by unfold I32; decide, by unfold I32; decide, by unfold LL; decide⟩
  | i + 2, h => exact absurd (show (none : Option Channel) = some c from h) (by simp)

end FNLog
