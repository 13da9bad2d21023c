import Verif.Core.Open
/-! Property C232: a name opens the file it names. -/
namespace Verif.Url

/-- The name begins like an address: `b` in front of the first colon, `://` and `r`. -/
def Address (u b r : Str) : Prop := u = b ++ lit "://" ++ r ∧ 0x3A ∉ b

theorem takeWhile_address (b r : Str) (h : 0x3A ∉ b) : (b ++ 0x3A :: r).takeWhile (· != 0x3A) = b := by
  rw [List.takeWhile_append_of_pos]
  · simp
  · intro a ha
    simp only [bne_iff_ne, ne_eq]
    exact fun e => h (e ▸ ha)

theorem scheme_address {u b r : Str} (h : Address u b r) : scheme u = some b := by
  obtain ⟨rfl, hb⟩ := h
  have e : b ++ lit "://" ++ r = b ++ 0x3A :: ([0x2F, 0x2F] ++ r) := by rw [List.append_assoc]; rfl
  unfold scheme
  simp only [e, takeWhile_address b _ hb, List.drop_left]
  rw [if_pos]
  rfl

theorem address_scheme {u b : Str} (h : scheme u = some b) : ∃ r, Address u b r := by
  unfold scheme at h
  simp only [] at h
  split at h
  · rename_i hp
    injection h with h
    subst h
    rw [List.isPrefixOf_iff_prefix] at hp
    obtain ⟨r, hr⟩ := hp
    refine ⟨r, ?_, ?_⟩
    · have := List.takeWhile_append_dropWhile (p := (· != 0x3A)) (l := u)
      have e : u.drop (u.takeWhile (· != 0x3A)).length = u.dropWhile (· != 0x3A) := by
        conv => lhs; arg 2; rw [← this]
        rw [List.drop_left]
      rw [e] at hr
      rw [List.append_assoc, show lit "://" = [0x3A, 0x2F, 0x2F] from rfl, hr, this]
    · intro hm
      have := List.all_eq_true.1 (List.all_takeWhile (p := (· != 0x3A)) (l := u)) _ hm
      simp at this
  · cases h

theorem copy_file (b : Str) : ieq (copy maxProtocol b) (lit "file") = ieq b (lit "file") := by
  unfold ieq copy maxProtocol
  rw [Bool.eq_iff_iff, beq_iff_eq, beq_iff_eq]
  constructor
  · intro h
    have hl := congrArg List.length h
    simp only [List.length_map, List.length_take, show (lit "file").length = 4 from rfl] at hl
    rwa [List.take_of_length_le (by omega)] at h
  · intro h
    have hl := congrArg List.length h
    simp only [List.length_map, show (lit "file").length = 4 from rfl] at hl
    rwa [List.take_of_length_le (by omega)]

/-- C232 as a whole: a name opens exactly the file it names. -/
def OpensNamed : Prop :=
  ∀ (maxPath : Nat) (silent reopen : Bool) (os : Str → Option Nat) (u : Str),
    ((streamOpen maxPath silent reopen os u).1.map (·.fd)) = if u = [] then none else (os u).map some

/-- C232 fails: a file `b` in a directory `a:` is not opened as `a://b`, and without a name nothing is opened but the program
goes on. -/
theorem C232_counterexample : ¬ OpensNamed ∧
    streamOpen 4096 false false (fun _ => some 3) (lit "a://b") = (none, some (.noProtocol (lit "A"))) ∧
    (∀ os, streamOpen 4096 false false os [] = (some ⟨none, []⟩, none)) := by
  have h1 : streamOpen 4096 false false (fun _ => some 3) (lit "a://b") = (none, some (.noProtocol (lit "A"))) := by decide +kernel
  refine ⟨fun h => ?_, h1, fun os => by simp [streamOpen, fileOpen, show ieq (protoName maxProtocol []) (lit "file") = true by decide +kernel]⟩
  have := h 4096 false false (fun _ => some 3) (lit "a://b")
  rw [h1] at this
  simp [show lit "a://b" ≠ [] by decide +kernel] at this

/-- C232: a name that does not begin like an address opens the file the system has under it, and only that; if there is none,
the name is reported. -/
theorem C232_named_partial (maxPath : Nat) (silent reopen : Bool) (os : Str → Option Nat) (u : Str) (h0 : u ≠ [])
    (h : ∀ b r, ¬ Address u b r) :
    streamOpen maxPath silent reopen os u =
      match os u with
      | some fd => (some ⟨some fd, u.take (maxPath - 1)⟩, none)
      | none => (none, if silent || reopen then none else some (.notFound u)) := by
  have hs : scheme u = none := by
    cases hs : scheme u with
    | none => rfl
    | some b => obtain ⟨r, hr⟩ := address_scheme hs; exact absurd hr (h b r)
  have hp : ieq (protoName maxProtocol u) (lit "file") = true := by
    unfold protoName
    rw [hs, copy_file]
    decide +kernel
  unfold streamOpen
  rw [if_pos hp]
  unfold fileOpen
  rw [if_neg h0]
  cases os u <;> rfl

example : streamOpen 4096 false false (fun u => if u = lit "/tmp/a:b//c.mkv" then some 5 else none) (lit "/tmp/a:b//c.mkv") =
    (some ⟨some 5, lit "/tmp/a:b//c.mkv"⟩, none) := by decide +kernel

/-- C232 for addresses: with the protocol `file`, in any case and behind spaces, the system is asked for the whole address, not
for what follows `file://`; with another protocol nothing is opened, whatever files there are, and the protocol is reported. -/
theorem C232_address (maxPath : Nat) (silent reopen : Bool) (os : Str → Option Nat) (u b r : Str) (h : Address u b r) :
    (ieq (b.dropWhile isSpace) (lit "file") = true →
      streamOpen maxPath silent reopen os u =
        match os u with
        | some fd => (some ⟨some fd, u.take (maxPath - 1)⟩, none)
        | none => (none, if silent || reopen then none else some (.notFound u))) ∧
    (ieq (b.dropWhile isSpace) (lit "file") = false →
      streamOpen maxPath silent reopen os u =
        (none, if silent then none else some (.noProtocol (((b.dropWhile isSpace).take 15).map upper)))) := by
  have hp : protoName maxProtocol u = copy maxProtocol (b.dropWhile isSpace) := by
    unfold protoName
    rw [scheme_address h]
  have hu : u ≠ [] := by
    obtain ⟨rfl, _⟩ := h
    simp [show lit "://" = [0x3A, 0x2F, 0x2F] from rfl]
  constructor
  · intro hf
    unfold streamOpen
    rw [hp, copy_file, if_pos hf]
    unfold fileOpen
    rw [if_neg hu]
    cases os u <;> rfl
  · intro hf
    unfold streamOpen
    rw [hp, copy_file, if_neg (by simp [hf])]
    rfl

example : streamOpen 4096 false false (fun u => if u = lit "/tmp/a.mkv" then some 5 else none) (lit "file:///tmp/a.mkv") =
    (none, some (.notFound (lit "file:///tmp/a.mkv"))) := by decide +kernel

end Verif.Url
