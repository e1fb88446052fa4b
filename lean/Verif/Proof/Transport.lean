import Verif.Model.Transport

namespace Hyper

/-- All that the decoders rely on about `read_mem`. -/
inductive ReadSpec (r : Rd) (len : Nat) : Poll (Except DErr Bytes) × Rd → Prop
  | wait (r' : Rd) (hs : r'.stream = r.stream) (hf : r'.fin = r.fin) (hlt : r'.size < r.size) :
      ReadSpec r len (.pending, r')
  | stuck (hs : r.stream = []) (hn : r.net = []) (hf : r.fin = .silent) :
      ReadSpec r len (.pending, r)
  | err (hs : r.stream = []) (hf : r.fin = .err) :
      ReadSpec r len (.ready (.error .io), r)
  | eof (hs : r.stream = []) (hf : r.fin = .eof) :
      ReadSpec r len (.ready (.ok []), r)
  | data (b : Byte) (bs : Bytes) (r' : Rd) (hs : r.stream = (b :: bs) ++ r'.stream)
      (hl : (b :: bs).length ≤ len) (hf : r'.fin = r.fin) (hlt : r'.size < r.size) :
      ReadSpec r len (.ready (.ok (b :: bs)), r')

theorem take_min_cons (len : Nat) (b : Byte) (bs : Bytes) (h : 0 < len) :
    ∃ cs, (b :: bs).take (min len (b :: bs).length) = b :: cs ∧ (b :: cs).length ≤ len ∧
      (b :: cs) ++ (b :: bs).drop (min len (b :: bs).length) = b :: bs := by
  cases len with
  | zero => omega
  | succ n =>
    refine ⟨bs.take (min n bs.length), ?_, ?_, ?_⟩
    · simp [Nat.add_min_add_right]
    · simp; omega
    · simp [Nat.add_min_add_right]

theorem readMem_spec (r : Rd) (len : Nat) (h : 0 < len) : ReadSpec r len (r.readMem len) := by
  obtain ⟨buf, net, fin⟩ := r
  cases buf with
  | cons b bs =>
    obtain ⟨cs, h1, h2, h3⟩ := take_min_cons len b bs h
    simp only [Rd.readMem]
    simp only [ne_eq, reduceCtorEq, not_false_eq_true, if_true, h1]
    have h4 := congrArg List.length h3
    simp only [List.length_append, List.length_cons] at h4
    refine ReadSpec.data b cs _ ?_ h2 rfl ?_
    · simp only [Rd.stream]
      rw [← List.append_assoc, h3]
    · simp only [Rd.size, Rd.stream, List.length_append, List.length_cons]
      omega
  | nil =>
    cases net with
    | nil =>
      cases fin with
      | silent => simpa [Rd.readMem, Rd.readIo] using ReadSpec.stuck (by rfl) (by rfl) (by rfl)
      | eof => simpa [Rd.readMem, Rd.readIo] using ReadSpec.eof (by rfl) (by rfl)
      | err => simpa [Rd.readMem, Rd.readIo] using ReadSpec.err (by rfl) (by rfl)
    | cons s net =>
      cases s with
      | pending =>
        simp only [Rd.readMem, Rd.readIo, ne_eq, not_true_eq_false, if_false]
        refine ReadSpec.wait _ ?_ rfl ?_
        · simp [Rd.stream, segBytes]
        · simp [Rd.size, Rd.stream, segBytes]
      | data b bs =>
        obtain ⟨cs, h1, h2, h3⟩ := take_min_cons len b bs h
        have h4 := congrArg List.length h3
        simp only [List.length_append, List.length_cons] at h4
        simp only [Rd.readMem, Rd.readIo, ne_eq, not_true_eq_false, if_false, h1]
        refine ReadSpec.data b cs _ ?_ h2 rfl ?_
        · simp only [Rd.stream, segBytes, List.nil_append]
          rw [← List.append_assoc, h3]
        · simp only [Rd.size, Rd.stream, segBytes, List.length_append, List.length_cons,
            List.length_nil]
          omega

end Hyper
