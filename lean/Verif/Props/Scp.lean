import Verif.Lemmas.Scp
/-
C54, C55: headers and files received by `scp`.
-/
namespace Nora
open R Scp Spec

/-! ### C55: headers -/

theorem Spec.decimal_spec (n : Nat) : Decimal (decimal n) n := by
  have hval : ∀ k, k < 10 → (UInt8.ofNat (48 + k)).toNat = 48 + k := by
    intro k hk; simp; omega
  induction n using Nat.strongRecOn with
  | _ n ih =>
    rw [decimal]
    split
    · rename_i h
      refine ⟨by simp, ?_, ?_⟩
      · intro d hd
        rw [List.mem_singleton] at hd
        rw [hd, hval n h]; omega
      · rw [List.foldl_cons, List.foldl_nil, hval n h]; omega
    · rename_i h
      obtain ⟨h1, h2, h3⟩ := ih (n / 10) (by omega)
      have hv := hval (n % 10) (by omega)
      refine ⟨by simp, ?_, ?_⟩
      · intro d hd
        rw [List.mem_append, List.mem_singleton] at hd
        rcases hd with hd | rfl
        · exact h2 d hd
        · rw [hv]; omega
      · rw [List.foldl_append, ← h3, List.foldl_cons, List.foldl_nil, hv]; omega

theorem Spec.Utf8.append {a b : Bytes} (ha : Utf8 a) (hb : Utf8 b) : Utf8 (a ++ b) := by
  obtain ⟨cs, h1, rfl⟩ := ha
  obtain ⟨ds, h2, rfl⟩ := hb
  refine ⟨cs ++ ds, ?_, by simp⟩
  intro c hc
  rcases List.mem_append.mp hc with h | h
  · exact h1 c h
  · exact h2 c h

theorem Spec.Ascii.utf8 {a : Bytes} (ha : Ascii a) : Utf8 a :=
  Utf8.valid_iff.mp (Utf8.valid_of_ascii ha)

theorem Spec.Decimal.ascii {ds : Bytes} {n : Nat} (h : Decimal ds n) : Ascii ds :=
  fun d hd => by have := h.2.1 d hd; omega

theorem Spec.Decimal.plain {ds : Bytes} {n : Nat} (h : Decimal ds n) : Plain ds := by
  constructor
  · intro hm; have := h.2.1 _ hm; simp at this
  · intro hm; have := h.2.1 _ hm; simp at this

/-- a header as the protocol has it is accepted -/
theorem scpHeader_accepted {mode ds name : Bytes} {size : Nat} (hm : Plain mode) (hn : Plain name)
    (hd : Decimal ds size) (hs : size < 2 ^ 64) (hum : Utf8 mode) (hun : Utf8 name) :
    HeaderLine (scpHeader mode ds name) (67 :: mode) size name ∧
      ∀ rest, Line (scpHeader mode ds name) rest := by
  have hh : scpHeader mode ds name = 67 :: mode ++ 32 :: ds ++ 32 :: (name ++ [10]) ++ [] := by
    simp [scpHeader]
  refine ⟨⟨mode, ds, name ++ [10], [], rfl, hh, ?_, hd.plain.1, ?_, .inl rfl, .inl hd, hs, .inr rfl,
    ?_⟩, fun rest => ⟨?_, .inl ?_⟩⟩
  · rw [List.mem_cons]
    rintro (h | h)
    · cases h
    · exact hm.1 h
  · rw [List.mem_append]
    rintro (h | h)
    · exact hn.1 h
    · simp at h
  · unfold scpHeader
    refine Utf8.append (Utf8.append (Utf8.append (Utf8.append (Utf8.append (Utf8.append ?_ hum) ?_)
      hd.ascii.utf8) ?_) hun) ?_ <;> exact Ascii.utf8 (by intro b hb; simp at hb; subst hb; decide)
  · have : (scpHeader mode ds name).dropLast = b! "C" ++ mode ++ b! " " ++ ds ++ b! " " ++ name := by
      unfold scpHeader; exact List.dropLast_concat
    rw [this]
    simp only [List.mem_append, List.mem_singleton]
    rintro (((((h | h) | h) | h) | h) | h)
    · cases h
    · exact hm.2 h
    · cases h
    · exact hd.plain.2 h
    · cases h
    · exact hn.2 h
  · unfold scpHeader; exact List.getLast?_concat

/-- C55, first half: a header with any mode, size below 2^64, and name without spaces and newlines is
parsed to exactly this mode (with the letter `C`), size and name, whatever follows, and exactly the header
is taken from the input. -/
theorem C55_header (mode name ds rest : Bytes) (size : Nat) (log : List Ev)
    (hm : Plain mode) (hn : Plain name) (hd : Decimal ds size) (hs : size < 2 ^ 64)
    (hum : Utf8 mode) (hun : Utf8 name) :
    ∃ log', readHeader ⟨scpHeader mode ds name ++ rest, log⟩ =
      (.ok (some (67 :: mode, size, name)), ⟨rest, log'⟩) := by
  obtain ⟨h1, h2⟩ := scpHeader_accepted hm hn hd hs hum hun
  exact ⟨log ++ [.read ((scpHeader mode ds name).take 1), .read ((scpHeader mode ds name).drop 1)],
    readHeader_iff.mpr ⟨_, rfl, h2 rest, h1, rfl⟩⟩

-- the size as it is usually written
example (size : Nat) (hs : size < 2 ^ 64) (rest : Bytes) :
    ∃ log', readHeader ⟨scpHeader (b! "0644") (decimal size) (b! "a.txt") ++ rest, []⟩ =
      (.ok (some (b! "C0644", size, b! "a.txt")), ⟨rest, log'⟩) :=
  C55_header (b! "0644") (b! "a.txt") (decimal size) rest size [] ⟨by decide +kernel, by decide +kernel⟩
    ⟨by decide +kernel, by decide +kernel⟩ (decimal_spec size) hs
    (Ascii.utf8 (by decide +kernel)) (Ascii.utf8 (by decide +kernel))

/-- C55, second half: malformed headers are errors. What is parsed begins with a header as the protocol
has it. -/
def C55_statement : Prop :=
  ∀ inp log mode size name s', readHeader ⟨inp, log⟩ = (.ok (some (mode, size, name)), s') →
    ∃ m ds rest, Plain m ∧ Decimal ds size ∧ Plain name ∧ mode = 67 :: m ∧
      inp = scpHeader m ds name ++ rest

/-- The second half of C55 is false: a sign before the size, further fields and a missing newline are
accepted, and of a name with a space only the first word is used. -/
theorem C55_refuted : ¬ C55_statement := by
  intro h
  obtain ⟨m, ds, rest, hm, hd, hn, h1, h2⟩ := h (b! "C +5 my file") [] (b! "C") 5 (b! "my")
    ⟨[], [.read (b! "C"), .read (b! " +5 my file")]⟩ (by decide +kernel)
  cases h1
  have h3 : (10 : Byte) ∈ (b! "C +5 my file") := by rw [h2]; simp [scpHeader]
  revert h3
  decide +kernel

/-- C55, second half, the part that holds: exactly the headers in `HeaderLine` are parsed, where `HeaderLine`
allows a sign, further fields and (at the end of the input) a missing newline. All other headers are
errors, except that headers of directories (`D`) panic.

Missing: errors for these malformed headers; see `C55_refuted`. -/
theorem C55_partial (inp : Bytes) (log : List Ev) :
    (∀ mode size name s', readHeader ⟨inp, log⟩ = (.ok (some (mode, size, name)), s') ↔
      ∃ hdr, inp = hdr ++ s'.inp ∧ Line hdr s'.inp ∧ HeaderLine hdr mode size name ∧
        s'.log = log ++ [.read (hdr.take 1), .read (hdr.drop 1)]) ∧
    (∀ s', readHeader ⟨inp, log⟩ = (.ok none, s') ↔ inp = [] ∧ s' = ⟨[], log⟩) ∧
    ((readHeader ⟨inp, log⟩).1 = .panic ↔ inp.head? = some 68) := by
  refine ⟨fun _ _ _ _ => readHeader_iff, fun s' => ⟨readHeader_none, ?_⟩, ?_⟩
  · rintro ⟨rfl, rfl⟩; rfl
  · rcases inp with _ | ⟨c, t⟩
    · simp [readHeader_nil]
    · by_cases hc : c = 67
      · subst hc
        obtain ⟨h1, h2⟩ := line_drop (67 :: t)
        have hl : S.line (67 :: t) = 67 :: S.line t := by rw [S.line]; rfl
        rw [hl] at h1 h2
        generalize (67 :: t).drop (67 :: S.line t).length = rest at h1 h2
        generalize S.line t = l at h1 h2
        rw [h1, readHeader_C l rest log h2]
        constructor
        · intro h
          exfalso
          simp only [R.bind_eq_panic, okOr_eq_panic] at h
          rcases h with h | ⟨hdr, -, h⟩
          · exact fromUtf8_ne_panic h
          · split at h
            · simp only [R.bind_eq_panic, okOr_eq_panic] at h
              rcases h with h | ⟨_, _, h⟩
              · exact parseUsize_ne_panic h
              · cases h
            · cases h
        · intro h; simp at h
      · unfold readHeader
        have hb : S.readByte ⟨c :: t, log⟩ = (ok (some c), ⟨t, log ++ [.read [c]]⟩) := rfl
        rw [S.bind_ok hb]
        simp only [hc, if_false, List.head?_cons, Option.some.injEq]
        split
        · rename_i h; simp [h]
        · rename_i h; simp [h]

/-! ### C54: files -/

/-- the header of a file determines its length and name -/
theorem announces_unique {f g : Sent} {n m t u : Bytes} (hf : Announces f n) (hg : Announces g m)
    (h : f.wire ++ t = g.wire ++ u) : f = g ∧ n = m ∧ t = u := by
  obtain ⟨m1, a1, b1, c1⟩ := hf
  obtain ⟨m2, a2, b2, c2⟩ := hg
  have e1 := readHeader_iff (inp := f.wire ++ t) (log := [])
    (s' := ⟨f.content ++ [0] ++ t, [.read (f.hdr.take 1), .read (f.hdr.drop 1)]⟩) |>.mpr
      ⟨f.hdr, by simp [Sent.wire], ⟨c1, .inl b1⟩, a1, rfl⟩
  have e2 := readHeader_iff (inp := g.wire ++ u) (log := [])
    (s' := ⟨g.content ++ [0] ++ u, [.read (g.hdr.take 1), .read (g.hdr.drop 1)]⟩) |>.mpr
      ⟨g.hdr, by simp [Sent.wire], ⟨c2, .inl b2⟩, a2, rfl⟩
  rw [h, e2] at e1
  simp only [Prod.mk.injEq, R.ok.injEq, Option.some.injEq, St.mk.injEq, List.cons.injEq, Ev.read.injEq,
    and_true] at e1
  obtain ⟨⟨-, hlen, hname⟩, hrest, hh1, hh2⟩ := e1
  have hh : g.hdr = f.hdr := by
    rw [← List.take_append_drop 1 g.hdr, hh1, hh2, List.take_append_drop]
  rw [List.append_assoc, List.append_assoc] at hrest
  obtain ⟨hc, hr⟩ := List.append_inj hrest hlen
  refine ⟨?_, hname.symm, ?_⟩
  · cases f; cases g; simp_all
  · have := (List.append_inj hr rfl).2
    exact this.symm

theorem wires_cons (f : Sent) (fs : List Sent) : wires (f :: fs) = f.wire ++ wires fs := rfl

theorem wires_unique {fs gs : List (Sent × Bytes)} (hf : ∀ f ∈ fs, Announces f.1 f.2)
    (hg : ∀ g ∈ gs, Announces g.1 g.2) (h : wires (fs.map (·.1)) = wires (gs.map (·.1))) :
    fs = gs := by
  have hne : ∀ (f : Sent) (t : Bytes), f.wire ++ t ≠ [] := by
    intro f t; simp [Sent.wire]
  induction fs generalizing gs with
  | nil =>
    rcases gs with _ | ⟨g, gs⟩
    · rfl
    · exact absurd h.symm (hne _ _)
  | cons f fs ih =>
    rcases gs with _ | ⟨g, gs⟩
    · exact absurd h (hne _ _)
    · simp only [List.map_cons, wires_cons] at h
      obtain ⟨h1, h2, h3⟩ := announces_unique (hf f (by simp)) (hg g (by simp)) h
      rw [ih (fun x hx => hf x (by simp [hx])) (fun x hx => hg x (by simp [hx])) h3,
        Prod.ext h1 h2]

/-- events that store files, `A` acknowledged at the positions `as` relative to the start -/
def Stores (evs : List Ev) (n : Nat) (as : List Nat) (files : List (Bytes × Bytes)) : Prop :=
  (∀ e ∈ evs, ∀ q, e ≠ .chdir q ∧ e ≠ .createDirAll q) ∧
  ∀ pos acks fs, evs.foldl Scan.step ⟨pos, acks, fs⟩ =
    ⟨pos + n, acks ++ as.map (fun a => pos + a), fs ++ files⟩

theorem Stores.nil : Stores [] 0 [] [] := ⟨by simp, by simp⟩

theorem Stores.append {e1 e2 : List Ev} {n1 n2 : Nat} {a1 a2 : List Nat} {f1 f2 : List (Bytes × Bytes)}
    (h1 : Stores e1 n1 a1 f1) (h2 : Stores e2 n2 a2 f2) :
    Stores (e1 ++ e2) (n1 + n2) (a1 ++ a2.map (fun a => n1 + a)) (f1 ++ f2) := by
  refine ⟨?_, ?_⟩
  · intro e he
    rcases List.mem_append.mp he with h | h
    · exact h1.1 e h
    · exact h2.1 e h
  · intro pos acks fs
    rw [List.foldl_append, h1.2, h2.2]
    simp [Nat.add_assoc]

theorem Stores.reads (rs : List Bytes) : Stores (rs.map .read) rs.flatten.length [] [] := by
  induction rs with
  | nil => exact .nil
  | cons r rs ih =>
    have h : Stores [.read r] r.length [] [] := ⟨by simp, by simp [Scan.step]⟩
    have := h.append ih
    simpa using this

theorem Stores.ack : Stores [.ack] 0 [0] [] := ⟨by simp, by simp [Scan.step]⟩

/-- creating a file, acknowledging the header, and then moving data -/
theorem Stores.create {evs : List Ev} {n : Nat} {data : Bytes} (p : Bytes) (h : Moves evs n data) :
    Stores (.create p :: .ack :: evs) n [0] [(p, data)] := by
  refine ⟨?_, ?_⟩
  · intro e he q
    rw [List.mem_cons, List.mem_cons] at he
    rcases he with rfl | rfl | he
    · simp
    · simp
    · rcases h.1 e he with ⟨bs, rfl⟩ | ⟨bs, rfl⟩ <;> simp
  · intro pos acks fs
    simp only [List.foldl_cons, Scan.step, h.2]
    simp

theorem Scp.op_cases (os : Os) (e : Ev) (s : St) :
    S.op os e s = (ok (), { s with log := s.log ++ [e] }) ∨ S.op os e s = (err .io, s) := by
  unfold S.op
  split
  · exact .inl rfl
  · exact .inr rfl

/-- what is done for a file after its header was read -/
def Scp.body (os : Os) (p : Bytes) (size : Nat) : S Unit := do
  S.op os (.create p)
  S.op os .ack
  transferFile os size

theorem Scp.body_run (os : Os) (p : Bytes) (size : Nat) (s : St) :
    (body os p size s).1 ≠ .panic ∧
    ((body os p size s).1 = .ok () →
      ∃ evs rest, s.inp = s.inp.take size ++ 0 :: rest ∧ size ≤ s.inp.length ∧
        (body os p size s).2 = ⟨rest, s.log ++ evs⟩ ∧
        Stores evs (size + 1) [0, size + 1] [(p, s.inp.take size)]) ∧
    ((body os p size s).1 ≠ .ok () →
      ∃ evs n as last, (body os p size s).2.log = s.log ++ evs ∧ Stores evs n as last ∧
        as <+: [0] ∧ (last = [] ∧ as = [] ∨ ∃ data, last = [(p, data)] ∧ data <+: s.inp.take size)) := by
  unfold body
  rcases op_cases os (.create p) s with h1 | h1
  · rw [S.bind_ok h1]
    rcases op_cases os .ack { s with log := s.log ++ [.create p] } with h2 | h2
    · rw [S.bind_ok h2]
      obtain ⟨t1, t2, t3⟩ := transfer_run os size ⟨s.inp, s.log ++ [.create p] ++ [.ack]⟩
      refine ⟨t1, ?_, ?_⟩
      · intro hok
        obtain ⟨evs, rest, q1, q2, q3, q4⟩ := t2 hok
        refine ⟨.create p :: .ack :: evs ++ [.ack], rest, q1, q2, ?_, ?_⟩
        · rw [q3]; simp
        · have := (Stores.create p q4).append Stores.ack
          simpa using this
      · intro hno
        obtain ⟨evs, n, data, q1, q2, q3⟩ := t3 hno
        refine ⟨.create p :: .ack :: evs, n, [0], [(p, data)], ?_, .create p q2, List.prefix_refl _,
          .inr ⟨data, rfl, q3⟩⟩
        rw [q1]; simp
    · rw [S.bind_err h2]
      refine ⟨by simp, by simp, fun _ => ⟨[.create p], 0, [], [(p, [])], rfl, ⟨by simp, ?_⟩,
        by simp, .inr ⟨[], rfl, by simp⟩⟩⟩
      intro pos acks fs; simp [Scan.step]
  · rw [S.bind_err h1]
    exact ⟨by simp, by simp, fun _ => ⟨[], 0, [], [], by simp, .nil, by simp, .inl ⟨rfl, rfl⟩⟩⟩

/-- what may be left of a session that fails: nothing of the next file, or its header and a part of its
content -/
def Spec.Broken (tail : Bytes) (p : Bytes → Bytes → Prop) (as : List Nat) (last : List (Bytes × Bytes)) :
    Prop :=
  last = [] ∧ as = [] ∨
  ∃ hdr mode size name path data rest, tail = hdr ++ rest ∧ Line hdr rest ∧
    HeaderLine hdr mode size name ∧ p name path ∧ last = [(path, data)] ∧ data <+: rest.take size ∧
    as <+: [hdr.length]

/-- a file after its header -/
theorem Scp.body_after (os : Os) (p : Bytes) {hdr mode name rest : Bytes} {size : Nat}
    {log evs0 : List Ev} (h2 : Line hdr rest) (h3 : HeaderLine hdr mode size name)
    (h4 : Stores evs0 hdr.length [] []) (pick : Bytes → Bytes → Prop) (hp : pick name p) :
    (body os p size ⟨rest, log ++ evs0⟩).1 ≠ .panic ∧
    ((body os p size ⟨rest, log ++ evs0⟩).1 = .ok () → ∃ f evs, Announces f name ∧
      hdr ++ rest = f.wire ++ (body os p size ⟨rest, log ++ evs0⟩).2.inp ∧
      (body os p size ⟨rest, log ++ evs0⟩).2.log = log ++ evs ∧
      Stores evs f.wire.length [f.hdr.length, f.wire.length] [(p, f.content)]) ∧
    ((body os p size ⟨rest, log ++ evs0⟩).1 ≠ .ok () → ∃ evs n as last,
      (body os p size ⟨rest, log ++ evs0⟩).2.log = log ++ evs ∧
      Stores evs n as last ∧ Broken (hdr ++ rest) pick as last) := by
  obtain ⟨b1, b2, b3⟩ := body_run os p size ⟨rest, log ++ evs0⟩
  refine ⟨b1, ?_, ?_⟩
  · intro hok
    obtain ⟨evs, rest', q1, q2, q3, q4⟩ := b2 hok
    simp only at q1 q2 q4
    refine ⟨⟨hdr, rest.take size⟩, evs0 ++ evs, ⟨mode, ?_, ?_, h2.1⟩, ?_, ?_, ?_⟩
    · simpa [Nat.min_eq_left q2] using h3
    · rcases h2.2 with h | h
      · exact h
      · rw [h] at q1; simp at q1
    · rw [q3]
      simp only [Sent.wire, List.append_assoc, List.append_cancel_left_eq]
      rw [q1]
      simp [Nat.min_eq_left q2]
    · rw [q3]; simp
    · have := h4.append q4
      simpa [Sent.wire, Nat.min_eq_left q2, Nat.add_assoc] using this
  · intro hno
    obtain ⟨evs, n, as, last, q1, q2, q3, q4⟩ := b3 hno
    simp only at q1 q4
    refine ⟨evs0 ++ evs, _, _, _, ?_, h4.append q2, ?_⟩
    · rw [q1]; simp
    · rcases q4 with ⟨rfl, rfl⟩ | ⟨data, rfl, q4⟩
      · exact .inl ⟨rfl, rfl⟩
      · refine .inr ⟨hdr, mode, size, name, p, data, rest, rfl, h2, h3, hp, rfl, q4, ?_⟩
        have := q3.map (fun a => hdr.length + a)
        simpa using this

/-- the events of a header -/
theorem Scp.header_reads {hdr : Bytes} {log log1 : List Ev}
    (h4 : log1 = log ++ [.read (hdr.take 1), .read (hdr.drop 1)]) :
    ∃ evs0, log1 = log ++ evs0 ∧ Stores evs0 hdr.length [] [] := by
  have := Stores.reads [hdr.take 1, hdr.drop 1]
  refine ⟨_, h4, ?_⟩
  have hl : [hdr.take 1, hdr.drop 1].flatten = hdr := by
    show hdr.take 1 ++ (hdr.drop 1 ++ []) = hdr
    rw [List.append_nil, List.take_append_drop]
  rw [hl] at this
  exact this

/-- one file in directory mode -/
theorem Scp.dirFile_run (os : Os) (s : St) :
    ((dirFile os s).1 = .panic → s.inp.head? = some 68) ∧
    ((dirFile os s).1 = .ok false → s.inp = [] ∧ (dirFile os s).2 = s) ∧
    ((dirFile os s).1 = .ok true → ∃ f name evs, Announces f name ∧
      s.inp = f.wire ++ (dirFile os s).2.inp ∧ (dirFile os s).2.log = s.log ++ evs ∧
      Stores evs f.wire.length [f.hdr.length, f.wire.length] [(name, f.content)]) ∧
    ((∀ b, (dirFile os s).1 ≠ .ok b) → ∃ evs n as last, (dirFile os s).2.log = s.log ++ evs ∧
      Stores evs n as last ∧ Broken s.inp Eq as last) := by
  obtain ⟨inp, log⟩ := s
  unfold dirFile
  rw [S.bind_run]
  rcases hh : readHeader ⟨inp, log⟩ with ⟨(_ | ⟨mode, size, name⟩) | e | -, s1⟩
  · obtain ⟨rfl, rfl⟩ := readHeader_none hh
    simp
  · obtain ⟨hdr, h1, h2, h3, h4⟩ := readHeader_iff.mp hh
    obtain ⟨rest, log1⟩ := s1
    simp only at h1 h2 h4
    obtain ⟨evs0, rfl, hreads⟩ := header_reads h4
    obtain ⟨b1, b2, b3⟩ := body_after os name (log := log) h2 h3 hreads Eq rfl
    have hb : ∀ s, (do
        S.op os (.create name)
        S.op os .ack
        transferFile os size
        pure true : S Bool) s = (body os name size >>= fun _ => pure true) s := by
      intro s
      unfold body
      rw [S.bind_assoc]
      simp only [S.bind_assoc]
    simp only
    rw [hb, S.bind_run, h1]
    rcases hbody : body os name size ⟨rest, log ++ evs0⟩ with ⟨a | e | -, s2⟩
    · rw [hbody] at b2
      obtain ⟨f, evs, hf⟩ := b2 rfl
      exact ⟨by simp, by simp, fun _ => ⟨f, name, evs, hf⟩, by simp⟩
    · rw [hbody] at b3
      exact ⟨by simp, by simp, by simp, fun _ => b3 (by simp)⟩
    · rw [hbody] at b1
      exact absurd rfl b1
  · obtain ⟨rs, h1, h2⟩ := readHeader_log inp log
    rw [hh] at h1 h2
    exact ⟨by simp, by simp, by simp, fun _ => ⟨_, _, _, _, h1, .reads rs, .inl ⟨rfl, rfl⟩⟩⟩
  · obtain ⟨rs, h1, h2⟩ := readHeader_log inp log
    have h3 := (C55_partial inp log).2.2.mp (by rw [hh])
    rw [hh] at h1 h2
    exact ⟨fun _ => h3, by simp, by simp, fun _ => ⟨_, _, _, _, h1, .reads rs, .inl ⟨rfl, rfl⟩⟩⟩

theorem wire_pos (f : Sent) : 0 < f.wire.length := by simp [Sent.wire]; omega

theorem points_shift (k pos : Nat) (fs : List Sent) :
    points (k + pos) fs = (points pos fs).map (fun a => k + a) := by
  induction fs generalizing pos with
  | nil => rfl
  | cons f fs ih =>
    rw [points, points, List.map_cons, List.map_cons, ← ih, Nat.add_assoc, Nat.add_assoc]

/-- what is stored for files -/
def Spec.storedFiles (fs : List (Sent × Bytes)) : List (Bytes × Bytes) :=
  fs.map (fun f => (f.2, f.1.content))

theorem Scp.dirLoopN_run (os : Os) (n : Nat) (s : St) (h : s.inp.length < n) :
    ∃ (fs : List (Sent × Bytes)) (tail : Bytes) (evs : List Ev) (m : Nat) (as : List Nat)
      (last : List (Bytes × Bytes)),
      (∀ f ∈ fs, Announces f.1 f.2) ∧ s.inp = wires (fs.map (·.1)) ++ tail ∧
      (dirLoopN os n s).2.log = s.log ++ evs ∧
      Stores evs m (points 0 (fs.map (·.1)) ++ as.map (fun a => (wires (fs.map (·.1))).length + a))
        (storedFiles fs ++ last) ∧
      Broken tail Eq as last ∧
      ((dirLoopN os n s).1 = .ok () → tail = [] ∧ as = [] ∧ last = [] ∧
        (dirLoopN os n s).2.inp = []) ∧
      ((dirLoopN os n s).1 = .panic → tail.head? = some 68) := by
  induction n generalizing s with
  | zero => omega
  | succ n ih =>
    obtain ⟨d1, d2, d3, d4⟩ := dirFile_run os s
    rw [dirLoopN, S.bind_run]
    rcases hd : dirFile os s with ⟨(_ | _) | e | -, s1⟩
    · obtain ⟨h1, h2⟩ := d2 (by rw [hd])
      rw [hd] at h2
      simp only at h2
      subst h2
      exact ⟨[], [], [], 0, [], [], by simp, by simp [h1, wires], by simp,
        .nil, .inl ⟨rfl, rfl⟩, fun _ => ⟨rfl, rfl, rfl, h1⟩, by simp⟩
    · obtain ⟨f, name, evs, h1, h2, h3, h4⟩ := d3 (by rw [hd])
      rw [hd] at h2 h3
      simp only at h2 h3
      have hlt : s1.inp.length < n := by
        have := wire_pos f
        have h5 := congrArg List.length h2
        rw [List.length_append] at h5
        omega
      obtain ⟨fs, tail, evs', m, as, last, i1, i2, i3, i4, i5, i6, i7⟩ := ih s1 hlt
      refine ⟨(f, name) :: fs, tail, evs ++ evs', f.wire.length + m, as, last, ?_, ?_, ?_, ?_, i5, i6, i7⟩
      · intro g hg
        rcases List.mem_cons.mp hg with rfl | hg
        · exact h1
        · exact i1 g hg
      · rw [h2, i2]; simp [wires_cons]
      · simp only [i3, h3, List.append_assoc]
      · have := h4.append i4
        simp only [List.map_append, List.map_map] at this
        rw [List.map_cons, points, Nat.zero_add, Nat.zero_add,
          show points f.wire.length (fs.map (·.1)) = (points 0 (fs.map (·.1))).map
            (fun a => f.wire.length + a) from points_shift _ 0 _, wires_cons]
        simp only [List.length_append]
        have he : ((fun a => f.wire.length + a) ∘ fun a => (wires (fs.map (·.1))).length + a) =
            fun a => f.wire.length + (wires (fs.map (·.1))).length + a := by
          funext a; simp [Nat.add_assoc]
        rw [he] at this
        exact this
    · obtain ⟨evs, m, as, last, h1, h2, h3⟩ := d4 (by rw [hd]; simp)
      rw [hd] at h1
      refine ⟨[], s.inp, evs, m, as, last, by simp, by simp [wires], h1, ?_, h3, by simp, by simp⟩
      simpa [wires, points, storedFiles] using h2
    · obtain ⟨evs, m, as, last, h1, h2, h3⟩ := d4 (by rw [hd]; simp)
      have h4 := d1 (by rw [hd])
      rw [hd] at h1
      refine ⟨[], s.inp, evs, m, as, last, by simp, by simp [wires], h1, ?_, h3, by simp, fun _ => h4⟩
      simpa [wires, points, storedFiles] using h2

theorem Scp.dirLoopN_fuel (os : Os) (n : Nat) (s : St) (h : s.inp.length < n) :
    dirLoopN os n s = dirLoopN os (n + 1) s := by
  induction n generalizing s with
  | zero => omega
  | succ n ih =>
    rw [dirLoopN, dirLoopN, S.bind_run, S.bind_run]
    obtain ⟨-, -, d3, -⟩ := dirFile_run os s
    rcases hd : dirFile os s with ⟨(_ | _) | e | -, s1⟩
    · rfl
    · obtain ⟨f, name, evs, h1, h2, h3, h4⟩ := d3 (by rw [hd])
      rw [hd] at h2
      have hlt : s1.inp.length < n := by
        have := wire_pos f
        have h5 := congrArg List.length h2
        rw [List.length_append] at h5
        simp only at h5
        omega
      exact ih s1 hlt
    · rfl
    · rfl

/-- `dirLoop` is the loop -/
theorem Scp.dirLoop_eq (os : Os) : dirLoop os = (do
    match ← dirFile os with
    | true => dirLoop os
    | false => pure ()) := by
  funext s
  unfold dirLoop
  rw [dirLoopN, S.bind_run, S.bind_run]
  obtain ⟨-, -, d3, -⟩ := dirFile_run os s
  rcases hd : dirFile os s with ⟨(_ | _) | e | -, s1⟩
  · rfl
  · obtain ⟨f, name, evs, h1, h2, h3, h4⟩ := d3 (by rw [hd])
    rw [hd] at h2
    have hlt : s1.inp.length < s.inp.length := by
      have := wire_pos f
      have h5 := congrArg List.length h2
      rw [List.length_append] at h5
      simp only at h5
      omega
    show dirLoopN os s.inp.length s1 = dirLoopN os (s1.inp.length + 1) s1
    have key : ∀ k, dirLoopN os (s1.inp.length + 1 + k) s1 = dirLoopN os (s1.inp.length + 1) s1 := by
      intro k
      induction k with
      | zero => rfl
      | succ k ih => rw [← Nat.add_assoc, ← dirLoopN_fuel os _ s1 (by omega), ih]
    have := key (s.inp.length - (s1.inp.length + 1))
    rw [show s1.inp.length + 1 + (s.inp.length - (s1.inp.length + 1)) = s.inp.length by omega] at this
    exact this
  · rfl
  · rfl

/-- one file in the other mode -/
theorem Scp.pathFile_run (os : Os) (p : Bytes) (s : St) :
    ((pathFile os p s).1 = .panic → s.inp.head? = some 68) ∧
    ((pathFile os p s).1 = .ok () → ∃ f name evs, Announces f name ∧
      s.inp = f.wire ++ (pathFile os p s).2.inp ∧ (pathFile os p s).2.log = s.log ++ evs ∧
      Stores evs f.wire.length [f.hdr.length, f.wire.length] [(p, f.content)]) ∧
    ((pathFile os p s).1 ≠ .ok () → ∃ evs n as last, (pathFile os p s).2.log = s.log ++ evs ∧
      Stores evs n as last ∧ Broken s.inp (fun _ q => q = p) as last) := by
  obtain ⟨inp, log⟩ := s
  unfold pathFile
  rw [S.bind_run]
  rcases hh : readHeader ⟨inp, log⟩ with ⟨(_ | ⟨mode, size, name⟩) | e | -, s1⟩
  · obtain ⟨rfl, rfl⟩ := readHeader_none hh
    exact ⟨by simp, by simp, fun _ => ⟨[], 0, [], [], by simp, .nil, .inl ⟨rfl, rfl⟩⟩⟩
  · obtain ⟨hdr, h1, h2, h3, h4⟩ := readHeader_iff.mp hh
    obtain ⟨rest, log1⟩ := s1
    simp only at h1 h2 h4
    obtain ⟨evs0, rfl, hreads⟩ := header_reads h4
    simp only
    rcases op_cases os (.createParents p) ⟨rest, log ++ evs0⟩ with ho | ho
    · rw [S.bind_ok ho]
      have hreads1 : Stores (evs0 ++ [.createParents p]) hdr.length [] [] := by
        have : Stores [.createParents p] 0 [] [] := ⟨by simp, by simp [Scan.step]⟩
        simpa using hreads.append this
      obtain ⟨b1, b2, b3⟩ := body_after os p (log := log) h2 h3 hreads1 (fun _ q => q = p) rfl
      rw [List.append_assoc, h1]
      exact ⟨fun h => absurd h b1, fun h => let ⟨f, evs, hf⟩ := b2 h; ⟨f, name, evs, hf⟩, b3⟩
    · rw [S.bind_err ho]
      exact ⟨by simp, by simp, fun _ => ⟨evs0, _, _, _, rfl, hreads, .inl ⟨rfl, rfl⟩⟩⟩
  · obtain ⟨rs, h1, h2⟩ := readHeader_log inp log
    rw [hh] at h1 h2
    exact ⟨by simp, by simp, fun _ => ⟨_, _, _, _, h1, .reads rs, .inl ⟨rfl, rfl⟩⟩⟩
  · obtain ⟨rs, h1, h2⟩ := readHeader_log inp log
    have h3 := (C55_partial inp log).2.2.mp (by rw [hh])
    rw [hh] at h1 h2
    exact ⟨fun _ => h3, by simp, fun _ => ⟨_, _, _, _, h1, .reads rs, .inl ⟨rfl, rfl⟩⟩⟩

theorem Scp.pathLoop_run (os : Os) (to : List Bytes) (s : St) :
    ∃ (fs : List (Sent × Bytes)) (tail : Bytes) (evs : List Ev) (m : Nat) (as : List Nat)
      (last : List (Bytes × Bytes)),
      (∀ f ∈ fs, ∃ name, Announces f.1 name) ∧ fs.map (·.2) <+: to ∧
      s.inp = wires (fs.map (·.1)) ++ tail ∧
      (pathLoop os to s).2.log = s.log ++ evs ∧
      Stores evs m (points 0 (fs.map (·.1)) ++ as.map (fun a => (wires (fs.map (·.1))).length + a))
        (storedFiles fs ++ last) ∧
      Broken tail (fun _ q => fs.map (·.2) ++ [q] <+: to) as last ∧
      ((pathLoop os to s).1 = .ok () → fs.map (·.2) = to ∧ as = [] ∧ last = [] ∧
        (pathLoop os to s).2.inp = tail) ∧
      ((pathLoop os to s).1 = .panic → tail.head? = some 68) := by
  induction to generalizing s with
  | nil =>
    exact ⟨[], s.inp, [], 0, [], [], by simp, by simp, by simp [wires], by simp [pathLoop], .nil,
      .inl ⟨rfl, rfl⟩, by simp [pathLoop], by simp [pathLoop]⟩
  | cons p ps ih =>
    obtain ⟨d1, d3, d4⟩ := pathFile_run os p s
    rw [pathLoop, S.bind_run]
    have hbroken : ∀ {as last}, Broken s.inp (fun _ q => q = p) as last →
        Broken s.inp (fun _ q => ([] : List (Sent × Bytes)).map (·.2) ++ [q] <+: p :: ps) as last := by
      rintro as last (h | ⟨hdr, mode, size, name, path, data, rest, c1, c2, c3, c4, c5⟩)
      · exact .inl h
      · exact .inr ⟨hdr, mode, size, name, path, data, rest, c1, c2, c3, by simp [c4], c5⟩
    rcases hd : pathFile os p s with ⟨a | e | -, s1⟩
    · obtain ⟨f, name, evs, h1, h2, h3, h4⟩ := d3 (by rw [hd])
      rw [hd] at h2 h3
      simp only at h2 h3
      obtain ⟨fs, tail, evs', m, as, last, i1, i0, i2, i3, i4, i5, i6, i7⟩ := ih s1
      refine ⟨(f, p) :: fs, tail, evs ++ evs', f.wire.length + m, as, last, ?_, ?_, ?_, ?_, ?_, ?_, ?_, i7⟩
      · intro g hg
        rcases List.mem_cons.mp hg with rfl | hg
        · exact ⟨name, h1⟩
        · exact i1 g hg
      · simpa using i0
      · rw [h2, i2]; simp [wires_cons]
      · simp only [i3, h3, List.append_assoc]
      · have := h4.append i4
        simp only [List.map_append, List.map_map] at this
        rw [List.map_cons, points, Nat.zero_add, Nat.zero_add,
          show points f.wire.length (fs.map (·.1)) = (points 0 (fs.map (·.1))).map
            (fun a => f.wire.length + a) from points_shift _ 0 _, wires_cons]
        simp only [List.length_append]
        have he : ((fun a => f.wire.length + a) ∘ fun a => (wires (fs.map (·.1))).length + a) =
            fun a => f.wire.length + (wires (fs.map (·.1))).length + a := by
          funext a; simp [Nat.add_assoc]
        rw [he] at this
        exact this
      · rcases i5 with h | ⟨hdr, mode, size, name, path, data, rest, c1, c2, c3, c4, c5⟩
        · exact .inl h
        · exact .inr ⟨hdr, mode, size, name, path, data, rest, c1, c2, c3, by simpa using c4, c5⟩
      · intro hok
        obtain ⟨j1, j2⟩ := i6 hok
        exact ⟨by simpa using j1, j2⟩
    · obtain ⟨evs, m, as, last, h1, h2, h3⟩ := d4 (by rw [hd]; simp)
      rw [hd] at h1
      refine ⟨[], s.inp, evs, m, as, last, by simp, by simp, by simp [wires], h1, ?_, hbroken h3,
        by simp, by simp⟩
      simpa [wires, points, storedFiles] using h2
    · obtain ⟨evs, m, as, last, h1, h2, h3⟩ := d4 (by rw [hd]; simp)
      have h4 := d1 (by rw [hd])
      rw [hd] at h1
      refine ⟨[], s.inp, evs, m, as, last, by simp, by simp, by simp [wires], h1, ?_, hbroken h3,
        by simp, fun _ => h4⟩
      simpa [wires, points, storedFiles] using h2

end Nora
