import Verif.Gsf.Session
import Verif.Props.Sample

/-!
# C73: reading a file in parts
-/

namespace Verif.Session

open Verif Verif.Gsf

/-! ## Specification

A desk with the files' contents on it.  Nothing here looks at bytes or positions. -/

/-- The grains of a file, each with the headers of its file. -/
def labelled (f : FileSpec) : List (Hdr × Nat × Grain) := f.grains.map (fun x => (f.hdr, x.1, x.2))

/-- The generator asks for grains with this local id. -/
def chosen : Option (List Nat) → Nat → Bool
  | none, _ => true
  | some ids, lid => ids.contains lid

/-- The data a consumer can take from a grain: none when it asked never to load. -/
def dataFor (mode : Mode) (g : Grain) : Option Bytes := if mode = .loadNever then none else g.payload

/-- Files not entered yet, the headers on show, the grains still to come, the headers of the last file among them, whether the
reader is in front of a file, how often the decoder was entered, the generators, and the data of the grains handed out. -/
structure Desk where
  later : List FileSpec
  hdr : Option Hdr
  rest : List (Hdr × Nat × Grain)
  last : Option Hdr
  between : Bool
  visits : Nat
  gens : List Gen
  got : List (Option Bytes)

def Desk.start (fs : List FileSpec) : Desk := ⟨fs, none, [], none, true, 0, [], []⟩

/-- Entering the decoder opens the next file, or all files when concatenation is supported. -/
def Desk.open (concat : Bool) (d : Desk) (f : FileSpec) (fs : List FileSpec) : Desk :=
  { d with
    later := if concat then [] else fs
    hdr := some f.hdr
    rest := if concat then (f :: fs).flatMap labelled else labelled f
    last := some (if concat then fs.foldl (fun _ x => x.hdr) f.hdr else f.hdr)
    between := false
    visits := d.visits + 1 }

/-- What an operation is to do; `none` when nothing is promised: entering in the middle of a file or when there is none left, and
continuing a generator of an earlier session or one that was made before the end of its file was seen by another (only without
support for concatenation). -/
def Desk.act (concat : Bool) (d : Desk) : Op → Option (Desk × Out)
  | .enter =>
    if d.between then
      match d.later with
      | [] => none
      | f :: fs => some (d.open concat f fs, .entered f.hdr)
    else none
  | .grains ids mode =>
    if d.visits = 0 then some (d, .missing)
    else some ({ d with gens := d.gens ++ [⟨ids, mode, d.visits - 1, true⟩] }, .made d.gens.length)
  | .next k =>
    match d.gens[k]? with
    | none => some (d, .missing)
    | some g =>
      if g.live = false then some (d, .stop)
      else if g.visit + 1 ≠ d.visits ∨ d.between = true then none
      else
        match d.rest.dropWhile (fun x => !chosen g.ids x.2.1) with
        | x :: xs =>
          some ({ d with rest := xs, hdr := some x.1, got := d.got ++ [dataFor g.mode x.2.2] },
            .grain (x.2.2.toMeta x.1.major) x.2.1)
        | [] =>
          some ({ d with rest := [], hdr := d.last, between := !concat, gens := d.gens.set k { g with live := false } }, .stop)
  | .close k =>
    match d.gens[k]? with
    | none => some (d, .missing)
    | some g => some ({ d with gens := d.gens.set k { g with live := false } }, .closed)
  | .load k =>
    match d.got[k]? with
    | none => some (d, .missing)
    | some x => some (d, .data x)
  | .headers =>
    match d.hdr with
    | none => some (d, .missing)
    | some h => some (d, .headers h)

/-- What a program is to see. -/
def Desk.expected (concat : Bool) : Desk → List Op → Option (List Out)
  | _, [] => some []
  | d, op :: ops =>
    match d.act concat op with
    | none => none
    | some (d', out) => (Desk.expected concat d' ops).map (out :: ·)

/-- The grains among the outputs. -/
def delivered (outs : List Out) : List (Meta × Nat) :=
  outs.filterMap (fun x => match x with | .grain m l => some (m, l) | _ => none)

/-- The grains of a list of files, as they are delivered. -/
def contents (fs : List FileSpec) : List (Meta × Nat) :=
  fs.flatMap (fun f => f.grains.map (fun x => (x.2.toMeta f.major, x.1)))

/-! ## Proofs -/

/-- What lies ahead in the file: headers, grains, headers at the end, bytes. -/
inductive Ahead (c : Bool) : Hdr → List (Hdr × Nat × Grain) → Hdr → Bytes → Prop where
  | done {h} : Ahead c h [] h []
  | skip {h h1 gs l bs rest} : (∀ (o : Opts) p, o.concat = c → Turns o p h false bs [] h1 false) →
      Ahead c h1 gs l rest → Ahead c h gs l (bs ++ rest)
  | grain {h lid g b off gs l rest} : lid < 2 ^ 16 → g.Ok h.major → DecoGrai h.major lid g b off →
      Ahead c h gs l rest → Ahead c h ((h, lid, g) :: gs) l (b.bytes ++ rest)

theorem Ahead.append {c h gs l a gs2 l2 b} (h1 : Ahead c h gs l a) (h2 : Ahead c l gs2 l2 b) :
    Ahead c h (gs ++ gs2) l2 (a ++ b) := by
  induction h1 with
  | done => exact h2
  | skip t _ ih => rw [List.append_assoc]; exact .skip t (ih h2)
  | grain x y z _ ih => rw [List.append_assoc]; exact .grain x y z (ih h2)

theorem Ahead.one {c h h1 bs} (t : ∀ (o : Opts) p, o.concat = c → Turns o p h false bs [] h1 false) :
    Ahead c h [] h1 bs := by
  have := Ahead.skip t (.done (c := c) (h := h1))
  rwa [List.append_nil] at this

theorem ahead_grains (c : Bool) (f : FileSpec) (gs : List (Nat × Grain)) (hg : ∀ x ∈ gs, x.1 < 2 ^ 16 ∧ x.2.Ok f.major) :
    Ahead c f.hdr (gs.map (fun x => (f.hdr, x.1, x.2))) f.hdr (gs.flatMap (fun x => encodeGrain f.major x.1 x.2)) := by
  induction gs with
  | nil => exact .done
  | cons x gs ih =>
    have hx := hg x (by simp)
    rw [List.flatMap_cons, encodeGrain_eq _ _ _ hx.2.wf]
    exact .grain hx.1 hx.2 (decoGrai_self hx.2) (ih (fun y hy => hg y (by simp [hy])))

/-- The file header and head of a file. -/
def front (f : FileSpec) : Bytes := encodeFileHeader f.major f.minor ++ (blksBytes [] ++ (headBlk f.head).bytes)

/-- The grains of a file. -/
def body (f : FileSpec) : Bytes := f.grains.flatMap (fun x => encodeGrain f.major x.1 x.2)

theorem bytes_eq {f : FileSpec} (hf : f.Ok) : f.bytes = front f ++ (body f ++ terminator) := by
  unfold FileSpec.bytes front body
  rw [encodeHead_eq _ hf.head.wf]
  simp [blksBytes]

theorem ahead_body (f : FileSpec) (hf : f.Ok) : Ahead true f.hdr (labelled f) f.hdr (body f ++ terminator) := by
  have := (ahead_grains true f f.grains hf.grains).append (Ahead.one (c := true) (h := f.hdr) (h1 := f.hdr) (bs := terminator)
    (fun o p ho => Turns.one_next (fun s hat => by rw [terminator_step o _ _ s hat, ho, if_pos rfl]; rfl)))
  rwa [List.append_nil] at this

theorem ahead_file (f : FileSpec) (hf : f.Ok) (h : Hdr) : Ahead true h (labelled f) f.hdr f.bytes := by
  have e : front f = signature ++ ((encodeUint f.major 2 ++ encodeUint f.minor 2) ++ (blksBytes [] ++ (headBlk f.head).bytes)) := by
    simp [front, encodeFileHeader, signature]
  rw [bytes_eq hf]
  refine .skip (h1 := f.hdr) (fun o p ho => ?_) (ahead_body f hf)
  rw [e]
  refine .next (h1 := h) (hc1 := true) ?_ (Turns.one_next ?_)
  · intro s hat
    rw [signature_step o _ _ s hat, ho, if_pos rfl]
    rfl
  · intro s hat
    unfold grainsStep
    rw [if_pos rfl]
    rw [Rd.bind_of_ok (headers_read hf.major hf.minor hf.head (decoHead_self hf.head) (fun _ h => by simp at h) s _ hat)]
    rfl

theorem ahead_files (fs : List FileSpec) (hf : ∀ f ∈ fs, f.Ok) (h : Hdr) :
    Ahead true h (fs.flatMap labelled) (fs.foldl (fun _ x => x.hdr) h) (fs.flatMap FileSpec.bytes) := by
  induction fs generalizing h with
  | nil => exact .done
  | cons f fs ih =>
    rw [List.flatMap_cons, List.flatMap_cons, List.foldl_cons]
    exact (ahead_file f (hf f (by simp)) h).append (ih (fun x hx => hf x (by simp [hx])) f.hdr)

theorem Turns.pull {o p h hc bs items h2 hc2 file} (ht : Turns o p h hc bs items h2 hc2) (hi : items = [])
    (hat : At ⟨0, file⟩ p bs) : pull o file h hc p = pull o file h2 hc2 (p + bs.length) := by
  induction ht with
  | nil => simp
  | next t _ ih =>
    rw [pull_eq, t _ hat.left]
    simp only
    rw [ih hi hat.right, List.length_append, Nat.add_assoc]
  | yield _ _ _ => simp at hi

theorem drops_eq (ids : Option (List Nat)) (mode concat seekable lid) :
    Opts.drops ⟨ids, mode, concat, seekable⟩ lid = !chosen ids lid := by
  cases ids <;> rfl

theorem view_data (ids : Option (List Nat)) (mode concat seekable major x) :
    (Opts.viewOf ⟨ids, mode, concat, seekable⟩ major x).2.1 = dataFor mode x.2 := by
  unfold Opts.viewOf dataFor Opts.defers
  cases mode <;> cases seekable <;> simp

/-- `next` over known bytes. -/
theorem pull_ahead {c h gs l bs} {file : Bytes} (ha : Ahead c h gs l bs) (p : Nat) (hat : At ⟨0, file⟩ p bs) (o : Opts)
    (ho : o.concat = c) :
    (∀ x xs, gs.dropWhile (fun x => o.drops x.2.1) = x :: xs → ∃ it q bs', pull o file h false p = (.item it, x.1, some q) ∧
      it.info = x.2.2.toMeta x.1.major ∧ it.localId = x.2.1 ∧ it.data.load file = (o.viewOf x.1.major x.2).2.1 ∧
      Ahead c x.1 xs l bs' ∧ At ⟨0, file⟩ q bs' ∧ q + bs'.length = p + bs.length) ∧
    (gs.dropWhile (fun x => o.drops x.2.1) = [] → pull o file h false p = pull o file l false (p + bs.length)) := by
  induction ha generalizing p with
  | done => exact ⟨fun _ _ h => by simp at h, fun _ => by simp⟩
  | skip t _ ih =>
    rw [Turns.pull (t o p ho) rfl hat.left]
    obtain ⟨h1, h2⟩ := ih _ hat.right
    rw [List.length_append, ← Nat.add_assoc]
    exact ⟨h1, h2⟩
  | grain hl hg hd ha ih =>
    rename_i h lid g b off gs l rest
    have ht := turn_grain o h p hl hg hd
    unfold Opts.grainOut at ht
    obtain ⟨h1, h2⟩ := ih _ hat.right
    rw [List.length_append, ← Nat.add_assoc, pull_eq, ht _ hat.left]
    cases hdr : o.drops lid with
    | true =>
      rw [if_pos rfl, List.dropWhile_cons_of_pos (p := fun x : Hdr × Nat × Grain => o.drops x.2.1) hdr]
      exact ⟨h1, h2⟩
    | false =>
      rw [if_neg (by simp), List.dropWhile_cons_of_neg (p := fun x : Hdr × Nat × Grain => o.drops x.2.1) (by simp [hdr])]
      refine ⟨fun x xs hx => ?_, fun hx => by simp at hx⟩
      obtain ⟨rfl, rfl⟩ := List.cons.inj hx
      refine ⟨_, _, rest, rfl, rfl, rfl, ?_, ha, hat.right, rfl⟩
      simp only [Opts.viewOf, Grain.payload]
      rw [o.dataOf_load (hd.data_at hat.left)]

theorem pull_end (o : Opts) (file : Bytes) (h : Hdr) : pull o file h false file.length = (.stop, h, some file.length) := by
  have : grainsStep o h false ⟨0, file⟩ file.length = .error .eof := by
    unfold grainsStep
    rw [if_neg (by simp), Rd.bind_of_error (enter_eof (Nat.zero_le _) (by simp [Stream.fin]))]
  rw [pull_eq, this]
  simp only [eofPos]
  rw [if_neg (by simp), enter_eof (Nat.zero_le _) (by simp [Stream.fin])]
  simp [Stream.fin]

theorem pull_terminator (o : Opts) (ho : o.concat = false) (file : Bytes) (h : Hdr) (p : Nat) (hat : At ⟨0, file⟩ p terminator) :
    pull o file h false p = (.stop, h, some (p + 8)) := by
  rw [pull_eq, terminator_step o h p _ hat, ho]
  rfl

/-- The decoder's state and the desk say the same. -/
structure Rel (concat : Bool) (file : Bytes) (m : Dec) (d : Desk) : Prop where
  gens : m.gens = d.gens
  got : m.got.map (fun it => it.data.load file) = d.got
  visits : m.sessions.length = d.visits
  hdr : m.sessions.getLast? = d.hdr
  later : ∀ f ∈ d.later, f.Ok
  pos : ∃ p, m.pos = some p ∧
    if d.between then At ⟨0, file⟩ p (d.later.flatMap FileSpec.bytes) ∧ (concat = true → p + (d.later.flatMap FileSpec.bytes).length = file.length)
    else ∃ h l bs, d.hdr = some h ∧ d.last = some l ∧ Ahead concat h d.rest l bs ∧ At ⟨0, file⟩ p bs ∧
      if concat then p + bs.length = file.length
      else At ⟨0, file⟩ (p + bs.length) (terminator ++ d.later.flatMap FileSpec.bytes)

theorem fetch_eq (file : Bytes) (p : Option Nat) (x : Data) : fetch file p x = (x.load file, p) := by
  cases x with
  | none => rfl
  | bytes bs => rfl
  | deferred start length =>
    simp only [fetch, Data.load, IO.IOB.loadbytes, IO.File.seek, IO.File.read]
    cases p <;> rfl

theorem sim_enter {c sk file m d d' out} (hr : Rel c file m d) (h : d.act c .enter = some (d', out)) :
    (step c sk file m .enter).2 = out ∧ Rel c file (step c sk file m .enter).1 d' := by
  obtain ⟨p, hp, hb⟩ := hr.pos
  simp only [Desk.act] at h
  cases hbt : d.between with
  | false => rw [hbt] at h; simp at h
  | true =>
    rw [hbt, if_pos rfl] at h hb
    cases hl : d.later with
    | nil => rw [hl] at h; simp at h
    | cons f fs =>
      rw [hl] at h hb
      simp only [Option.some.injEq, Prod.mk.injEq] at h
      obtain ⟨rfl, rfl⟩ := h
      have hok := hr.later
      rw [hl] at hok
      have hf := hok f (by simp)
      have hfs : ∀ x ∈ fs, x.Ok := fun x hx => hok x (by simp [hx])
      obtain ⟨hat, hlen⟩ := hb
      rw [List.flatMap_cons, bytes_eq hf, List.append_assoc] at hat
      have hh : decodeFileHeaders false ⟨0, file⟩ p = .ok (f.hdr, p + (front f).length) :=
        fileHeaders_read hf.major hf.minor hf.head (decoHead_self hf.head) (fun _ h => by simp at h) _ _ hat.left
      simp only [step, hp, hh, true_and]
      refine ⟨hr.gens, hr.got, ?_, by simp [Desk.open], ?_, p + (front f).length, rfl, ?_⟩
      · simp [Desk.open, hr.visits]
      · cases c
        · simpa [Desk.open] using hfs
        · simp [Desk.open]
      · rw [if_neg (by simp [Desk.open])]
        cases c with
        | true =>
          refine ⟨f.hdr, fs.foldl (fun _ x => x.hdr) f.hdr, (body f ++ terminator) ++ fs.flatMap FileSpec.bytes, rfl, rfl,
            (ahead_body f hf).append (ahead_files fs hfs f.hdr), hat.right, ?_⟩
          have := hlen rfl
          rw [List.flatMap_cons, bytes_eq hf] at this
          simp only [List.length_append] at this ⊢
          simp only [if_true]
          omega
        | false =>
          have hr2 := hat.right
          rw [List.append_assoc] at hr2
          exact ⟨f.hdr, f.hdr, body f, rfl, rfl, ahead_grains false f f.grains hf.grains, hr2.left, hr2.right⟩

theorem sim_next {c sk file m d d' out k} (hr : Rel c file m d) (h : d.act c (.next k) = some (d', out)) :
    (step c sk file m (.next k)).2 = out ∧ Rel c file (step c sk file m (.next k)).1 d' := by
  obtain ⟨p, hp, hb⟩ := hr.pos
  simp only [Desk.act] at h
  simp only [step, hr.gens]
  cases hk : d.gens[k]? with
  | none =>
    rw [hk] at h
    simp only [Option.some.injEq, Prod.mk.injEq] at h
    obtain ⟨rfl, rfl⟩ := h
    exact ⟨rfl, hr⟩
  | some g =>
    rw [hk] at h
    simp only at h ⊢
    cases hlive : g.live with
    | false =>
      rw [hlive, if_pos rfl] at h
      simp only [Option.some.injEq, Prod.mk.injEq] at h
      obtain ⟨rfl, rfl⟩ := h
      rw [if_pos rfl]
      exact ⟨rfl, hr⟩
    | true =>
      rw [hlive, if_neg (by simp)] at h
      by_cases hcnd : g.visit + 1 ≠ d.visits ∨ d.between = true
      · rw [if_pos hcnd] at h; simp at h
      · rw [if_neg hcnd] at h
        have hv : g.visit + 1 = d.visits := by
          by_cases hv : g.visit + 1 = d.visits
          · exact hv
          · exact absurd (.inl hv) hcnd
        have hbt : ¬ d.between = true := fun hb => hcnd (.inr hb)
        rw [if_neg hbt] at hb
        obtain ⟨h0, l, bs, hh0, hl, ha, hat, hend⟩ := hb
        rw [if_neg (by simp), hp]
        have hs : m.sessions[g.visit]? = some h0 := by
          rw [← hh0, ← hr.hdr, List.getLast?_eq_getElem?, hr.visits, ← hv]; rfl
        have hset : ∀ x, (m.sessions.set g.visit x).getLast? = some x := by
          intro x
          rw [List.getLast?_eq_getElem?, List.length_set, hr.visits, ← hv, Nat.add_sub_cancel,
            List.getElem?_set_self (by have := hr.visits; omega)]
        rw [hs]
        simp only
        obtain ⟨h1, h2⟩ := pull_ahead ha p hat ⟨g.ids, g.mode, c, sk⟩ rfl
        have e : (fun x : Hdr × Nat × Grain => Opts.drops ⟨g.ids, g.mode, c, sk⟩ x.2.1) = (fun x => !chosen g.ids x.2.1) := by
          funext x; exact drops_eq ..
        rw [e] at h1 h2
        cases hdw : d.rest.dropWhile (fun x => !chosen g.ids x.2.1) with
        | cons x xs =>
          rw [hdw] at h
          simp only [Option.some.injEq, Prod.mk.injEq] at h
          obtain ⟨rfl, rfl⟩ := h
          obtain ⟨it, q, bs', e1, e2, e3, e4, e5, e6, e7⟩ := h1 x xs hdw
          rw [e1]
          simp only [e2, e3, true_and]
          refine ⟨rfl, ?_, ?_, hset _, hr.later, q, rfl, ?_⟩
          · rw [List.map_append, hr.got, List.map_singleton, e4, view_data]
          · simpa using hr.visits
          · rw [if_neg hbt]
            exact ⟨x.1, l, bs', rfl, hl, e5, e6, by rw [e7]; exact hend⟩
        | nil =>
          rw [hdw] at h
          simp only [Option.some.injEq, Prod.mk.injEq] at h
          obtain ⟨rfl, rfl⟩ := h
          rw [h2 hdw]
          cases c with
          | true =>
            rw [if_pos rfl] at hend
            rw [hend, pull_end]
            refine ⟨rfl, rfl, hr.got, ?_, (hset _).trans hl.symm, hr.later, file.length, rfl, ?_⟩
            · simpa using hr.visits
            · rw [if_neg (by simp)]
              refine ⟨l, l, [], hl, hl, .done, ?_, rfl⟩
              exact ⟨Nat.zero_le _, List.nil_prefix⟩
          | false =>
            rw [if_neg (by simp)] at hend
            rw [pull_terminator _ rfl _ _ _ hend.left]
            refine ⟨rfl, rfl, hr.got, ?_, (hset _).trans hl.symm, hr.later, p + bs.length + 8, rfl, ?_⟩
            · simpa using hr.visits
            · rw [if_pos (by simp)]
              exact ⟨hend.right, fun h => by simp at h⟩

theorem sim {c sk file m d d' op out} (hr : Rel c file m d) (h : d.act c op = some (d', out)) :
    (step c sk file m op).2 = out ∧ Rel c file (step c sk file m op).1 d' := by
  cases op with
  | enter => exact sim_enter hr h
  | next k => exact sim_next hr h
  | grains ids mode =>
    simp only [Desk.act] at h
    simp only [step]
    by_cases hv : d.visits = 0
    · rw [if_pos hv] at h
      simp only [Option.some.injEq, Prod.mk.injEq] at h
      obtain ⟨rfl, rfl⟩ := h
      rw [if_pos (List.eq_nil_of_length_eq_zero (hr.visits.trans hv))]
      exact ⟨rfl, hr⟩
    · rw [if_neg hv] at h
      simp only [Option.some.injEq, Prod.mk.injEq] at h
      obtain ⟨rfl, rfl⟩ := h
      rw [if_neg (by intro hn; apply hv; rw [← hr.visits, hn]; rfl), hr.visits, hr.gens]
      exact ⟨rfl, rfl, hr.got, hr.visits, hr.hdr, hr.later, hr.pos⟩
  | close k =>
    simp only [Desk.act] at h
    simp only [step, hr.gens]
    cases hk : d.gens[k]? with
    | none =>
      rw [hk] at h
      simp only [Option.some.injEq, Prod.mk.injEq] at h
      obtain ⟨rfl, rfl⟩ := h
      exact ⟨rfl, hr⟩
    | some g =>
      rw [hk] at h
      simp only [Option.some.injEq, Prod.mk.injEq] at h
      obtain ⟨rfl, rfl⟩ := h
      exact ⟨rfl, rfl, hr.got, hr.visits, hr.hdr, hr.later, hr.pos⟩
  | load k =>
    simp only [Desk.act, ← hr.got, List.getElem?_map] at h
    simp only [step]
    cases hk : m.got[k]? with
    | none =>
      rw [hk] at h
      simp only [Option.map_none, Option.some.injEq, Prod.mk.injEq] at h
      obtain ⟨rfl, rfl⟩ := h
      exact ⟨rfl, hr⟩
    | some it =>
      rw [hk] at h
      simp only [Option.map_some, Option.some.injEq, Prod.mk.injEq] at h
      obtain ⟨rfl, rfl⟩ := h
      simp only [fetch_eq]
      exact ⟨trivial, hr⟩
  | headers =>
    simp only [Desk.act] at h
    simp only [step, hr.hdr]
    cases hk : d.hdr with
    | none =>
      rw [hk] at h
      simp only [Option.some.injEq, Prod.mk.injEq] at h
      obtain ⟨rfl, rfl⟩ := h
      exact ⟨rfl, hr⟩
    | some x =>
      rw [hk] at h
      simp only [Option.some.injEq, Prod.mk.injEq] at h
      obtain ⟨rfl, rfl⟩ := h
      exact ⟨rfl, hr⟩

theorem rel_start (c : Bool) {fs : List FileSpec} (hf : ∀ f ∈ fs, f.Ok) :
    Rel c (fs.flatMap FileSpec.bytes) Dec.start (Desk.start fs) := by
  refine ⟨rfl, rfl, rfl, rfl, hf, 0, rfl, ?_⟩
  rw [if_pos (show (Desk.start fs).between = true from rfl)]
  exact ⟨at_self _ _, fun _ => by simp [Desk.start]⟩

theorem outputs_eq {c sk file} (ops : List Op) : ∀ {m d outs}, Rel c file m d → d.expected c ops = some outs →
    outputs c sk file m ops = outs := by
  induction ops with
  | nil => intro m d outs _ h; simp [Desk.expected] at h; simp [outputs, h]
  | cons op ops ih =>
    intro m d outs hr h
    simp only [Desk.expected] at h
    cases ha : d.act c op with
    | none => rw [ha] at h; simp at h
    | some r =>
      obtain ⟨d', out⟩ := r
      rw [ha] at h
      simp only [Option.map_eq_some_iff] at h
      obtain ⟨os, h1, rfl⟩ := h
      obtain ⟨e1, e2⟩ := sim (sk := sk) hr ha
      simp only [outputs]
      rw [e1, ih e2 h1]

/-! ### Programs with one session -/

/-- One session on the desk. -/
structure Single (d : Desk) : Prop where
  visits : d.visits = 1
  between : d.between = false
  gens : ∀ g ∈ d.gens, g.visit = 0

theorem single_open (d : Desk) (f : FileSpec) (fs : List FileSpec) (hv : d.visits = 0) (hg : d.gens = []) :
    Single (d.open true f fs) := ⟨by simp [Desk.open, hv], rfl, by simp [Desk.open, hg]⟩

theorem mem_set_live {l : List Gen} {k : Nat} {g x : Gen} (hk : l[k]? = some g) (hx : x ∈ l.set k { g with live := false }) :
    x ∈ l ∨ x = { g with live := false } ∧ g ∈ l := by
  rcases List.mem_or_eq_of_mem_set hx with h | h
  · exact .inl h
  · exact .inr ⟨h, List.mem_of_getElem? hk⟩

theorem single_act {d : Desk} (hs : Single d) {op : Op} (hop : op ≠ .enter) :
    ∃ d' out, d.act true op = some (d', out) ∧ Single d' := by
  have hset : ∀ {k : Nat} {g : Gen}, d.gens[k]? = some g → ∀ x ∈ d.gens.set k { g with live := false }, x.visit = 0 := by
    intro k g hk x hx
    rcases mem_set_live hk hx with h | ⟨rfl, h⟩
    · exact hs.gens x h
    · exact hs.gens g h
  cases op with
  | enter => exact absurd rfl hop
  | grains ids mode =>
    simp only [Desk.act]
    rw [if_neg (by rw [hs.visits]; decide)]
    refine ⟨_, _, rfl, hs.visits, hs.between, ?_⟩
    intro g hg
    rcases List.mem_append.mp hg with h | h
    · exact hs.gens g h
    · rw [List.mem_singleton.mp h, hs.visits]
  | next k =>
    simp only [Desk.act]
    cases hk : d.gens[k]? with
    | none => exact ⟨_, _, rfl, hs⟩
    | some g =>
      simp only
      by_cases hlive : g.live = false
      · rw [if_pos hlive]; exact ⟨_, _, rfl, hs⟩
      · rw [if_neg hlive, if_neg (by rw [hs.gens g (List.mem_of_getElem? hk), hs.visits, hs.between]; simp)]
        cases d.rest.dropWhile (fun x => !chosen g.ids x.2.1) with
        | cons x xs => exact ⟨_, _, rfl, hs.visits, hs.between, hs.gens⟩
        | nil => exact ⟨_, _, rfl, hs.visits, rfl, hset hk⟩
  | close k =>
    simp only [Desk.act]
    cases hk : d.gens[k]? with
    | none => exact ⟨_, _, rfl, hs⟩
    | some g => exact ⟨_, _, rfl, hs.visits, hs.between, hset hk⟩
  | load k =>
    simp only [Desk.act]
    cases hk : d.got[k]? with
    | none => exact ⟨_, _, rfl, hs⟩
    | some g => exact ⟨_, _, rfl, hs⟩
  | headers =>
    simp only [Desk.act]
    cases hk : d.hdr with
    | none => exact ⟨_, _, rfl, hs⟩
    | some g => exact ⟨_, _, rfl, hs⟩

theorem single_expected (ops : List Op) (hops : Op.enter ∉ ops) : ∀ {d : Desk}, Single d → ∃ outs, d.expected true ops = some outs := by
  induction ops with
  | nil => intro d _; exact ⟨[], rfl⟩
  | cons op ops ih =>
    intro d hs
    obtain ⟨d', out, h1, h2⟩ := single_act hs (op := op) (fun h => hops (by simp [h]))
    obtain ⟨outs, h3⟩ := ih (fun h => hops (by simp [h])) h2
    exact ⟨out :: outs, by simp only [Desk.expected, h1, h3, Option.map_some]⟩

/-- A grain on the desk as it is delivered. -/
def shown (x : Hdr × Nat × Grain) : Meta × Nat := (x.2.2.toMeta x.1.major, x.2.1)

theorem act_rest {c d op d' out} (hop : op ≠ .enter) (h : Desk.act c d op = some (d', out)) :
    (delivered [out] ++ d'.rest.map shown).Sublist (d.rest.map shown) := by
  have same : d' = d → delivered [out] = [] → (delivered [out] ++ d'.rest.map shown).Sublist (d.rest.map shown) := by
    intro h1 h2; rw [h1, h2]; exact List.Sublist.refl _
  cases op with
  | enter => exact absurd rfl hop
  | next k =>
    simp only [Desk.act] at h
    cases hk : d.gens[k]? with
    | none => rw [hk] at h; simp only [Option.some.injEq, Prod.mk.injEq] at h; obtain ⟨rfl, rfl⟩ := h; exact same rfl rfl
    | some g =>
      rw [hk] at h
      simp only at h
      by_cases hlive : g.live = false
      · rw [if_pos hlive] at h; simp only [Option.some.injEq, Prod.mk.injEq] at h; obtain ⟨rfl, rfl⟩ := h; exact same rfl rfl
      · rw [if_neg hlive] at h
        by_cases hcnd : g.visit + 1 ≠ d.visits ∨ d.between = true
        · rw [if_pos hcnd] at h; simp at h
        · rw [if_neg hcnd] at h
          have hsub := List.dropWhile_sublist (l := d.rest) (fun x => !chosen g.ids x.2.1)
          cases hdw : d.rest.dropWhile (fun x => !chosen g.ids x.2.1) with
          | cons x xs =>
            rw [hdw] at h hsub
            simp only [Option.some.injEq, Prod.mk.injEq] at h
            obtain ⟨rfl, rfl⟩ := h
            exact hsub.map shown
          | nil =>
            rw [hdw] at h
            simp only [Option.some.injEq, Prod.mk.injEq] at h
            obtain ⟨rfl, rfl⟩ := h
            exact List.nil_sublist _
  | grains ids mode =>
    simp only [Desk.act] at h
    split at h <;> (simp only [Option.some.injEq, Prod.mk.injEq] at h; obtain ⟨rfl, rfl⟩ := h; exact List.Sublist.refl _)
  | close k =>
    simp only [Desk.act] at h
    split at h <;> (simp only [Option.some.injEq, Prod.mk.injEq] at h; obtain ⟨rfl, rfl⟩ := h; exact List.Sublist.refl _)
  | load k =>
    simp only [Desk.act] at h
    split at h <;> (simp only [Option.some.injEq, Prod.mk.injEq] at h; obtain ⟨rfl, rfl⟩ := h; exact List.Sublist.refl _)
  | headers =>
    simp only [Desk.act] at h
    split at h <;> (simp only [Option.some.injEq, Prod.mk.injEq] at h; obtain ⟨rfl, rfl⟩ := h; exact List.Sublist.refl _)

theorem delivered_cons (o : Out) (os : List Out) : delivered (o :: os) = delivered [o] ++ delivered os := by
  unfold delivered
  rw [← List.filterMap_append]; rfl

theorem expected_sublist {c} (ops : List Op) (hops : Op.enter ∉ ops) : ∀ {d : Desk} {outs}, d.expected c ops = some outs →
    (delivered outs).Sublist (d.rest.map shown) := by
  induction ops with
  | nil => intro d outs h; simp only [Desk.expected, Option.some.injEq] at h; rw [← h]; exact List.nil_sublist _
  | cons op ops ih =>
    intro d outs h
    simp only [Desk.expected] at h
    cases ha : d.act c op with
    | none => rw [ha] at h; simp at h
    | some r =>
      obtain ⟨d', out⟩ := r
      rw [ha] at h
      simp only [Option.map_eq_some_iff] at h
      obtain ⟨os, h1, rfl⟩ := h
      rw [delivered_cons]
      exact ((ih (fun h => hops (by simp [h])) h1).append_left _).trans (act_rest (fun h => hops (by simp [h])) ha)

/-- Every generator takes all grains. -/
def Desk.Unfiltered (d : Desk) : Prop := ∀ g ∈ d.gens, g.ids = none

/-- The operation makes no generator with a filter. -/
def Op.unfiltered : Op → Prop
  | .grains ids _ => ids = none
  | _ => True

instance (op : Op) : Decidable op.unfiltered := by cases op <;> unfold Op.unfiltered <;> infer_instance

/-- The operation closes no generator. -/
def Op.keeps : Op → Prop
  | .close _ => False
  | _ => True

instance (op : Op) : Decidable op.keeps := by cases op <;> unfold Op.keeps <;> infer_instance

theorem dropWhile_all {ids : Option (List Nat)} (h : ids = none) (l : List (Hdr × Nat × Grain)) :
    l.dropWhile (fun x => !chosen ids x.2.1) = l := by
  subst h
  cases l <;> simp [chosen]

theorem act_whole {d op d' out} (hop : op ≠ .enter) (hu : d.Unfiltered) (hou : op.unfiltered)
    (h : Desk.act true d op = some (d', out)) : d'.Unfiltered ∧ d.rest.map shown = delivered [out] ++ d'.rest.map shown := by
  cases op with
  | enter => exact absurd rfl hop
  | next k =>
    simp only [Desk.act] at h
    cases hk : d.gens[k]? with
    | none => rw [hk] at h; simp only [Option.some.injEq, Prod.mk.injEq] at h; obtain ⟨rfl, rfl⟩ := h; exact ⟨hu, rfl⟩
    | some g =>
      rw [hk] at h
      simp only at h
      have hmem := List.mem_of_getElem? hk
      by_cases hlive : g.live = false
      · rw [if_pos hlive] at h; simp only [Option.some.injEq, Prod.mk.injEq] at h; obtain ⟨rfl, rfl⟩ := h; exact ⟨hu, rfl⟩
      · rw [if_neg hlive] at h
        by_cases hcnd : g.visit + 1 ≠ d.visits ∨ d.between = true
        · rw [if_pos hcnd] at h; simp at h
        · rw [if_neg hcnd, dropWhile_all (hu g hmem)] at h
          cases hdw : d.rest with
          | cons x xs =>
            rw [hdw] at h
            simp only [Option.some.injEq, Prod.mk.injEq] at h
            obtain ⟨rfl, rfl⟩ := h
            exact ⟨hu, rfl⟩
          | nil =>
            rw [hdw] at h
            simp only [Option.some.injEq, Prod.mk.injEq] at h
            obtain ⟨rfl, rfl⟩ := h
            refine ⟨?_, rfl⟩
            intro x hx
            rcases mem_set_live hk hx with h | ⟨rfl, h⟩
            · exact hu x h
            · exact hu g h
  | grains ids mode =>
    simp only [Desk.act] at h
    split at h
    · simp only [Option.some.injEq, Prod.mk.injEq] at h; obtain ⟨rfl, rfl⟩ := h; exact ⟨hu, rfl⟩
    · simp only [Option.some.injEq, Prod.mk.injEq] at h; obtain ⟨rfl, rfl⟩ := h
      refine ⟨?_, rfl⟩
      intro g hg
      rcases List.mem_append.mp hg with h | h
      · exact hu g h
      · rw [List.mem_singleton.mp h]; exact hou
  | close k =>
    simp only [Desk.act] at h
    cases hk : d.gens[k]? with
    | none => rw [hk] at h; simp only [Option.some.injEq, Prod.mk.injEq] at h; obtain ⟨rfl, rfl⟩ := h; exact ⟨hu, rfl⟩
    | some g =>
      rw [hk] at h
      simp only [Option.some.injEq, Prod.mk.injEq] at h
      obtain ⟨rfl, rfl⟩ := h
      refine ⟨?_, rfl⟩
      intro x hx
      rcases mem_set_live hk hx with h | ⟨rfl, h⟩
      · exact hu x h
      · exact hu g h
  | load k =>
    simp only [Desk.act] at h
    split at h <;> (simp only [Option.some.injEq, Prod.mk.injEq] at h; obtain ⟨rfl, rfl⟩ := h; exact ⟨hu, rfl⟩)
  | headers =>
    simp only [Desk.act] at h
    split at h <;> (simp only [Option.some.injEq, Prod.mk.injEq] at h; obtain ⟨rfl, rfl⟩ := h; exact ⟨hu, rfl⟩)

theorem expected_prefix (ops : List Op) (hops : Op.enter ∉ ops) (hou : ∀ op ∈ ops, op.unfiltered) :
    ∀ {d : Desk} {outs}, d.Unfiltered → d.expected true ops = some outs → delivered outs <+: d.rest.map shown := by
  induction ops with
  | nil => intro d outs _ h; simp only [Desk.expected, Option.some.injEq] at h; rw [← h]; exact List.nil_prefix
  | cons op ops ih =>
    intro d outs hu h
    simp only [Desk.expected] at h
    cases ha : d.act true op with
    | none => rw [ha] at h; simp at h
    | some r =>
      obtain ⟨d', out⟩ := r
      rw [ha] at h
      simp only [Option.map_eq_some_iff] at h
      obtain ⟨os, h1, rfl⟩ := h
      obtain ⟨e1, e2⟩ := act_whole (fun h => hops (by simp [h])) hu (hou op (by simp)) ha
      rw [delivered_cons, e2]
      exact (List.prefix_append_right_inj _).mpr
        (ih (fun h => hops (by simp [h])) (fun x hx => hou x (by simp [hx])) e1 h1)

/-- Generators only ended when nothing was left. -/
def Desk.Drained (d : Desk) : Prop := d.rest = [] ∨ ∀ g ∈ d.gens, g.live = true

theorem act_drained {d op d' out} (hop : op ≠ .enter) (hu : d.Unfiltered) (hk : op.keeps) (hd : d.Drained)
    (h : Desk.act true d op = some (d', out)) : d'.Drained ∧ (out = .stop → d'.rest = []) := by
  cases op with
  | enter => exact absurd rfl hop
  | close k => exact absurd hk (by simp [Op.keeps])
  | next k =>
    simp only [Desk.act] at h
    cases hk : d.gens[k]? with
    | none => rw [hk] at h; simp only [Option.some.injEq, Prod.mk.injEq] at h; obtain ⟨rfl, rfl⟩ := h; exact ⟨hd, fun h => by simp at h⟩
    | some g =>
      rw [hk] at h
      simp only at h
      have hmem := List.mem_of_getElem? hk
      by_cases hlive : g.live = false
      · rw [if_pos hlive] at h
        simp only [Option.some.injEq, Prod.mk.injEq] at h
        obtain ⟨rfl, rfl⟩ := h
        refine ⟨hd, fun _ => ?_⟩
        rcases hd with hd | hd
        · exact hd
        · rw [hd g hmem] at hlive; simp at hlive
      · rw [if_neg hlive] at h
        by_cases hcnd : g.visit + 1 ≠ d.visits ∨ d.between = true
        · rw [if_pos hcnd] at h; simp at h
        · rw [if_neg hcnd, dropWhile_all (hu g hmem)] at h
          cases hdw : d.rest with
          | cons x xs =>
            rw [hdw] at h
            simp only [Option.some.injEq, Prod.mk.injEq] at h
            obtain ⟨rfl, rfl⟩ := h
            refine ⟨.inr ?_, fun h => by simp at h⟩
            rcases hd with hd | hd
            · rw [hd] at hdw; simp at hdw
            · exact hd
          | nil =>
            rw [hdw] at h
            simp only [Option.some.injEq, Prod.mk.injEq] at h
            obtain ⟨rfl, rfl⟩ := h
            exact ⟨.inl rfl, fun _ => rfl⟩
  | grains ids mode =>
    simp only [Desk.act] at h
    split at h
    · simp only [Option.some.injEq, Prod.mk.injEq] at h; obtain ⟨rfl, rfl⟩ := h; exact ⟨hd, fun h => by simp at h⟩
    · simp only [Option.some.injEq, Prod.mk.injEq] at h; obtain ⟨rfl, rfl⟩ := h
      refine ⟨?_, fun h => by simp at h⟩
      rcases hd with hd | hd
      · exact .inl hd
      · refine .inr ?_
        intro g hg
        rcases List.mem_append.mp hg with h | h
        · exact hd g h
        · rw [List.mem_singleton.mp h]
  | load k =>
    simp only [Desk.act] at h
    split at h <;> (simp only [Option.some.injEq, Prod.mk.injEq] at h; obtain ⟨rfl, rfl⟩ := h; exact ⟨hd, fun h => by simp at h⟩)
  | headers =>
    simp only [Desk.act] at h
    split at h <;> (simp only [Option.some.injEq, Prod.mk.injEq] at h; obtain ⟨rfl, rfl⟩ := h; exact ⟨hd, fun h => by simp at h⟩)

theorem expected_all (ops : List Op) (hops : Op.enter ∉ ops) (hou : ∀ op ∈ ops, op.unfiltered) (hks : ∀ op ∈ ops, op.keeps) :
    ∀ {d : Desk} {outs}, d.Unfiltered → d.Drained → d.expected true ops = some outs → .stop ∈ outs →
      delivered outs = d.rest.map shown := by
  induction ops with
  | nil => intro d outs _ _ h hs; simp only [Desk.expected, Option.some.injEq] at h; rw [← h] at hs; simp at hs
  | cons op ops ih =>
    intro d outs hu hd h hs
    simp only [Desk.expected] at h
    cases ha : d.act true op with
    | none => rw [ha] at h; simp at h
    | some r =>
      obtain ⟨d', out⟩ := r
      rw [ha] at h
      simp only [Option.map_eq_some_iff] at h
      obtain ⟨os, h1, rfl⟩ := h
      have hne : op ≠ .enter := fun h => hops (by simp [h])
      have hops' : Op.enter ∉ ops := fun h => hops (by simp [h])
      obtain ⟨e1, e2⟩ := act_whole hne hu (hou op (by simp)) ha
      obtain ⟨e3, e4⟩ := act_drained hne hu (hks op (by simp)) hd ha
      rw [delivered_cons, e2]
      congr 1
      rcases List.mem_cons.mp hs with hs | hs
      · have hr := e4 hs.symm
        have := expected_prefix ops hops' (fun x hx => hou x (by simp [hx])) e1 h1
        rw [hr] at this ⊢
        simpa using this
      · exact ih hops' (fun x hx => hou x (by simp [hx])) (fun x hx => hks x (by simp [hx])) e1 e3 h1 hs

theorem shown_files (fs : List FileSpec) : (fs.flatMap labelled).map shown = contents fs := by
  unfold contents labelled
  rw [List.map_flatMap]
  congr 1
  funext f
  rw [List.map_map]
  rfl

/-! ### One file after the other -/

/-- Read file after file: enter, make a generator, take all grains and see it end. -/
def rounds (mode : Mode) : Nat → List FileSpec → List Op
  | _, [] => []
  | k, f :: fs => .enter :: .grains none mode :: (List.replicate (f.grains.length + 1) (.next k) ++ rounds mode (k + 1) fs)

/-- What is to be seen. -/
def seen : Nat → List FileSpec → List Out
  | _, [] => []
  | k, f :: fs => .entered f.hdr :: .made k :: (f.grains.map (fun x => .grain (x.2.toMeta f.major) x.1) ++ .stop :: seen (k + 1) fs)

/-- Taking what is left of a file. -/
theorem expected_nexts (k : Nat) (ops : List Op) : ∀ (gs : List (Hdr × Nat × Grain)) (d : Desk) (g : Gen), d.rest = gs → d.gens[k]? = some g →
    g.live = true → g.ids = none → g.visit + 1 = d.visits → d.between = false →
    ∃ d' : Desk, d'.later = d.later ∧ d'.between = true ∧ d'.gens.length = d.gens.length ∧
      d.expected false (List.replicate (gs.length + 1) (.next k) ++ ops) =
        (d'.expected false ops).map (fun os => gs.map (fun x => .grain (x.2.2.toMeta x.1.major) x.2.1) ++ .stop :: os) := by
  intro gs
  induction gs with
  | nil =>
    intro d g hr hk hl hi hv hb
    refine ⟨{ d with rest := [], hdr := d.last, between := true, gens := d.gens.set k { g with live := false } }, rfl, rfl, by simp, ?_⟩
    simp only [List.length_nil, Nat.zero_add, List.replicate_one, List.singleton_append, Desk.expected, Desk.act, hk, hr]
    rw [if_neg (by simp [hl]), if_neg (by simp [hv, hb])]
    rfl
  | cons x gs ih =>
    intro d g hr hk hl hi hv hb
    obtain ⟨d', h1, h2, h3, h4⟩ := ih { d with rest := gs, hdr := some x.1, got := d.got ++ [dataFor g.mode x.2.2] } g rfl hk hl hi hv hb
    refine ⟨d', h1, h2, h3, ?_⟩
    rw [List.length_cons, List.replicate_succ, List.cons_append]
    simp only [Desk.expected, Desk.act, hk, hr]
    rw [if_neg (by simp [hl]), if_neg (by simp [hv, hb]), dropWhile_all hi]
    simp only
    rw [h4, Option.map_map]
    rfl

theorem expected_rounds (mode : Mode) (fs : List FileSpec) : ∀ (d : Desk), d.later = fs → d.between = true →
    d.expected false (rounds mode d.gens.length fs) = some (seen d.gens.length fs) := by
  induction fs with
  | nil => intro d _ _; rfl
  | cons f fs ih =>
    intro d hl hb
    simp only [rounds, seen, Desk.expected, Desk.act, hb, hl, if_true]
    rw [if_neg (by simp [Desk.open])]
    simp only
    have hlen : (labelled f).length = f.grains.length := by simp [labelled]
    obtain ⟨d', h1, h2, h3, h4⟩ := expected_nexts d.gens.length (rounds mode (d.gens.length + 1) fs) (labelled f)
      { d.open false f fs with gens := d.gens ++ [⟨none, mode, d.visits, true⟩] } ⟨none, mode, d.visits, true⟩ rfl
      (by simp) rfl rfl rfl rfl
    rw [hlen] at h4
    have e : ({ d.open false f fs with gens := (d.open false f fs).gens ++ [⟨none, mode, (d.open false f fs).visits - 1, true⟩] } : Desk)
      = { d.open false f fs with gens := d.gens ++ [⟨none, mode, d.visits, true⟩] } := by simp [Desk.open]
    rw [e, h4]
    have h5 := ih d' (by rw [h1]; rfl) h2
    have h6 : d'.gens.length = d.gens.length + 1 := by rw [h3]; simp
    rw [h6] at h5
    rw [h5]
    simp [labelled, Desk.open, FileSpec.hdr]

end Verif.Session

namespace Verif.Props

open Verif Verif.Gsf Verif.Session

/-- Every program sees what the desk says, for all files the encoder writes and all interleavings of entering, generators, `next`,
`close`, taking data and looking at the headers.  Missing for the full property: generators with filters take each other's grains
away (`C73_filters_counterexample`), and the cases in which the desk promises nothing. -/
theorem C73_programs_partial {fs : List FileSpec} (hf : ∀ f ∈ fs, f.Ok) (concat seekable : Bool) (ops : List Op) {outs : List Out}
    (h : (Desk.start fs).expected concat ops = some outs) :
    outputs concat seekable (fs.flatMap FileSpec.bytes) Dec.start ops = outs :=
  outputs_eq ops (rel_start concat hf) h

/-- With support for concatenation (the default), and the decoder entered once, the desk promises something for every program. -/
theorem C73_promised (f : FileSpec) (fs : List FileSpec) (ops : List Op) (hops : Op.enter ∉ ops) :
    ∃ outs, (Desk.start (f :: fs)).expected true (.enter :: ops) = some outs := by
  obtain ⟨outs, h⟩ := single_expected ops hops (single_open (Desk.start (f :: fs)) f fs rfl rfl)
  refine ⟨.entered f.hdr :: outs, ?_⟩
  simp only [Desk.expected, Desk.act, Desk.start, if_true]
  simp only [Desk.start] at h
  rw [h]
  rfl

/-- No grain is delivered twice or out of order, whichever generators are used with whichever filters. -/
theorem C73_once {f : FileSpec} {fs : List FileSpec} (hf : ∀ x ∈ f :: fs, x.Ok) (seekable : Bool) (ops : List Op)
    (hops : Op.enter ∉ ops) :
    (delivered (outputs true seekable ((f :: fs).flatMap FileSpec.bytes) Dec.start (.enter :: ops))).Sublist (contents (f :: fs)) := by
  obtain ⟨outs, h⟩ := single_expected ops hops (single_open (Desk.start (f :: fs)) f fs rfl rfl)
  have h2 : (Desk.start (f :: fs)).expected true (.enter :: ops) = some (.entered f.hdr :: outs) := by
    simp only [Desk.expected, Desk.act, Desk.start, if_true]
    simp only [Desk.start] at h
    rw [h]
    rfl
  rw [C73_programs_partial hf true seekable _ h2, ← shown_files]
  exact expected_sublist ops hops h

/-- Generators without filter share the grains out: what they delivered together, in the order of delivery, is the beginning of the
files' grains; and all of them once a generator that nobody closed has ended. -/
theorem C73_shared {f : FileSpec} {fs : List FileSpec} (hf : ∀ x ∈ f :: fs, x.Ok) (seekable : Bool) (ops : List Op)
    (hops : Op.enter ∉ ops) (hu : ∀ op ∈ ops, op.unfiltered) :
    delivered (outputs true seekable ((f :: fs).flatMap FileSpec.bytes) Dec.start (.enter :: ops)) <+: contents (f :: fs) ∧
    ((∀ op ∈ ops, op.keeps) →
      .stop ∈ outputs true seekable ((f :: fs).flatMap FileSpec.bytes) Dec.start (.enter :: ops) →
      delivered (outputs true seekable ((f :: fs).flatMap FileSpec.bytes) Dec.start (.enter :: ops)) = contents (f :: fs)) := by
  obtain ⟨outs, h⟩ := single_expected ops hops (single_open (Desk.start (f :: fs)) f fs rfl rfl)
  have h2 : (Desk.start (f :: fs)).expected true (.enter :: ops) = some (.entered f.hdr :: outs) := by
    simp only [Desk.expected, Desk.act, Desk.start, if_true]
    simp only [Desk.start] at h
    rw [h]
    rfl
  have hu0 : ((Desk.start (f :: fs)).open true f fs).Unfiltered := fun g hg => by simp [Desk.open, Desk.start] at hg
  have hd0 : ((Desk.start (f :: fs)).open true f fs).Drained := .inr (fun g hg => by simp [Desk.open, Desk.start] at hg)
  have hdel : delivered (.entered f.hdr :: outs) = delivered outs := rfl
  rw [C73_programs_partial hf true seekable _ h2, ← shown_files, hdel]
  refine ⟨expected_prefix ops hops hu hu0 h, fun hk hs => ?_⟩
  exact expected_all ops hops hu hk hu0 hd0 h (by simpa using hs)

/-- Without support for concatenation, files that were written one after the other can be read one by one by entering the decoder
again after each: each time the headers and the grains of the next file come. -/
theorem C73_one_by_one {fs : List FileSpec} (hf : ∀ f ∈ fs, f.Ok) (seekable : Bool) (mode : Mode) :
    outputs false seekable (fs.flatMap FileSpec.bytes) Dec.start (rounds mode 0 fs) = seen 0 fs :=
  C73_programs_partial hf false seekable _ (expected_rounds mode fs (Desk.start fs) rfl rfl)

/-- A small file with a grain of each of two segments. -/
def C73_file : FileSpec := ⟨8, 0, ⟨u 9, ⟨2024, 2, 29, 23, 59, 59⟩, [], []⟩, [(1, gEvent), (2, gCodedNone)]⟩

/-- Another one, of another version. -/
def C73_more : FileSpec := ⟨7, 0, ⟨u 8, ⟨2024, 3, 1, 0, 0, 0⟩, [], []⟩, [(1, gAudio)]⟩

theorem C73_files_ok : ∀ f ∈ [C73_file, C73_more], f.Ok := by decide +kernel

/-- Non-vacuity: two generators take turns over the end of a file, the data of a grain of the first file is taken while the second file
is read, and the headers on show change with the file. -/
example : outputs true true ([C73_file, C73_more].flatMap FileSpec.bytes) Dec.start
    [.enter, .headers, .grains none .alwaysDeferLoadIfPossible, .grains none .loadImmediately, .next 0, .next 1, .headers, .next 0,
      .load 0, .load 2, .headers, .next 1, .next 0] =
    [.entered C73_file.hdr, .headers C73_file.hdr, .made 0, .made 1, .grain (gEvent.toMeta 8) 1, .grain (gCodedNone.toMeta 8) 2,
      .headers C73_file.hdr, .grain (gAudio.toMeta 7) 1, .data (some [123, 125]), .data (some [255, 0]), .headers C73_more.hdr, .stop,
      .stop] :=
  C73_programs_partial C73_files_ok true true _ rfl

/-- Non-vacuity of `C73_shared`: the program above has no filters and closes nothing. -/
example : .stop ∈ outputs true true ([C73_file, C73_more].flatMap FileSpec.bytes) Dec.start
    [.enter, .grains none .loadNever, .grains none .loadImmediately, .next 0, .next 1, .next 0, .next 1] := by
  rw [C73_programs_partial C73_files_ok true true _ rfl]
  decide +kernel

/-- Non-vacuity of `C73_one_by_one`. -/
example : seen 0 [C73_file, C73_more] = [.entered C73_file.hdr, .made 0, .grain (gEvent.toMeta 8) 1, .grain (gCodedNone.toMeta 8) 2, .stop,
    .entered C73_more.hdr, .made 1, .grain (gAudio.toMeta 7) 1, .stop] := rfl

/-- Two generators with filters on one session do not get their grains: the one that looks for segment 2 passes over the grain of segment
1, which the other one then does not find; a session of its own would find it. -/
theorem C73_filters_counterexample :
    outputs true true ([C73_file].flatMap FileSpec.bytes) Dec.start
      [.enter, .grains (some [1]) .loadImmediately, .grains (some [2]) .loadImmediately, .next 1, .next 0] =
      [.entered C73_file.hdr, .made 0, .made 1, .grain (gCodedNone.toMeta 8) 2, .stop] ∧
    outputs true true ([C73_file].flatMap FileSpec.bytes) Dec.start
      [.enter, .grains (some [1]) .loadImmediately, .next 0] =
      [.entered C73_file.hdr, .made 0, .grain (gEvent.toMeta 8) 1] :=
  ⟨C73_programs_partial (fs := [C73_file]) (by decide +kernel) true true _ rfl,
   C73_programs_partial (fs := [C73_file]) (by decide +kernel) true true _ rfl⟩

/-- Without support for concatenation, asking for grains once more after the end of the file looks harmless (nothing comes), but it reads
the first bytes of the next file, which then cannot be entered. -/
theorem C73_again_counterexample :
    outputs false true ([C73_more, C73_file].flatMap FileSpec.bytes) Dec.start
      [.enter, .grains none .loadNever, .next 0, .next 0, .grains none .loadNever, .next 1, .enter] =
      [.entered C73_more.hdr, .made 0, .grain (gAudio.toMeta 7) 1, .stop, .made 1, .stop, .raised .badFileType] := by
  decide +kernel

/-- Nor can the file after one without terminator (its writer died) be entered. -/
theorem C73_cut_counterexample :
    outputs false true ((C73_more.bytes.take (C73_more.bytes.length - 8)) ++ C73_file.bytes) Dec.start
      [.enter, .grains none .loadNever, .next 0, .next 0, .enter] =
      [.entered C73_more.hdr, .made 0, .grain (gAudio.toMeta 7) 1, .stop, .raised .badFileType] := by
  decide +kernel

/-- The deprecated methods of the decoder are these programs: without headers there are no grains, and the two flags choose the mode. -/
theorem C73_deprecated (concat seekable : Bool) (file : Bytes) (ids : Option (List Nat)) (mode : Mode) :
    (step concat seekable file Dec.start (.grains ids mode)).2 = .missing ∧
    ∀ skip lazy g, dataFor (oldMode skip lazy) g = if skip = true ∧ lazy = false then none else g.payload := by
  refine ⟨rfl, fun skip lazy g => ?_⟩
  cases skip <;> cases lazy <;> simp [oldMode, dataFor]

end Verif.Props
