import Verif.Gsf.DocWrite
import Verif.Props.Sample

/-!
# C85: files are what the format documents say

`Gsf/Document.lean` states the layout of files as the documents `gsf_docs/ssb.md` and `gsf_docs/gsf.md`
state it, without reference to the code: `IsFile tidy c bs` says that `bs` is a file of version 9 with the
contents `c`.  A file is tidy if it pads its strings with zeros only and has nothing before the header of a
grain in its block; the documents do not ask for either.

What is proved: every tidy file with a creation date is read as its contents, whatever blocks and properties
it has that the reader does not know; a file has only one contents; what the encoder writes is a tidy file
with the contents it was given exactly if no string has a NUL character.  The files that are not tidy, and
those with a null creation date, are not read as the documents say.
-/

namespace Verif.Props

open Verif.Gsf Verif.Gsf.Doc

namespace C85

/-- The head as the reader returns it. -/
def headOf (h : DocHead) (d : DateTime) : Head := ⟨h.id, d, h.segments, h.tags⟩

theorem read_file {c : Contents} {bs : Bytes} (h : IsFile true c bs) {d} (hd : c.head.created = some d) (o : Opts) :
    ∃ r, decodeFile o bs = .ok r ∧ r.hdr = ⟨9, c.minor, headOf c.head d⟩ ∧
      r.view bs = (c.grains.filter (fun g => !o.drops g.localId)).map (seen o) ∧
      (r.ending = .eof ∨ o.concat = false ∧ r.ending = .break_) := by
  obtain ⟨a1, _, e1, h1, a2, _, rfl, h2, a3, _, rfl, h3, a4, _, rfl, h4, a5, tl, rfl,
    ⟨l, ⟨pre, hx, rest, rfl, hpre, hhead, hrest, hgr⟩, hl⟩, hend⟩ := h
  obtain ⟨rfl, hok⟩ := seqBlocks hl
  have hv : (Tag tSSBB ⨾ Tag tGrsg ⨾ Unsigned 2 9 ⨾ Unsigned 2 c.minor) (a1 ++ (a2 ++ (a3 ++ a4))) :=
    ⟨_, _, rfl, h1, _, _, rfl, h2, _, _, rfl, h3, h4⟩
  generalize hve : a1 ++ (a2 ++ (a3 ++ a4)) = v at hv
  have hbs : bs = (v ++ (blksBytes (pre.map blk) ++ (blk (tHead, hx)).bytes)) ++
      (blksBytes (rest.map blk) ++ tl) := by
    rw [e1, ← hve]
    simp only [List.map_append, List.map_cons, blksBytes_append, blksBytes_cons, List.append_assoc]
  have hat : At ⟨0, bs⟩ 0 ((v ++ (blksBytes (pre.map blk) ++ (blk (tHead, hx)).bytes)) ++
      (blksBytes (rest.map blk) ++ tl)) := by rw [← hbs]; exact at_self _ _
  have hop := (opening hhead (hok (tHead, hx) (by simp)).1
    (others_of (t := tHead) (by simp) hpre (fun x hx => hok x (by simp [hx]))) hv hat.left).1 d hd rfl
  generalize hlen : 0 + (v ++ (blksBytes (pre.map blk) ++ (blk (tHead, hx)).bytes)).length = p at hop hat
  have hat2 : At ⟨0, bs⟩ p (blksBytes (rest.map blk) ++ tl) := hlen ▸ hat.right
  obtain ⟨items, t1, v1⟩ := grainTurns o ⟨9, c.minor, headOf c.head d⟩ rfl rest c.grains hgr
    (fun x hx => hok x (by simp [hx])) p
  have r1 := t1.run (s := ⟨0, bs⟩) (Nat.zero_le _) hat2.left
  have key : ∃ e, (e = .eof ∨ o.concat = false ∧ e = .break_) ∧
      run o ⟨0, bs⟩ ⟨9, c.minor, headOf c.head d⟩ false (p + (blksBytes (rest.map blk)).length) =
        ⟨[], ⟨9, c.minor, headOf c.head d⟩, e⟩ := by
    have hfin : (⟨0, bs⟩ : Stream).fin = p + (blksBytes (rest.map blk)).length + tl.length := by
      unfold Stream.fin
      simp only [hbs, ← hlen, List.length_append]
      omega
    rcases hend with rfl | ⟨b1, _, rfl, g1, b2, b3, rfl, g2, post, hpo, hps⟩
    · refine ⟨.eof, .inl rfl, run_end o _ (Nat.zero_le _) ?_⟩
      rw [hfin]
      simp
    · obtain ⟨rfl, hok2⟩ := seqBlocks hps
      have et : b1 ++ (b2 ++ blksBytes (post.map blk)) = terminator ++ blksBytes (post.map blk) := by
        rw [tag_bytes g1, unsigned_bytes g2, ← List.append_assoc]; rfl
      rw [et] at hat2 hfin
      cases hc : o.concat
      · refine ⟨.break_, .inr ⟨rfl, rfl⟩, ?_⟩
        rw [run_eq _ _ _ _ _ (Nat.zero_le _), terminator_step o _ _ _ hat2.right.left, hc]
        rfl
      · refine ⟨.eof, .inl rfl, ?_⟩
        have ht : TurnAt o ⟨9, c.minor, headOf c.head d⟩ false (p + (blksBytes (rest.map blk)).length) terminator
            (.next ⟨9, c.minor, headOf c.head d⟩ false) := by
          intro s hat
          rw [terminator_step o _ _ s hat, hc, if_pos rfl]
          rfl
        have t2 := Turns.next ht (turns_others o _ (others_of (t := tGrai) (by simp) hpo hok2) _)
        rw [t2.run (s := ⟨0, bs⟩) (Nat.zero_le _) hat2.right, run_end o _ (Nat.zero_le _) (by rw [hfin]; omega)]
        rfl
  obtain ⟨e, he, hrun⟩ := key
  rw [hrun] at r1
  refine ⟨grains o bs ⟨9, c.minor, headOf c.head d⟩ p, ?_, ?_, ?_, ?_⟩
  · unfold decodeFile
    rw [hop]
    rfl
  · rw [grains_eq_run, r1]; rfl
  · rw [grains_eq_run, r1]
    simp only [Run.view, Run.prepend, List.append_nil]
    exact v1 bs hat2.left
  · rw [grains_eq_run, r1]; exact he

theorem null_date {tidy : Bool} {c : Contents} {bs : Bytes} (h : IsFile tidy c bs) (hd : c.head.created = none)
    (o : Opts) : decodeFile o bs = .error .value := by
  obtain ⟨a1, _, e1, h1, a2, _, rfl, h2, a3, _, rfl, h3, a4, _, rfl, h4, a5, tl, rfl,
    ⟨l, ⟨pre, hx, rest, rfl, hpre, hhead, hrest, hgr⟩, hl⟩, hend⟩ := h
  obtain ⟨rfl, hok⟩ := seqBlocks hl
  have hv : (Tag tSSBB ⨾ Tag tGrsg ⨾ Unsigned 2 9 ⨾ Unsigned 2 c.minor) (a1 ++ (a2 ++ (a3 ++ a4))) :=
    ⟨_, _, rfl, h1, _, _, rfl, h2, _, _, rfl, h3, h4⟩
  generalize hve : a1 ++ (a2 ++ (a3 ++ a4)) = v at hv
  have hbs : bs = (v ++ (blksBytes (pre.map blk) ++ (blk (tHead, hx)).bytes)) ++
      (blksBytes (rest.map blk) ++ tl) := by
    rw [e1, ← hve]
    simp only [List.map_append, List.map_cons, blksBytes_append, blksBytes_cons, List.append_assoc]
  have hat : At ⟨0, bs⟩ 0 ((v ++ (blksBytes (pre.map blk) ++ (blk (tHead, hx)).bytes)) ++
      (blksBytes (rest.map blk) ++ tl)) := by rw [← hbs]; exact at_self _ _
  have hop := (opening hhead (hok (tHead, hx) (by simp)).1
    (others_of (t := tHead) (by simp) hpre (fun x hx => hok x (by simp [hx]))) hv hat.left).2 hd
  unfold decodeFile
  rw [hop]

/-- Reading everything into memory. -/
def all : Opts := { mode := .loadImmediately }

theorem seen_inj {g g' : DocGrain} (h : seen all g = seen all g') : g = g' := by
  obtain ⟨l, m, d⟩ := g
  obtain ⟨l', m', d'⟩ := g'
  have e : ∀ g : DocGrain, seen all g = (g.info, if g.data = [] then none else some g.data, g.localId) := by
    intro g
    unfold seen
    rw [if_neg (by simp [all])]
  rw [e, e] at h
  simp only [Prod.mk.injEq] at h
  obtain ⟨rfl, h2, rfl⟩ := h
  congr 1
  by_cases hd : d = []
  · rw [if_pos hd] at h2
    by_cases hd' : d' = []
    · rw [hd, hd']
    · rw [if_neg hd'] at h2; cases h2
  · rw [if_neg hd] at h2
    by_cases hd' : d' = []
    · rw [if_pos hd'] at h2; cases h2
    · rw [if_neg hd'] at h2
      exact Option.some.inj h2

theorem map_inj {α β : Type} (f : α → β) (hf : ∀ a b, f a = f b → a = b) : ∀ (l l' : List α),
    l.map f = l'.map f → l = l'
  | [], [], _ => rfl
  | [], _ :: _, h => by simp at h
  | _ :: _, [], h => by simp at h
  | a :: l, b :: l', h => by
    rw [List.map_cons, List.map_cons] at h
    obtain ⟨h1, h2⟩ := List.cons.inj h
    rw [hf a b h1, map_inj f hf l l' h2]

theorem unique {c c' : Contents} {bs : Bytes} (h : IsFile true c bs) (h' : IsFile true c' bs)
    {d} (hd : c.head.created = some d) : c = c' := by
  obtain ⟨r, e, e1, e2, -⟩ := read_file h hd all
  cases hd' : c'.head.created with
  | none => rw [null_date h' hd' all] at e; cases e
  | some d' =>
    obtain ⟨r', e', e1', e2', -⟩ := read_file h' hd' all
    rw [e] at e'
    obtain rfl := Except.ok.inj e'
    rw [e1] at e1'
    rw [e2] at e2'
    have hf : ∀ gs : List DocGrain, gs.filter (fun g => !all.drops g.localId) = gs := by
      intro gs
      apply List.filter_eq_self.2
      intro g _
      rfl
    rw [hf, hf] at e2'
    have hg := map_inj _ (fun a b => seen_inj) _ _ e2'
    obtain ⟨m, ⟨i, cr, s, t⟩, gs⟩ := c
    obtain ⟨m', ⟨i', cr', s', t'⟩, gs'⟩ := c'
    simp only [headOf, Hdr.mk.injEq, Head.mk.injEq] at e1' hd hd' hg
    obtain ⟨-, rfl, rfl, rfl, rfl, rfl⟩ := e1'
    subst hd hd' hg
    rfl

/-! ### Strings -/

theorem each_mem {t : List Char} {α : Type} {R : α → Fmt} : ∀ {l : List (List Char × Bytes)} {vs : List α},
    Each t R l vs → ∀ v ∈ vs, ∃ x, R v x
  | [], vs, h, v, hv => by obtain rfl : vs = [] := h; simp at hv
  | x :: l, vs, h, v, hv => by
    by_cases ht : x.1 = t
    · obtain ⟨v1, vs1, rfl, hR, h⟩ := each_hit h ht
      rcases List.mem_cons.1 hv with rfl | hv
      · exact ⟨_, hR⟩
      · exact each_mem h v hv
    · exact each_mem (each_miss h ht) v hv

theorem tag_plain {tidy t x} (h : IsTag tidy t x) : plainTag t := by
  obtain ⟨_, _, _, ⟨_, _, _, _, _, h1⟩, _, _, _, ⟨_, _, _, _, _, h2⟩, _⟩ := h
  exact ⟨h1.2.1, h2.2.1⟩

theorem segm_plain {tidy} {sg : SegmIn} {x} (h : IsSegm tidy sg.toSegm x) : plainSegm sg := by
  obtain ⟨_, _, _, _, _, _, _, _, _, _, _, _, l, ⟨h1, h2⟩, _⟩ := h
  constructor
  · intro f hf
    obtain ⟨x, _, _, _, _, _, _, _, _, _, _, _, h3, _⟩ := each_mem h1 f.toFlow (by
      have hf : sg.flow = some f := hf
      simp only [SegmIn.toSegm, hf, Option.map_some, Option.toList]; simp)
    exact h3.2.1
  · intro t ht
    obtain ⟨x, hx⟩ := each_mem h2 t ht
    exact tag_plain hx

theorem seq_mem {α : Type} {R : α → Fmt} : ∀ {l : List α} {bs}, Seq R l bs → ∀ a ∈ l, ∃ x, R a x
  | [], _, _, a, ha => by simp at ha
  | b :: l, _, h, a, ha => by
    obtain ⟨x, y, _, h1, h2⟩ := h
    rcases List.mem_cons.1 ha with rfl | ha
    · exact ⟨x, h1⟩
    · exact seq_mem h2 a ha

theorem grain_plain {tidy} {g : Grain} {x} (h : IsGbhd tidy (g.toMeta 9) x) : plainGrain g := by
  obtain ⟨_, _, _, _, _, _, _, _, _, _, _, _, _, _, _, _, _, _, _, _, _, _, _, _, l, ⟨h1, _⟩, _⟩ := h
  intro t ht
  have hl : g.timelabels.length > 0 := List.length_pos_of_mem ht
  have e : (g.toMeta 9).timelabels = some (g.timelabels.map TimeLabel.canon) := by
    unfold Grain.toMeta Meta.addTils
    rw [if_pos hl]
    cases g.body <;> rfl
  unfold AtMostOne at h1
  rw [e] at h1
  obtain ⟨x, _, _, _, ⟨_, _, _, _, hs⟩, _⟩ := each_mem h1 (g.timelabels.map TimeLabel.canon) (by simp)
  obtain ⟨y, _, _, _, _, _, _, hy, _⟩ := seq_mem hs t.canon (List.mem_map_of_mem ht)
  exact hy.2.1

theorem file_plain {tidy} {f : FileSpec} {bs} (h : IsFile tidy (ofFile f) bs) : plainFile f := by
  obtain ⟨a1, _, e1, h1, a2, _, rfl, h2, a3, _, rfl, h3, a4, _, rfl, h4, a5, tl, rfl,
    ⟨l, ⟨pre, hx, rest, rfl, hpre, hhead, hrest, hgr⟩, hl⟩, hend⟩ := h
  obtain ⟨_, _, _, _, _, _, _, _, l2, ⟨hs, ht⟩, _⟩ := hhead
  refine ⟨⟨fun sg hsg => ?_, fun t h => ?_⟩, fun x hx => ?_⟩
  · obtain ⟨y, hy⟩ := each_mem hs sg.toSegm (List.mem_map_of_mem hsg)
    exact segm_plain hy
  · obtain ⟨y, hy⟩ := each_mem ht t h
    exact tag_plain hy
  · obtain ⟨y, _, _, _, _, l3, ⟨_, gb, _, _, _, hgb, _⟩, _⟩ := each_mem hgr (ofGrain x) (List.mem_map_of_mem hx)
    exact grain_plain hgb

end C85

/-- **A file that follows the documents is read as what it says.**  Every reading of a tidy file of version 9
with a creation date, in every loading mode and with every choice of a stream, ends without an exception and
gives the version, the head, and the grains of the chosen streams in their order. -/
theorem C85_read_partial {c : Contents} {bs : Bytes} (h : IsFile true c bs) {d : DateTime}
    (hd : c.head.created = some d) (o : Opts) :
    ∃ r, decodeFile o bs = .ok r ∧
      r.hdr = ⟨9, c.minor, ⟨c.head.id, d, c.head.segments, c.head.tags⟩⟩ ∧
      r.view bs = (c.grains.filter (fun g => !o.drops g.localId)).map (seen o) ∧
      (r.ending = .eof ∨ o.concat = false ∧ r.ending = .break_) :=
  C85.read_file h hd o

/-- **The documents leave no doubt what a file says.** -/
theorem C85_unambiguous {c c' : Contents} {bs : Bytes} (h : IsFile true c bs) (h' : IsFile true c' bs)
    {d : DateTime} (hd : c.head.created = some d) : c = c' :=
  C85.unique h h' hd

/-- **What is written follows the documents.**  A file that is written in version 9 says, according to the
documents, what was given to the encoder, exactly if no string has a NUL character. -/
theorem C85_written {f : FileSpec} (h : f.Ok) (h9 : f.major = 9) :
    IsFile true (ofFile f) f.bytes ↔ plainFile f :=
  ⟨C85.file_plain, file_enc h h9⟩

/-- The documents allow a null creation date, and no file that has it can be read. -/
theorem C85_null_date {tidy : Bool} {c : Contents} {bs : Bytes} (h : IsFile tidy c bs)
    (hd : c.head.created = none) (o : Opts) : decodeFile o bs = .error .value :=
  C85.null_date h hd o

/-! ## Examples: files of other writers -/

namespace C85

def date1 : DateTime := ⟨2024, 2, 29, 23, 59, 59⟩

/-- Space reserved for later. -/
def fill : List Char × Bytes := (['f', 'i', 'l', 'l'], [0, 0, 0])

theorem blk_ok {t : List Char} {x : Bytes} (hk : Known t) (hs : t ≠ tSSBB) (hx : 8 + x.length < 2 ^ 32) :
    (blk (t, x)).Ok t :=
  mkBlk_ok (tag_const (tag_enc hk.1 hk.2)) hs hx

theorem fill_ok : (blk fill).Ok fill.1 ∧ Known fill.1 := ⟨blk_ok (by decide) (by decide) (by decide), by decide⟩

/-- A head with reserved space and one tag, of which only the block is given. -/
def headWith (date tag : Bytes) : Bytes := u 9 ++ (date ++ blksBytes ([fill, (tTag, tag)].map blk))

def dateBytes : Bytes := [232, 7, 2, 29, 23, 59, 59]

theorem date_ok : Date (some date1) dateBytes := by
  have := date_enc (d := date1) (by decide)
  exact this

theorem headWith_ok {tidy : Bool} {date tag : Bytes} {d : Option DateTime} {t} (hd : Date d date)
    (ht : IsTag tidy t tag) (hl : tag.length < 1000) : IsHead tidy ⟨u 9, d, [], [t]⟩ (headWith date tag) := by
  refine ⟨_, _, rfl, ⟨by decide, rfl⟩, _, _, rfl, hd, blocks_enc ⟨?_, ?_⟩ ?_⟩
  · apply each_none
    intro x hx
    rcases List.mem_cons.1 hx with rfl | hx
    · decide
    · rw [List.mem_singleton.1 hx]
      exact show tTag ≠ tSegm by decide
  · show Each tTag (IsTag tidy) ([fill] ++ [(tTag, tag)]) ([] ++ [t])
    exact each_append (one_other (u := fill.1)) (each_one ht)
  · intro x hx
    rcases List.mem_cons.1 hx with rfl | hx
    · exact fill_ok
    · rw [List.mem_singleton.1 hx]
      exact ⟨blk_ok known (by decide) (by omega), known (t := tTag)⟩

/-- A grain with one channel of audio in it, with reserved space before or after the grain header and a block
that is not known after the data. -/
def grainWith (before after : List (List Char × Bytes)) : List (List Char × Bytes) :=
  before ++ (tGbhd, (gbhdBlk 9 gAudio).body) :: (after ++ (tGrdt, [255, 0]) :: [(['x', 't', 'r', 'a'], [1, 2, 3])])

def grainBytes (before after : List (List Char × Bytes)) : Bytes :=
  encodeUint 1 2 ++ blksBytes ((grainWith before after).map blk)

theorem grainWith_ok {tidy : Bool} {before after} (hb : ∀ x ∈ before, x = fill) (ha : ∀ x ∈ after, x = fill)
    (hp : tidy = true → before = []) :
    IsGrain tidy (ofGrain (1, gAudio)) (grainBytes before after) := by
  have hg : gAudio.Ok 9 := by decide +kernel
  have hfill : ∀ x ∈ before ++ (after ++ [(['x', 't', 'r', 'a'], [1, 2, 3])]), x = fill ∨
      x = (['x', 't', 'r', 'a'], [1, 2, 3]) := by
    intro x hx
    rcases List.mem_append.1 hx with hx | hx
    · exact .inl (hb x hx)
    · rcases List.mem_append.1 hx with hx | hx
      · exact .inl (ha x hx)
      · exact .inr (List.mem_singleton.1 hx)
  have hgb : IsGbhd tidy (gAudio.toMeta 9) (gbhdBlk 9 gAudio).body := by
    have h := gbhd_enc hg (by decide)
    cases tidy
    · obtain ⟨a1, _, e1, h1, a2, _, rfl, h2, a3, _, rfl, h3, a4, _, rfl, h4, a5, _, rfl, h5, a6, a7, rfl, h6,
        l, ⟨h7, h8⟩, h9⟩ := h
      refine ⟨a1, _, e1, h1, a2, _, rfl, h2, a3, _, rfl, h3, a4, _, rfl, h4, a5, _, rfl, h5, a6, a7, rfl, h6,
        l, ⟨?_, h8⟩, h9⟩
      have : (gAudio.toMeta 9).timelabels = none := by decide +kernel
      unfold AtMostOne at h7 ⊢
      rw [this] at h7 ⊢
      have hno : ∀ (l : List (List Char × Bytes)), Each tTils (IsTils true) l [] → Each tTils (IsTils false) l [] := by
        intro l
        induction l with
        | nil => exact fun h => h
        | cons x l ih =>
          intro h
          by_cases hx : x.1 = tTils
          · obtain ⟨_, _, hn, _⟩ := each_hit h hx
            cases hn
          · rw [Each, if_neg hx]
            exact ih (each_miss h hx)
      exact hno l h7
    · exact h
  refine ⟨_, _, rfl, u2 (by decide), blocks_enc ⟨before, (gbhdBlk 9 gAudio).body, after,
    [(['x', 't', 'r', 'a'], [1, 2, 3])], rfl, hgb, ?_, hp⟩ ?_⟩
  · intro x hx
    rcases hfill x hx with rfl | rfl <;> decide
  · intro x hx
    have : x = fill ∨ x = (['x', 't', 'r', 'a'], [1, 2, 3]) ∨ x = (tGbhd, (gbhdBlk 9 gAudio).body) ∨
        x = (tGrdt, [255, 0]) := by
      simp only [grainWith, List.mem_append, List.mem_cons, List.not_mem_nil, or_false] at hx
      rcases hx with hx | hx | hx | hx | hx
      · exact .inl (hb x hx)
      · exact .inr (.inr (.inl hx))
      · exact .inl (ha x hx)
      · exact .inr (.inr (.inr hx))
      · exact .inr (.inl hx)
    rcases this with rfl | rfl | rfl | rfl
    · exact fill_ok
    · exact ⟨blk_ok (by decide) (by decide) (by decide), by decide⟩
    · exact ⟨(decoGbhd_self hg).ok, known (t := tGbhd)⟩
    · exact ⟨blk_ok (by decide) (by decide) (by decide), by decide⟩

/-- A file with reserved space before the head and before the grain, and without an end. -/
def fileWith (head grain : Bytes) : Bytes :=
  tagBytes tSSBB ++ (tagBytes tGrsg ++ (encodeUint 9 2 ++ (encodeUint 5 2 ++
    (blksBytes ([fill, (tHead, head), fill, (tGrai, grain)].map blk) ++ []))))

theorem fileWith_ok {tidy : Bool} {h : DocHead} {g : DocGrain} {head grain : Bytes} (hh : IsHead tidy h head)
    (hg : IsGrain tidy g grain) (h1 : head.length < 1000) (h2 : grain.length < 1000) :
    IsFile tidy ⟨5, h, [g]⟩ (fileWith head grain) := by
  refine ⟨_, _, rfl, tag_enc (by decide) (by decide), _, _, rfl, tag_enc (by decide) (by decide), _, _, rfl,
    unsigned_enc (by omega), _, _, rfl, u2 (v := 5) (by decide), _, _, rfl, blocks_enc ⟨[fill], head,
    [fill, (tGrai, grain)], rfl, ?_, hh, ?_, ?_⟩ ?_, .inl rfl⟩
  · intro x hx
    rw [List.mem_singleton.1 hx]
    decide
  · intro x hx
    rcases List.mem_cons.1 hx with rfl | hx
    · decide
    · rw [List.mem_singleton.1 hx]
      exact show tGrai ∉ [tHead] by decide
  · show Each tGrai (IsGrain tidy) ([fill] ++ [(tGrai, grain)]) ([] ++ [g])
    exact each_append (one_other (u := fill.1)) (each_one hg)
  · intro x hx
    simp only [List.mem_cons, List.not_mem_nil, or_false] at hx
    rcases hx with rfl | rfl | rfl | rfl
    · exact fill_ok
    · exact ⟨blk_ok known (by decide) (by omega), known (t := tHead)⟩
    · exact fill_ok
    · exact ⟨blk_ok known (by decide) (by omega), known (t := tGrai)⟩

/-- "k" with the value "v" and two more octets that are not known. -/
def goodTag : Bytes := [1, 0, 107, 2, 0, 118, 0, 7, 7]

theorem goodTag_ok : IsTag true (['k'], ['v']) goodTag :=
  ⟨[1, 0, 107], [2, 0, 118, 0, 7, 7], rfl, ⟨1, [1, 0], [107], rfl, ⟨rfl, rfl⟩, rfl, by decide, .inl rfl⟩,
    [2, 0, 118, 0], [7, 7], rfl, ⟨2, [2, 0], [118, 0], rfl, ⟨rfl, rfl⟩, rfl, by decide,
      .inr ⟨[], rfl, by simp⟩⟩, trivial⟩

/-- "k" with a value in which `x` comes after the end of the string. -/
def badTag (x : UInt8) : Bytes := [1, 0, 107, 3, 0, 118, 0, x]

theorem badTag_ok (x : UInt8) : IsTag false (['k'], ['v']) (badTag x) :=
  ⟨[1, 0, 107], [3, 0, 118, 0, x], rfl, ⟨1, [1, 0], [107], rfl, ⟨rfl, rfl⟩, rfl, by decide, .inl rfl⟩,
    [3, 0, 118, 0, x], [], rfl, ⟨3, [3, 0], [118, 0, x], rfl, ⟨rfl, rfl⟩, rfl, by decide,
      .inr ⟨[x], rfl, by simp⟩⟩, trivial⟩

def goodHead : DocHead := ⟨u 9, some date1, [], [(['k'], ['v'])]⟩

end C85

/-- A file of another writer, with blocks and properties that are not known in many places. -/
example : IsFile true ⟨5, C85.goodHead, [ofGrain (1, gAudio)]⟩
      (C85.fileWith (C85.headWith C85.dateBytes C85.goodTag) (C85.grainBytes [] [C85.fill])) ∧
    C85.goodHead.created = some C85.date1 :=
  ⟨C85.fileWith_ok (C85.headWith_ok C85.date_ok C85.goodTag_ok (by decide))
    (C85.grainWith_ok (by simp) (by simp) (by simp)) (by decide +kernel) (by decide +kernel), rfl⟩

/-- A written file with every type of grain. -/
example : sample.Ok ∧ sample.major = 9 ∧ plainFile sample := ⟨sample_ok, rfl, by decide +kernel⟩

/-- A written file with a NUL character in a tag. -/
example : ∃ f : FileSpec, f.Ok ∧ f.major = 9 ∧ ¬ plainFile f :=
  ⟨⟨9, 0, ⟨u 9, C85.date1, [], [(['a', '\x00', 'b'], [])]⟩, []⟩, by decide +kernel, rfl, by decide +kernel⟩

/-- A file with a null creation date. -/
example : IsFile true ⟨5, { C85.goodHead with created := none }, [ofGrain (1, gAudio)]⟩
    (C85.fileWith (C85.headWith [0, 0, 0, 0, 0, 0, 0] C85.goodTag) (C85.grainBytes [] [C85.fill])) :=
  C85.fileWith_ok (C85.headWith_ok rfl C85.goodTag_ok (by decide))
    (C85.grainWith_ok (by simp) (by simp) (by simp)) (by decide +kernel) (by decide +kernel)

/-! ## Files that are not read as the documents say -/

/-- The tags of the grammar and of the code are those of the documents. -/
theorem C85_tags :
    [tSSBB, tGrsg, tHead, tSegm, tFlow, tTag, tGrai, tGbhd, tTils, tVghd, tComp, tCghd, tUnof, tAghd, tCahd, tEghd, tGrdt].map
      String.ofList =
    ["SSBB", "grsg", "head", "segm", "flow", "tag ", "grai", "gbhd", "tils", "vghd", "comp", "cghd", "unof", "aghd", "cahd", "eghd",
      "grdt"] := by decide +kernel

/-- A NUL character ends a string of the documents, but not a string of the reader: what comes after it is
part of the value, or makes the file unreadable. -/
theorem C85_string_end_counterexample :
    (∃ bs, IsFile false ⟨5, C85.goodHead, [ofGrain (1, gAudio)]⟩ bs ∧
      (decodeFile {} bs).toOption.map (fun r => r.hdr.head.tags) = some [(['k'], ['v', '\x00', 'w'])]) ∧
    (∃ bs, IsFile false ⟨5, C85.goodHead, [ofGrain (1, gAudio)]⟩ bs ∧
      (decodeFile {} bs).toOption.isNone) :=
  ⟨⟨C85.fileWith (C85.headWith C85.dateBytes (C85.badTag 119)) (C85.grainBytes [] []),
    C85.fileWith_ok (C85.headWith_ok C85.date_ok (C85.badTag_ok _) (by decide))
      (C85.grainWith_ok (by simp) (by simp) (by simp)) (by decide +kernel) (by decide +kernel), by decide +kernel⟩,
   ⟨C85.fileWith (C85.headWith C85.dateBytes (C85.badTag 255)) (C85.grainBytes [] []),
    C85.fileWith_ok (C85.headWith_ok C85.date_ok (C85.badTag_ok _) (by decide))
      (C85.grainWith_ok (by simp) (by simp) (by simp)) (by decide +kernel) (by decide +kernel), by decide +kernel⟩⟩

/-- Reserved space is to be ignored wherever it is (`ssb.md:91,110`), but in a grain before its header it is an
error, and the grain is lost.  (`gsf.md:165` can be read as forbidding it there: it allows other blocks "in
between" the grain header and the data.) -/
theorem C85_fill_counterexample :
    ∃ bs, IsFile false ⟨5, C85.goodHead, [ofGrain (1, gAudio)]⟩ bs ∧
      (decodeFile {} bs).toOption.map (fun r => (r.items.length, r.ending)) = some (0, .err .decode) :=
  ⟨C85.fileWith (C85.headWith C85.dateBytes (C85.badTag 0)) (C85.grainBytes [C85.fill] []),
    C85.fileWith_ok (C85.headWith_ok C85.date_ok (C85.badTag_ok _) (by decide))
      (C85.grainWith_ok (by simp) (by simp) (by simp)) (by decide +kernel) (by decide +kernel), by decide +kernel⟩

end Verif.Props
