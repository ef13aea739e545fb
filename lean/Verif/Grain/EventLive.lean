import Verif.Grain.Event

/-!
# Event grains as objects that share parts

`Verif.Grain.Event` models the payload of an event grain as a value. Here the payload dictionary, the list of its items and the items are
objects: copies of a grain may share them, and the objects that `event_data` gives refer to the items. It covers making event grains
(`mediagrains/grains/EventGrain.py` 155-176), their properties (181-225, 309-324), the class `DATA` (227-307) and `copy` and `deepcopy`
(`mediagrains/grains/Grain.py` 368-372), which give the JSON text of the payload to the constructor of the copy.

Simplifications: the rest of the metadata is in `Verif.Grain.Heap`, and stays what it is here (no program replaces `meta['grain']` or the
payload dictionary). The values in items are values: no program changes a list or dictionary inside `pre` or `post` in place. The list
`meta['grain']['event_payload']['data']` is changed through the grain only.
-/

namespace Verif.EventLive

open Verif Verif.Json Verif.Event

/-- The dictionary `meta['grain']['event_payload']`; `items` is the number of its list. -/
structure Dict where
  type : J
  topic : J
  items : Nat

/-- All objects there are. Objects are numbered in the order in which they are made, each kind on its own. -/
structure World where
  dicts : List Dict
  /-- lists of items, by number -/
  lists : List (List Nat)
  items : List Datum
  /-- event grains: the payload dictionary of each -/
  grains : List Nat
  /-- objects of class `DATA`: the item of each -/
  views : List Nat

def empty : World := ⟨[], [], [], [], []⟩

/-- What the item with this number holds. -/
def World.item (w : World) (x : Nat) : Datum := (w.items[x]?).getD []

/-- What a payload dictionary with its list and items holds. -/
def World.payload (w : World) (d : Dict) : Payload := ⟨d.type, d.topic, ((w.lists[d.items]?).getD []).map w.item⟩

/-- The payload dictionary of a grain. -/
def World.dictOf (w : World) (g : Nat) : Option Dict := (w.grains[g]?).bind (fun a => w.dicts[a]?)

/-- What can be seen of the payload of a grain: `event_type`, `topic` and the items of `event_data`. -/
def World.show (w : World) (g : Nat) : Option Payload := (w.dictOf g).map w.payload

/-- What can be seen through an object of class `DATA`. -/
def World.viewed (w : World) (v : Nat) : Option Datum := (w.views[v]?).map w.item

/-- The payload dictionary number `a` gets these values, and a new list without items. -/
def World.relist (w : World) (a : Nat) (type topic : J) : World :=
  { w with lists := w.lists ++ [[]], dicts := w.dicts.set a ⟨type, topic, w.lists.length⟩ }

/-- A new payload dictionary with a new list without items. -/
def World.addDict (w : World) (type topic : J) : World :=
  { w with lists := w.lists ++ [[]], dicts := w.dicts ++ [⟨type, topic, w.lists.length⟩] }

/-- A new item is appended to a list. -/
def World.appendItem (w : World) (l : Nat) (d : Datum) : World :=
  { w with
    items := w.items ++ [d]
    lists := w.lists.modify l (fun xs => xs ++ [w.items.length]) }

/-- New items are appended to a list. -/
def World.addItems (w : World) (l : Nat) (ds : List Datum) : World := ds.foldl (fun w d => w.appendItem l d) w

/-- The loop of lines 198-205: an item is made and appended for each item of the payload that was read, until one is refused. -/
def fillItems (w : World) (l : Nat) : List J → World × Except EErr Unit
  | [] => (w, .ok ())
  | x :: xs =>
    match readDatum x with
    | .error e => (w, .error e)
    | .ok d => fillItems (w.appendItem l d) l xs

/-- Lines 193-197 for the payload that was read: the values of `type`, `topic` and `data`. -/
def header (v : J) : Except EErr (J × J × J) :=
  match contains (lit "type") v with
  | .error e => .error e
  | .ok false => .error .value
  | .ok true =>
    match contains (lit "topic") v with
    | .error e => .error e
    | .ok false => .error .value
    | .ok true =>
      match contains (lit "data") v with
      | .error e => .error e
      | .ok false => .error .value
      | .ok true =>
        match v with
        | .obj l =>
          match lookup l (lit "type"), lookup l (lit "topic"), lookup l (lit "data") with
          | some t, some o, some d => .ok (t, o, d)
          | _, _, _ => .error .key
        | _ => .error .type

/-- The setter of `data`, lines 187-205, for the payload dictionary number `a`. -/
def assign (w : World) (a : Nat) (arg : Arg) : World × Except EErr Unit :=
  match (match arg with | .str s => some s | .bytes b => decodeText b) with
  | none => (w, .error .value)
  | some s =>
    match loads s with
    | none => (w, .error .value)
    | some v =>
      match header v with
      | .error e => (w, .error e)
      | .ok (t, o, d) =>
        match iterate d with
        | .error e => (w.relist a t o, .error e)
        | .ok xs => fillItems (w.relist a t o) w.lists.length xs

/-- A new payload dictionary with a new list of new items. -/
def World.newDict (w : World) (p : Payload) : World := (w.addDict p.type p.topic).addItems w.lists.length p.data

/-- What a program can do. Grains and `DATA` objects are named by their numbers. -/
inductive Op where
  /-- `EventGrain(meta)`, with metadata made for it. -/
  | make (p : Payload)
  /-- `copy.copy(grain)` -/
  | copy (g : Nat)
  /-- `copy.deepcopy(grain)` -/
  | deepcopy (g : Nat)
  /-- `grain.event_type = v` -/
  | setType (g : Nat) (v : J)
  /-- `grain.topic = v` -/
  | setTopic (g : Nat) (v : J)
  /-- `grain.data = v` -/
  | setData (g : Nat) (v : Arg)
  /-- `grain.event_data = [...]` -/
  | setItems (g : Nat) (ds : List Datum)
  /-- `grain.append(path, pre, post)` -/
  | append (g : Nat) (path pre post : J)
  /-- `grain.event_data[i]` -/
  | view (g i : Nat)
  /-- `item[k] = v`, also `item.path = v` -/
  | setItem (v : Nat) (k : Str) (x : J)
  /-- `del item[k]` -/
  | delItem (v : Nat) (k : Str)
  /-- `item.pre = x` -/
  | setPre (v : Nat) (x : J)
  /-- `item.post = x` -/
  | setPost (v : Nat) (x : J)

/-- The item number `x` is changed by `f`. -/
def World.change (w : World) (x : Nat) (f : Datum → Except EErr Datum) : World × Except EErr Unit :=
  match f (w.item x) with
  | .error e => (w, .error e)
  | .ok d => ({ w with items := w.items.set x d }, .ok ())

/-- Something is done with a grain that is there. -/
def World.withGrain (w : World) (g : Nat) (f : Nat → Dict → World × Except EErr Unit) : World × Except EErr Unit :=
  match w.grains[g]? with
  | none => (w, .error .key)
  | some a =>
    match w.dicts[a]? with
    | none => (w, .error .key)
    | some d => f a d

/-- Something is done with a `DATA` object that is there. -/
def World.withView (w : World) (v : Nat) (f : Datum → Except EErr Datum) : World × Except EErr Unit :=
  match w.views[v]? with
  | none => (w, .error .key)
  | some x => w.change x f

/-- One step: the objects afterwards, and the exception if there is one. Numbers that name nothing: nothing happens. -/
def step (w : World) : Op → World × Except EErr Unit
  | .make p => ({ w.newDict p with grains := w.grains ++ [w.dicts.length] }, .ok ())
  | .copy g => w.withGrain g (fun a d =>
      -- `GrainFactory(copy(self.meta), self.data)`: the payload dictionary is the same object, and `EventGrain.__init__` assigns to `data`
      match assign w a (.bytes (getData (w.payload d))) with
      | (w1, .error e) => (w1, .error e)
      | (w1, .ok ()) => ({ w1 with grains := w1.grains ++ [a] }, .ok ()))
  | .deepcopy g => w.withGrain g (fun _ d =>
      match assign (w.newDict (w.payload d)) w.dicts.length (.bytes (getData (w.payload d))) with
      | (w1, .error e) => (w1, .error e)
      | (w1, .ok ()) => ({ w1 with grains := w1.grains ++ [w.dicts.length] }, .ok ()))
  | .setType g v => w.withGrain g (fun a d => ({ w with dicts := w.dicts.set a { d with type := v } }, .ok ()))
  | .setTopic g v => w.withGrain g (fun a d => ({ w with dicts := w.dicts.set a { d with topic := v } }, .ok ()))
  | .setData g v => w.withGrain g (fun a _ => assign w a v)
  | .setItems g ds => w.withGrain g (fun a d => ((w.relist a d.type d.topic).addItems w.lists.length ds, .ok ()))
  | .append g path pre post => w.withGrain g (fun _ d =>
      (w.appendItem d.items ((lit "path", path) ::
        ((match pre with | .null => [] | v => [(lit "pre", v)]) ++ (match post with | .null => [] | v => [(lit "post", v)]))), .ok ()))
  | .view g i => w.withGrain g (fun _ d =>
      match ((w.lists[d.items]?).getD [])[i]? with
      | none => (w, .error .value)
      | some x => ({ w with views := w.views ++ [x] }, .ok ()))
  | .setItem v k x => w.withView v (fun d => .ok (dictSet d k x))
  | .delItem v k => w.withView v (fun d => if (lookup d k).isSome then .ok (erase d k) else .error .key)
  | .setPre v x => w.withView v (fun d => Event.setPre d x)
  | .setPost v x => w.withView v (fun d => Event.setPost d x)

/-- A program: its steps one after the other; exceptions are caught. -/
def run (w : World) : List Op → World
  | [] => w
  | o :: os => run (step w o).1 os

end Verif.EventLive
