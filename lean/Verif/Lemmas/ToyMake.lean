import Verif.Lemmas.Toy
import Verif.Spec.FactoryArgs
/-!
# Draws and factories for examples
-/

namespace Verif

open Spec

def toySk (x : UInt8) : Bytes := List.replicate 32 x
def toyVk (x : UInt8) : Bytes := List.replicate 64 x

def toyTaskDraws : TaskDraw where
  key := toyVk 8
  eth := (toySk 6, toyVk 6)
  offer := { key := toyVk 10, now := 1500000000, header :=
    { key := toyVk 9, mask := [1, 2], now := 1500000000, uuid := 0x11111111111141118111111111111111,
      nodeName := p!"Ada", timeout := 60, version := (1, 2, 3), memory := 1, maxPrice := 5, budget := 7, count := 3 } }
  definition := { taskId := p!"t", subtaskId := p!"s", resource := p!"r", now := 1500000000 }
  uuid1 := 0x22222222222242228222222222222222
  uuid2 := 0x33333333333343338333333333333333
  package := p!"abc"
  size := 5
  price := 6
  now := 1500000000

def toyDraws : Draws where
  text _ := p!"some text"
  num _ := 42
  bytes _ := toyVk 3
  member _ e := e.values.headD []
  task _ := toyTaskDraws
  now _ := 1500000000

theorem toyDraws_members : MembersDrawn toyDraws := by
  intro path e
  show e.values.headD [] ∈ e.values
  cases e <;> decide

def toyMake (c : Cls) (kw : Attrs) : Res Msg :=
  make toyEnv (fun _ _ _ => .ok .none) (fun b => (b ++ List.replicate 32 0).take 32) toyDraws c kw

end Verif
