import Verif.Props.Alloc
import Verif.Props.Deque
import Verif.Props.HashTable
import Verif.Props.RedBlack
import Verif.Props.RedBlackPic
import Verif.Props.AVL
import Verif.Props.Critbit
import Verif.Props.CritbitShape
import Verif.Props.Interchange
import Verif.Props.Words
import Verif.Props.Bytes
import Verif.Props.Hostile
import Verif.Props.Capacity
import Verif.Props.HashOrder
import Verif.Props.AnyOrder
import Verif.Props.AnyEq
import Verif.Props.Nav
import Verif.Props.Keep
import Verif.Props.Peak
import Verif.Props.Poke
import Verif.Props.Cost
import Verif.Props.Resize
import Verif.Props.Slots
import Verif.Props.Relink
import Verif.Props.Loops
import Verif.Props.Steps
import Verif.Props.Fuzz
import Verif.Props.Uninit
import Verif.Props.InPlace
import Verif.Props.InPlaceUninit
import Verif.Props.Index
import Verif.Props.FuzzPower
import Verif.Props.Counter
import Verif.Props.Rehash
import Verif.Props.Copy
import Verif.Props.Simulate
import Verif.Props.Like
import Verif.Props.Textbook
import Verif.Props.UnitTests
import Verif.Props.Undo
import Verif.Props.Bench
import Verif.Props.Endless
import Verif.Props.Caprice
import Verif.Props.Local
import Verif.Props.Shared
import Verif.Props.Queues
import Verif.Props.SharedCritbit
import Verif.Props.Amortised
import Verif.Props.AmortisedAVL
import Verif.Props.AVLShapes
import Verif.Props.HashShapes
import Verif.Props.HashCost
import Verif.Props.AnySlots
import Verif.Props.RBFull
import Verif.Props.RBDeep
import Verif.Props.AVLPerfect
import Verif.Props.Mirror
