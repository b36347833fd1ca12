2 33
3 60
4 42
5 43
6 44
7 38
8 37
9 33
10 34
11 31
12 33
13 30
14 33
15 30
16 33
17 30
18 33
19 30
20 33
21 30
22 33
23 30
24 33
25 30
