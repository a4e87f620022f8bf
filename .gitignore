.lake/
lean/.lake/
*.olean
